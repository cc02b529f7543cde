import Verif.Visualizer.OptionsProps
import Verif.Planner.Exact
import Mathlib.Tactic.Ring
import Mathlib.Tactic.NormNum
/-!
# C100: defaults, units, margins and exit codes of gcode2ps
-/
namespace BeagleG.Visualizer.Options

open BeagleG.Text (Byte)
open BeagleG.Planner (Arith Exact)
open BeagleG.Setup (ascii Machine)

variable {D F : Type} {A : Arith F} {W : Sys F}

/-- **C100, defaults**: without options nothing is read or written but the picture of the path with its measures and help lines, not
turned, not enlarged, without perspective, frames, grid, speeds, laser and range check. -/
theorem C100_initial : (Vars.start A).config = none ∧ (Vars.start A).out = [] ∧ (Vars.start A).writable = true ∧
    (Vars.start A).emptied = [] ∧ (Vars.start A).dimensions = true ∧ (Vars.start A).machinePath = true ∧
    (Vars.start A).gcodePath = true ∧ (Vars.start A).rangeCheck = false ∧ (Vars.start A).scale = A.ofInt 1 ∧
    (Vars.start A).rotations = [] ∧ (Vars.start A).frames < 1 ∧ (Vars.start A).quiet = false ∧ (Vars.start A).ijk = true ∧
    (Vars.start A).speeds = false ∧ (Vars.start A).laser = false ∧ (Vars.start A).title = ascii "BeagleG ~ gcode2ps" := by
  refine ⟨rfl, rfl, rfl, rfl, rfl, rfl, rfl, rfl, rfl, rfl, (show (-1 : Int) < 1 by decide), rfl, rfl, rfl, rfl, rfl⟩

theorem contains_iff (t : List Byte) : ∀ s : List Byte, contains s t = true ↔ t <:+: s
  | [] => by simp [contains]
  | c :: cs => by
    rw [contains, Bool.or_eq_true, decide_eq_true_eq, contains_iff t cs, List.infix_cons_iff]

section
variable {F : Type} [Field F] [LinearOrder F] [IsStrictOrderedRing F] {A : Arith F} {W : Sys F}

/-- **C100, defaults**: width, eye, grid and tool are not set, so the page follows from the scale, there is no perspective and no grid,
and the tool is 2 mm. -/
theorem C100_unset (ex : Exact A) : (Vars.start A).width < 0 ∧ (Vars.start A).eye < 0 ∧ (Vars.start A).grid < 0 ∧
    ((Vars.start A).settle A).tool = 2 ∧ ∀ m origin d, Step.grid d ∉ (Vars.start A).steps A W m origin := by
  have h : A.ofInt (-1) = -1 := by rw [ex.ofInt]; norm_num
  have hz : A.lt A.zero (A.ofInt (-1)) = false := by
    show A.lt (A.ofInt 0) (A.ofInt (-1)) = false
    rw [ex.lt, ex.ofInt, ex.ofInt]; norm_num
  refine ⟨?_, ?_, ?_, ?_, ?_⟩
  · show A.ofInt (-1) < 0
    rw [h]; norm_num
  · show A.ofInt (-1) < 0
    rw [h]; norm_num
  · show A.ofInt (-1) < 0
    rw [h]; norm_num
  · rw [(C100_effective (A := A) (Vars.start A)).2.2.1]
    · rw [ex.ofInt]; norm_num
    · show A.lt (A.ofInt (-1)) (A.ofInt 0) = true
      rw [ex.lt, h, ex.ofInt]; norm_num
  · intro m origin d hd
    unfold Vars.steps at hd
    have hg : (Vars.start A).grid = A.ofInt (-1) := rfl
    simp only [hg, hz, List.mem_append, List.mem_cons, List.mem_map, mem_if, List.not_mem_nil, reduceCtorEq, or_false,
      and_false, exists_false, Bool.false_eq_true, false_and] at hd

/-- **C100, units**: the distance of the grid is in millimetres unless the argument says `in`, the width of the page in points (72 to an
inch) unless it says `mm`. -/
theorem C100_units (ex : Exact A) (arg : List Byte) :
    (ascii "in" <:+: arg → gridOf A W arg * 10 = W.atof arg * 254) ∧
    (¬ ascii "in" <:+: arg → gridOf A W arg = W.atof arg) ∧
    (ascii "mm" <:+: arg → widthOf A W arg = W.atof arg) ∧
    (¬ ascii "mm" <:+: arg → widthOf A W arg * 720 = W.atof arg * 254) := by
  have hi : inch A = 127 / 5 := by
    unfold inch
    rw [ex.div, ex.ofInt, ex.ofInt]; norm_num
  simp only [← contains_iff, Bool.not_eq_true]
  refine ⟨fun h => ?_, fun h => ?_, fun h => ?_, fun h => ?_⟩
  · rw [gridOf, if_pos h, ex.mul, hi]; ring
  · rw [gridOf, if_neg (by rw [h]; decide)]
  · rw [widthOf, if_pos h]
  · rw [widthOf, if_neg (by rw [h]; decide), ex.mul, ex.div, ex.ofInt, hi]
    push_cast
    ring

omit [IsStrictOrderedRing F] in
/-- **C100, margins**: around the picture are 2 mm more than the tool reaches, and 15 mm more above if there is a legend of speeds; scale,
width, eye and frames are those of the options. -/
theorem C100_margins (ex : Exact A) (v : Vars F) (m : Machine F) (origin : Planner.Axis → F) :
    (∀ x y s w, .boundingBox x y s w ∈ v.steps A W m origin ↔
      x = 2 + v.tool / 2 ∧ y = 2 + v.tool / 2 + (if v.speeds then 15 else 0) ∧ s = v.scale ∧ w = v.width) ∧
    (∀ x d n, .header x d n ∈ v.steps A W m origin ↔ x = 2 + v.tool / 2 ∧ d = v.eye ∧ n = v.frames) := by
  have h2 : A.add (A.ofInt 2) (A.div v.tool (A.ofInt 2)) = 2 + v.tool / 2 := by
    rw [ex.add, ex.div, ex.ofInt]; norm_num
  have h15 : A.add (2 + v.tool / 2) (if v.speeds then A.ofInt 15 else A.zero) = 2 + v.tool / 2 + (if v.speeds then 15 else 0) := by
    rw [ex.add]
    cases v.speeds
    · show _ + A.ofInt 0 = _
      rw [ex.ofInt]; norm_num
    · simp only [if_true, ex.ofInt]; norm_num
  unfold Vars.steps
  dsimp only
  rw [h2, h15]
  constructor
  · intro x y s w
    simp only [List.mem_append, List.mem_cons, List.mem_map, mem_if, List.not_mem_nil, reduceCtorEq, or_false, and_false,
      exists_false, Step.boundingBox.injEq]
  · intro x d n
    simp only [List.mem_append, List.mem_cons, List.mem_map, mem_if, List.not_mem_nil, reduceCtorEq, false_or, or_false, and_false,
      exists_false, Step.header.injEq]

end

/-- **C100, exit codes**: without a picture the exit code is 1 (an error in the options, no file, an output that cannot be created, a
configuration that cannot be read or has errors); with a picture it is 0 or 1. -/
theorem C100_code (N : Config.Numbers D F) (args : List (List Byte)) :
    ((main A W N args).steps = [] → (main A W N args).code = 1) ∧ (main A W N args).code ≤ 1 := by
  have ne : ∀ (v : Vars F) m origin, v.steps A W m origin ≠ [] := by
    intro v m origin h
    unfold Vars.steps at h
    simp at h
  unfold main
  dsimp only
  split
  · exact ⟨fun _ => rfl, Nat.le_refl _⟩
  · split
    · exact ⟨fun _ => rfl, Nat.le_refl _⟩
    · split
      · exact ⟨fun _ => rfl, Nat.le_refl _⟩
      · split
        · exact ⟨fun _ => rfl, Nat.le_refl _⟩
        · refine ⟨fun h => absurd h (ne _ _ _), ?_⟩
          have k : ∀ n : Nat, (if n = 0 then 0 else 1 : Nat) ≤ 1 := fun n => by split <;> omega
          exact k _

end BeagleG.Visualizer.Options
