import Verif.Visualizer.Layout
import Verif.Setup.Model
/-!
# The title in the PostScript file (C104)

The block `if (!opts.show_title.empty())` of `ShowMesaureLines`, /repo/src/gcode2ps.cc lines 289-299: a comment with the title, and the
title in strokes below the X axis. That it fits in the width is C84.
-/
namespace BeagleG.Visualizer.Title

open Text (Byte)
open Setup (ascii)

/-! ### The place -/

/-- Where the title is on the plane (gcode2ps.cc lines 292-297, with `x_xy_draw`, lines 266-270). -/
def places (title : List Int) (xlo xhi ylo size : ℚ) : Option (List (ℚ × ℚ)) :=
  (titleSize title xlo xhi size).bind fun ts =>
    (Hershey.drawText title size (3 / 10 * size) .left ts).map fun calls =>
      calls.map fun a => (xlo + a.x, ylo - 3 / 2 * size + a.y)

/-- The places agree with the X coordinates of C84. -/
theorem places_x (title : List Int) (xlo xhi ylo size : ℚ) :
    (places title xlo xhi ylo size).map (List.map Prod.fst) = titleX title xlo xhi size := by
  unfold places titleX
  cases titleSize title xlo xhi size with
  | none => rfl
  | some ts =>
    simp only [Option.bind_some, Option.map_map]
    congr 1
    funext l
    simp [Function.comp_def]

theorem titleSize_small (title : List Int) {xlo xhi size : ℚ} (hs : 0 ≤ size) (hwide : 2 * size ≤ xhi - xlo) :
    ∃ ts, titleSize title xlo xhi size = some ts ∧ 0 ≤ ts ∧ ts ≤ size * (7 / 10) := by
  have h7 : 0 ≤ size * (7 / 10) := by positivity
  obtain ⟨w, hw, -⟩ := Hershey.C81_width title h7
  by_cases hl : (xhi - xlo) - 2 * size < w
  · have hpos : 0 < w := by linarith
    refine ⟨size * (7 / 10) * (((xhi - xlo) - 2 * size) / w), by simp [titleSize, hw, hl], ?_, ?_⟩
    · exact mul_nonneg h7 (div_nonneg (by linarith) hpos.le)
    · have : ((xhi - xlo) - 2 * size) / w ≤ 1 := (div_le_one hpos).2 hl.le
      nlinarith
  · exact ⟨size * (7 / 10), by simp [titleSize, hw, hl], h7, le_refl _⟩

/-- **C104** (as far as it holds) If the box is at least two text sizes wide, the title is below the box, half a text size or more away from it.
-/
theorem C104_below_partial (title : List Int) {xlo xhi ylo size : ℚ} (hs : 0 ≤ size) (hwide : 2 * size ≤ xhi - xlo) :
    ∃ l, places title xlo xhi ylo size = some l ∧ ∀ q ∈ l, q.2 ≤ ylo - size / 2 := by
  obtain ⟨ts, h1, h2, h3⟩ := titleSize_small title hs hwide
  obtain ⟨w, out, h6, h7, h8⟩ := Hershey.C81_extent title size (3 / 10 * size) .left h2
  refine ⟨_, by rw [places, h1, Option.bind_some, h7]; rfl, fun q hq => ?_⟩
  obtain ⟨a, ha, rfl⟩ := List.mem_map.1 hq
  obtain ⟨-, -, hy, -⟩ := h8 a ha
  dsimp only
  linarith

/-- In a narrow picture the letters stand upside down and run to the left: two letters I in a picture of no width, the base line is at -6/5.
-/
theorem C104_upside_down : ∃ l, places [73, 73] 0 0 0 1 = some l ∧ ∃ q ∈ l, q.2 < -6 / 5 ∧ q.1 < 0 := by
  refine ⟨(places [73, 73] 0 0 0 1).getD [], ?_, ?_⟩ <;> decide +kernel

/-- Non-vacuity of `C104_below_partial`. -/
example : places [73, 73] 0 10 0 1 = some [(139 / 125, -153 / 250), (139 / 125, -6 / 5),
    (167 / 125, -153 / 250), (167 / 125, -6 / 5)] := by decide +kernel

/-! ### The comment -/

/-- The comment before the title, gcode2ps.cc line 290. -/
def titleComment (t : List Byte) : List Byte := ascii "    % -- Title '" ++ t ++ ascii "'\n"

/-- What ends a comment in PostScript: newline, carriage return, form feed. (PostScript Language Reference, 3.2.1; not
in the repository.) -/
def eol (b : Byte) : Bool := b = 10 || b = 13 || b = 12

/-- What is left for the interpreter when the comments are taken out; the first argument: within a comment. (PostScript
Language Reference, 3.2.1. Simplification: `%` within a string is not considered; gcode2ps has none here.) -/
def code : Bool → List Byte → List Byte
  | _, [] => []
  | true, b :: l => if eol b then b :: code false l else code true l
  | false, b :: l => if b = 37 then code true l else b :: code false l

theorem code_skip : ∀ (u l : List Byte), (∀ b ∈ u, eol b = false) → code true (u ++ l) = code true l
  | [], _, _ => rfl
  | b :: u, l, h => by
    rw [List.cons_append, code, if_neg (by rw [h b List.mem_cons_self]; exact Bool.false_ne_true)]
    exact code_skip u l fun c hc => h c (List.mem_cons_of_mem _ hc)

theorem comment_code (t rest : List Byte) :
    code false (titleComment t ++ rest) = ascii "    " ++ code true (t ++ ascii "'\n" ++ rest) := by
  have h : titleComment t ++ rest = ascii "    %" ++ (ascii " -- Title '" ++ (t ++ ascii "'\n" ++ rest)) := by
    have e : ascii "    % -- Title '" = ascii "    %" ++ ascii " -- Title '" := by decide +kernel
    rw [titleComment, e]
    simp only [List.append_assoc]
  rw [h]
  have h1 : ∀ l, code false (ascii "    %" ++ l) = ascii "    " ++ code true l := fun l => rfl
  rw [h1, code_skip]
  decide +kernel

/-- **C104** (as far as it holds) A title of one line is a comment and nothing else: what the interpreter gets does not
depend on it. -/
theorem C104_comment_partial (t rest : List Byte) (h : ∀ b ∈ t, eol b = false) :
    code false (titleComment t ++ rest) = ascii "    \n" ++ code false rest := by
  rw [comment_code, List.append_assoc, code_skip t _ h]
  rfl

/-- **C104** fails for a title of several lines, although `DrawText` would draw them: from the second line on the title
is executed. -/
theorem C104_executed (u v rest : List Byte) (b : Byte) (hu : ∀ c ∈ u, eol c = false) (hb : eol b = true) :
    code false (titleComment (u ++ b :: v) ++ rest) = ascii "    " ++ b :: code false (v ++ ascii "'\n" ++ rest) := by
  rw [comment_code, List.append_assoc, List.append_assoc, code_skip u _ hu, List.cons_append, code, if_pos hb,
    List.append_assoc]

/-- The interpreter would look for `lines'`, which is not defined; another title could erase the page. -/
example : code false (titleComment (ascii "two\nlines") ++ ascii "stroke") = ascii "    \nlines'\nstroke" ∧
    code false (titleComment (ascii "two\nerasepage %") ++ ascii "stroke") = ascii "    \nerasepage \nstroke" := by
  decide +kernel

end BeagleG.Visualizer.Title
