import Verif.Stats.Model
import Verif.Machine.PlannerRel
import Verif.Machine.Example
import Mathlib.Order.Basic
import Mathlib.Order.Lattice
import Mathlib.Tactic.FieldSimp
import Mathlib.Tactic.Ring
import Mathlib.Algebra.Order.Field.Basic
/-!
# Print statistics (C50)
-/
namespace BeagleG.Stats

open Planner (Axis Motor Arith Command)
open Hardware Machine

variable {F σ : Type}

/-! ### What the property speaks about -/

/-- The targets of all moves of the file. -/
def moves : List (Event F) → List (Axis → F)
  | [] => []
  | .rapid _ pos :: evs => pos :: moves evs
  | .coordinated _ pos :: evs => pos :: moves evs
  | _ :: evs => moves evs

/-- The dwells of the file, in milliseconds. -/
def dwells : List (Event F) → List F
  | [] => []
  | .dwell ms :: evs => ms :: dwells evs
  | _ :: evs => dwells evs

/-- The dwells among the items. -/
def itemDwells : List (Item F) → List F
  | [] => []
  | .dwell ms :: l => ms :: itemDwells l
  | .segment _ :: l => itemDwells l

/-- Sum in the order of the items, as the code adds. -/
def totalTime (A : Arith F) (l : List (Item F)) : F :=
  l.foldl (fun t i => A.toFloat (A.add t (itemTime A i))) A.zero

/-! ### The backend only adds segments -/

/-- `y` is `x` with segments added. -/
def Added (A : Arith F) (x y : Book F) : Prop :=
  ∃ cmds : List (Command F), y = (cmds.map Item.segment).foldl (spend A) x

theorem added_refl (A : Arith F) (x : Book F) : Added A x x := ⟨[], rfl⟩

theorem added_trans {A : Arith F} {x y z : Book F} (h : Added A x y) (h' : Added A y z) : Added A x z := by
  obtain ⟨l, rfl⟩ := h
  obtain ⟨l', rfl⟩ := h'
  exact ⟨l ++ l', by rw [List.map_append, List.foldl_append]⟩

variable {e : Env F (Book F) σ}

theorem respects_added (hq : e.queue = statsQueue e.A) :
    Respects e.backend (fun x y => Added e.A x.2 y.2) where
  refl b := added_refl _ _
  trans h h' := added_trans h h'
  enqueue b cmd := by
    show Added e.A b.2 (e.queue.enqueue b cmd).1.2
    rw [hq]
    exact ⟨[cmd], rfl⟩
  wait b := by
    show Added e.A b.2 (e.queue.waitQueueEmpty b).2
    rw [hq]
    exact added_refl _ _
  ext b m p := by
    show Added e.A b.2 (e.queue.setExternalPosition b m p).2
    rw [hq]
    exact added_refl _ _

theorem added_step (hq : e.queue = statsQueue e.A) {l : Label F} {s s' : Machine.State F (Book F) σ}
    (h : Step e l s s') : Added e.A (book s) (book s') := by
  have hr := respects_added hq
  cases l <;> unfold Step at h
  case say => rw [h.2]; exact added_refl _ _
  case stopped => rw [h.2]; exact added_refl _ _
  case tick => rw [h]; exact added_refl _ _
  case flag => rw [h.2]; exact added_refl _ _
  case clear => rw [h]; exact added_refl _ _
  case auxBit => rw [h]; exact added_refl _ _
  case setAux => rw [h]; exact added_refl _ _
  case auxOff => rw [h]; exact added_refl _ _
  case fan => rw [h]; exact added_refl _ _
  case spindle => obtain ⟨_, _, h⟩ := h; rw [h]; exact added_refl _ _
  case halt => exact (halt_rel hr h).2
  case move => obtain ⟨_, _, _, h⟩ := h; exact (move_rel hr h).2
  case drive => obtain ⟨_, _, _, _, h⟩ := h; exact (drive_rel hr h).2
  case external => obtain ⟨_, h⟩ := h; exact (external_rel hr h).2
  case enable on =>
    rw [h]
    show Added e.A s.planner.backend.2 (e.queue.motorEnable s.planner.backend on).2
    rw [hq]
    exact added_refl _ _
  case wait =>
    rw [h]
    show Added e.A s.planner.backend.2 (e.queue.waitQueueEmpty s.planner.backend).2
    rw [hq]
    exact added_refl _ _
  case lookahead =>
    obtain ⟨n, h⟩ := h
    rw [h]
    show Added e.A s.planner.backend.2 (Planner.setLookahead s.planner n).1.backend.2
    unfold Planner.setLookahead
    split <;> exact added_refl _ _
  case never => rw [h]; exact added_refl _ _
  case homed => rw [h]; exact added_refl _ _
  case feed => rw [h]; exact added_refl _ _
  case factor => rw [h]; exact added_refl _ _
  case pause => rw [h]; exact added_refl _ _
  case timers => rw [h]; exact added_refl _ _

theorem added_machine (hq : e.queue = statsQueue e.A) {ev : Machine.Event F}
    {s s' : Machine.State F (Book F) σ} {a : Answer F} (h : Machine.handle e ev s = some (a, s')) :
    Added e.A (book s) (book s') := by
  obtain ⟨ls, ht, -⟩ := does_handle e ev s a s' h
  clear h
  induction ht with
  | nil => exact added_refl _ _
  | cons h1 _ ih => exact added_trans (added_step hq h1) ih

/-- One event: it is noted, and segments are added. -/
theorem added_handle (hq : e.queue = statsQueue e.A) {ev : Event F} {s s' : Machine.State F (Book F) σ}
    (h : handle e ev s = some s') : Added e.A (ev.note e.A (book s)) (book s') := by
  unfold handle at h
  dsimp only at h
  cases hd : ev.delegated with
  | none =>
    rw [hd] at h
    cases h
    exact added_refl _ _
  | some m =>
    rw [hd] at h
    dsimp only at h
    cases hm : Machine.handle e m (withBook s (ev.note e.A (book s))) with
    | none => rw [hm] at h; cases h
    | some r =>
      rw [hm] at h
      cases h
      have := added_machine hq (a := r.1) (s' := r.2) hm
      exact this

/-! ### Time -/

/-- The recorded items add up to the time. -/
def Sum (A : Arith F) (b : Book F) : Prop := b.stats.time = totalTime A b.items

theorem sum_spend {A : Arith F} {b : Book F} (h : Sum A b) (i : Item F) : Sum A (spend A b i) := by
  unfold Sum at *
  show A.toFloat (A.add b.stats.time (itemTime A i)) = totalTime A (b.items ++ [i])
  unfold totalTime at *
  rw [List.foldl_append, ← h]
  rfl

theorem sum_added {A : Arith F} {b b' : Book F} (h : Added A b b') (hs : Sum A b) : Sum A b' := by
  obtain ⟨l, rfl⟩ := h
  induction l generalizing b with
  | nil => exact hs
  | cons c l ih => exact ih (sum_spend hs _)

theorem itemDwells_append (l l' : List (Item F)) : itemDwells (l ++ l') = itemDwells l ++ itemDwells l' := by
  induction l with
  | nil => rfl
  | cons i l ih => cases i <;> simp [itemDwells, ih]

theorem dwells_added {A : Arith F} {b b' : Book F} (h : Added A b b') :
    itemDwells b'.items = itemDwells b.items := by
  obtain ⟨l, rfl⟩ := h
  induction l generalizing b with
  | nil => rfl
  | cons c l ih =>
    refine (ih (b := spend A b (.segment c))).trans ?_
    show itemDwells (b.items ++ [.segment c]) = _
    rw [itemDwells_append]
    exact List.append_nil _

theorem note_sum {A : Arith F} {b : Book F} (h : Sum A b) (ev : Event F) : Sum A (ev.note A b) := by
  cases ev
  case dwell => exact sum_spend h _
  all_goals exact h

theorem note_dwells (A : Arith F) (b : Book F) (ev : Event F) :
    itemDwells (ev.note A b).items = itemDwells b.items ++ dwells [ev] := by
  cases ev
  case dwell ms => exact itemDwells_append _ _
  all_goals exact (List.append_nil _).symm

theorem dwells_cons (ev : Event F) (evs : List (Event F)) : dwells (ev :: evs) = dwells [ev] ++ dwells evs := by
  cases ev <;> rfl

theorem run_time (hq : e.queue = statsQueue e.A) {evs : List (Event F)} {s s' : Machine.State F (Book F) σ}
    (h : run e s evs = some s') (hs : Sum e.A (book s)) :
    Sum e.A (book s') ∧ itemDwells (book s').items = itemDwells (book s).items ++ dwells evs := by
  induction evs generalizing s with
  | nil => cases h; exact ⟨hs, (List.append_nil _).symm⟩
  | cons ev evs ih =>
    unfold run at h
    cases hh : handle e ev s with
    | none => rw [hh] at h; cases h
    | some s1 =>
      rw [hh] at h
      have ha := added_handle hq hh
      have h1 := sum_added ha (note_sum hs ev)
      obtain ⟨h2, h3⟩ := ih h h1
      refine ⟨h2, ?_⟩
      rw [h3, dwells_added ha, note_dwells, dwells_cons ev evs, List.append_assoc]

/-- **C50** (time). For every sequence of events, the reported time is the sum, in the order in which
they happen, of the times of all segments that were sent to the motors and of all dwells of the file. -/
theorem C50_time (hq : e.queue = statsQueue e.A) {evs : List (Event F)} {s s' : Machine.State F (Book F) σ}
    (h : run e (withBook s ⟨initial e.A, []⟩) evs = some s') :
    (book s').stats.time = totalTime e.A (book s').items ∧
      itemDwells (book s').items = dwells evs :=
  run_time hq h rfl

/-- The time of a segment is right: a motor that accelerates uniformly from `v0` to `v1` in the time
`t = 2 n / (v0 + v1)` does `n` steps. -/
theorem C50_segment_time {K : Type} [Field K] [LinearOrder K] [IsStrictOrderedRing K] (n v0 v1 t : K)
    (hv : 0 < v0 + v1) (hn : 0 < n) (ht : t = 2 * n / (v0 + v1)) :
    n = (v1 - v0) / t / 2 * t ^ 2 + v0 * t := by
  have h0 : v0 + v1 ≠ 0 := ne_of_gt hv
  have h1 : n ≠ 0 := ne_of_gt hn
  subst ht
  field_simp
  ring

/-! ### Extremes -/

/-- What the moves of the file make of the statistics, apart from the time. -/
theorem run_coordinates (hq : e.queue = statsQueue e.A) {evs : List (Event F)}
    {s s' : Machine.State F (Book F) σ} (h : run e s evs = some s') :
    ∃ t, (book s').stats = { (moves evs).foldl (updateCoordinates e.A) (book s).stats with time := t } := by
  have hadd : ∀ {b b' : Book F}, Added e.A b b' → ∃ t, b'.stats = { b.stats with time := t } := by
    intro b b' ha
    obtain ⟨l, rfl⟩ := ha
    induction l generalizing b with
    | nil => exact ⟨_, rfl⟩
    | cons c l ih =>
      obtain ⟨t, ht⟩ := ih (b := spend e.A b (.segment c))
      exact ⟨t, ht⟩
  have htime : ∀ (l : List (Axis → F)) (x : Stats F) (t : F), ∃ t',
      l.foldl (updateCoordinates e.A) { x with time := t } =
        { l.foldl (updateCoordinates e.A) x with time := t' } := by
    intro l
    induction l with
    | nil => intro x t; exact ⟨t, rfl⟩
    | cons p l ih =>
      intro x t
      obtain ⟨t', ht⟩ := ih (updateCoordinates e.A x p) t
      exact ⟨t', ht⟩
  induction evs generalizing s with
  | nil => cases h; exact ⟨_, rfl⟩
  | cons ev evs ih =>
    unfold run at h
    cases hh : handle e ev s with
    | none => rw [hh] at h; cases h
    | some s1 =>
      rw [hh] at h
      obtain ⟨t, ht⟩ := ih h
      obtain ⟨t1, ht1⟩ := hadd (added_handle hq hh)
      rw [ht1] at ht
      have hn : ∃ t2, (moves evs).foldl (updateCoordinates e.A) { (ev.note e.A (book s)).stats with time := t1 } =
          { (moves (ev :: evs)).foldl (updateCoordinates e.A) (book s).stats with time := t2 } := by
        cases ev
        case rapid feed pos => exact htime (moves evs) (updateCoordinates e.A (book s).stats pos) t1
        case coordinated feed pos => exact htime (moves evs) (updateCoordinates e.A (book s).stats pos) t1
        all_goals exact htime (moves evs) (book s).stats t1
      obtain ⟨t2, ht2⟩ := hn
      rw [ht2] at ht
      exact ⟨t, ht⟩

section order
variable [LinearOrder F]

/-- Comparison is that of a linear order; so there are no NaNs. -/
def Ordered (A : Arith F) : Prop := ∀ a b, A.lt a b = decide (a < b)

/-- `v` is the least of the values. -/
def Least (v : F) (l : List F) : Prop := v ∈ l ∧ ∀ x ∈ l, v ≤ x

/-- `v` is the greatest of the values. -/
def Greatest (v : F) (l : List F) : Prop := v ∈ l ∧ ∀ x ∈ l, x ≤ v

theorem min_eq {A : Arith F} (hA : Ordered A) (a b : F) : A.min a b = min a b := by
  unfold Planner.Arith.min
  rw [hA]
  by_cases h : b < a
  · rw [if_pos (by simpa using h), min_eq_right h.le]
  · rw [if_neg (by simpa using h), min_eq_left (not_lt.1 h)]

theorem fmax_eq {A : Arith F} (hA : Ordered A) (a b : F) : fmax A a b = max a b := by
  unfold fmax
  rw [hA]
  by_cases h : a < b
  · rw [if_pos (by simpa using h), max_eq_right h.le]
  · rw [if_neg (by simpa using h), max_eq_left (not_lt.1 h)]

/-- Folding with `min` finds the least of the start value and the list. -/
theorem least_fold (l : List F) (v : F) : Least (l.foldl (fun a x => min x a) v) (v :: l) := by
  induction l generalizing v with
  | nil => exact ⟨List.mem_cons_self, fun x hx => by simp at hx; rw [hx]; exact le_refl _⟩
  | cons y l ih =>
    obtain ⟨h1, h2⟩ := ih (min y v)
    rw [List.foldl_cons]
    constructor
    · rcases List.mem_cons.1 h1 with h | h
      · rw [h]
        rcases min_choice y v with h | h <;> rw [h] <;> simp
      · exact List.mem_cons_of_mem _ (List.mem_cons_of_mem _ h)
    · intro x hx
      have h0 := h2 _ List.mem_cons_self
      rcases List.mem_cons.1 hx with rfl | hx
      · exact h0.trans (min_le_right _ _)
      · rcases List.mem_cons.1 hx with rfl | hx
        · exact h0.trans (min_le_left _ _)
        · exact h2 x (List.mem_cons_of_mem _ hx)

theorem greatest_fold (l : List F) (v : F) : Greatest (l.foldl (fun a x => max x a) v) (v :: l) := by
  induction l generalizing v with
  | nil => exact ⟨List.mem_cons_self, fun x hx => by simp at hx; rw [hx]; exact le_refl _⟩
  | cons y l ih =>
    obtain ⟨h1, h2⟩ := ih (max y v)
    rw [List.foldl_cons]
    constructor
    · rcases List.mem_cons.1 h1 with h | h
      · rw [h]
        rcases max_choice y v with h | h <;> rw [h] <;> simp
      · exact List.mem_cons_of_mem _ (List.mem_cons_of_mem _ h)
    · intro x hx
      have h0 := h2 _ List.mem_cons_self
      rcases List.mem_cons.1 hx with rfl | hx
      · exact (le_max_right _ _).trans h0
      · rcases List.mem_cons.1 hx with rfl | hx
        · exact (le_max_left _ _).trans h0
        · exact h2 x (List.mem_cons_of_mem _ hx)

/-- The start value does not matter if some value is not above it. -/
theorem Least.drop {v w : F} {l : List F} (h : Least v (w :: l)) (hl : ∃ x ∈ l, x ≤ w) : Least v l := by
  refine ⟨?_, fun x hx => h.2 x (List.mem_cons_of_mem _ hx)⟩
  rcases List.mem_cons.1 h.1 with hv | hv
  · obtain ⟨x, hx, hxw⟩ := hl
    have := h.2 x (List.mem_cons_of_mem _ hx)
    rw [← hv] at hxw
    rw [le_antisymm this hxw]
    exact hx
  · exact hv

theorem Greatest.drop {v w : F} {l : List F} (h : Greatest v (w :: l)) (hl : ∃ x ∈ l, w ≤ x) :
    Greatest v l := by
  refine ⟨?_, fun x hx => h.2 x (List.mem_cons_of_mem _ hx)⟩
  rcases List.mem_cons.1 h.1 with hv | hv
  · obtain ⟨x, hx, hxw⟩ := hl
    have := h.2 x (List.mem_cons_of_mem _ hx)
    rw [← hv] at hxw
    rw [le_antisymm hxw this]
    exact hx
  · exact hv

/-- The fields after all moves. -/
theorem fold_fields {A : Arith F} (hA : Ordered A) (l : List (Axis → F)) (x : Stats F) :
    let y := l.foldl (updateCoordinates A) x
    y.xMin = (l.map (· 0)).foldl (fun a x => min x a) x.xMin ∧
    y.xMax = (l.map (· 0)).foldl (fun a x => max x a) x.xMax ∧
    y.yMin = (l.map (· 1)).foldl (fun a x => min x a) x.yMin ∧
    y.yMax = (l.map (· 1)).foldl (fun a x => max x a) x.yMax ∧
    y.zMin = (l.map (· 2)).foldl (fun a x => min x a) x.zMin ∧
    y.zMax = (l.map (· 2)).foldl (fun a x => max x a) x.zMax := by
  induction l generalizing x with
  | nil => exact ⟨rfl, rfl, rfl, rfl, rfl, rfl⟩
  | cons p l ih =>
    have := ih (updateCoordinates A x p)
    have e1 : (updateCoordinates A x p).xMin = min (p 0) x.xMin := min_eq hA _ _
    have e2 : (updateCoordinates A x p).xMax = max (p 0) x.xMax := fmax_eq hA _ _
    have e3 : (updateCoordinates A x p).yMin = min (p 1) x.yMin := min_eq hA _ _
    have e4 : (updateCoordinates A x p).yMax = max (p 1) x.yMax := fmax_eq hA _ _
    have e5 : (updateCoordinates A x p).zMin = min (p 2) x.zMin := min_eq hA _ _
    have e6 : (updateCoordinates A x p).zMax = max (p 2) x.zMax := fmax_eq hA _ _
    rw [e1, e2, e3, e4, e5, e6] at this
    exact this

variable {evs : List (Event F)} {s : Machine.State F (Book F) σ} {r : Stats F}

/-- The extremes that are found: those of the moves and of the start values. -/
theorem C50_extremes (hA : Ordered e.A) (hq : e.queue = statsQueue e.A)
    (h : determinePrintStats e s evs = some r) :
    Least r.xMin (e.A.ofInt 10000000 :: (moves evs).map (· 0)) ∧
    Greatest r.xMax (e.A.zero :: (moves evs).map (· 0)) ∧
    Least r.yMin (e.A.ofInt 10000000 :: (moves evs).map (· 1)) ∧
    Greatest r.yMax (e.A.zero :: (moves evs).map (· 1)) ∧
    Least r.zMin (e.A.zero :: (moves evs).map (· 2)) ∧
    Greatest r.zMax (e.A.zero :: (moves evs).map (· 2)) := by
  unfold determinePrintStats at h
  cases hr : run e (withBook s ⟨initial e.A, []⟩) evs with
  | none => rw [hr] at h; cases h
  | some s' =>
    rw [hr] at h
    cases h
    dsimp only
    obtain ⟨t, ht⟩ := run_coordinates hq hr
    obtain ⟨h1, h2, h3, h4, h5, h6⟩ := fold_fields hA (moves evs) (initial e.A)
    rw [ht]
    show Least (List.foldl (updateCoordinates e.A) (initial e.A) (moves evs)).xMin _ ∧
      Greatest (List.foldl (updateCoordinates e.A) (initial e.A) (moves evs)).xMax _ ∧
      Least (List.foldl (updateCoordinates e.A) (initial e.A) (moves evs)).yMin _ ∧
      Greatest (List.foldl (updateCoordinates e.A) (initial e.A) (moves evs)).yMax _ ∧
      Least (List.foldl (updateCoordinates e.A) (initial e.A) (moves evs)).zMin _ ∧
      Greatest (List.foldl (updateCoordinates e.A) (initial e.A) (moves evs)).zMax _
    rw [h1, h2, h3, h4, h5, h6]
    exact ⟨least_fold _ _, greatest_fold _ _, least_fold _ _, greatest_fold _ _, least_fold _ _,
      greatest_fold _ _⟩

/-- **C50** (extremes), as far as it holds: the reported minimum of X and of Y is that of all moves if
some move is not beyond 1e7, the reported maximum of an axis is that of all moves if some move is not
negative there, and the reported minimum of Z is right only if some move is not above zero. -/
theorem C50_extremes_partial (hA : Ordered e.A) (hq : e.queue = statsQueue e.A)
    (h : determinePrintStats e s evs = some r) :
    ((∃ p ∈ moves evs, p 0 ≤ e.A.ofInt 10000000) → Least r.xMin ((moves evs).map (· 0))) ∧
    ((∃ p ∈ moves evs, e.A.zero ≤ p 0) → Greatest r.xMax ((moves evs).map (· 0))) ∧
    ((∃ p ∈ moves evs, p 1 ≤ e.A.ofInt 10000000) → Least r.yMin ((moves evs).map (· 1))) ∧
    ((∃ p ∈ moves evs, e.A.zero ≤ p 1) → Greatest r.yMax ((moves evs).map (· 1))) ∧
    ((∃ p ∈ moves evs, p 2 ≤ e.A.zero) → Least r.zMin ((moves evs).map (· 2))) ∧
    ((∃ p ∈ moves evs, e.A.zero ≤ p 2) → Greatest r.zMax ((moves evs).map (· 2))) := by
  obtain ⟨h1, h2, h3, h4, h5, h6⟩ := C50_extremes hA hq h
  refine ⟨fun ⟨p, hp, hx⟩ => h1.drop ⟨p 0, List.mem_map.2 ⟨p, hp, rfl⟩, hx⟩,
    fun ⟨p, hp, hx⟩ => h2.drop ⟨p 0, List.mem_map.2 ⟨p, hp, rfl⟩, hx⟩,
    fun ⟨p, hp, hx⟩ => h3.drop ⟨p 1, List.mem_map.2 ⟨p, hp, rfl⟩, hx⟩,
    fun ⟨p, hp, hx⟩ => h4.drop ⟨p 1, List.mem_map.2 ⟨p, hp, rfl⟩, hx⟩,
    fun ⟨p, hp, hx⟩ => h5.drop ⟨p 2, List.mem_map.2 ⟨p, hp, rfl⟩, hx⟩,
    fun ⟨p, hp, hx⟩ => h6.drop ⟨p 2, List.mem_map.2 ⟨p, hp, rfl⟩, hx⟩⟩

/-- **C50** does not hold for the lower end of Z: if all moves are above zero, as those of every print
that does not touch the bed, zero is reported, which no move reaches. -/
theorem C50_z_min_wrong (hA : Ordered e.A) (hq : e.queue = statsQueue e.A)
    (h : determinePrintStats e s evs = some r) (hz : ∀ p ∈ moves evs, e.A.zero < p 2) :
    r.zMin = e.A.zero ∧ r.zMin ∉ (moves evs).map (· 2) := by
  obtain ⟨-, -, -, -, h5, -⟩ := C50_extremes hA hq h
  have hn : r.zMin ∉ (moves evs).map (· 2) := by
    intro hm
    obtain ⟨p, hp, hx⟩ := List.mem_map.1 hm
    have := h5.2 _ List.mem_cons_self
    rw [← hx] at this
    exact absurd (hz p hp) (not_lt.2 this)
  refine ⟨?_, hn⟩
  rcases List.mem_cons.1 h5.1 with h | h
  · exact h
  · exact absurd h hn

/-- Nor for the upper ends: if all moves are at negative X, zero is reported. -/
theorem C50_x_max_wrong (hA : Ordered e.A) (hq : e.queue = statsQueue e.A)
    (h : determinePrintStats e s evs = some r) (hz : ∀ p ∈ moves evs, p 0 < e.A.zero) :
    r.xMax = e.A.zero ∧ r.xMax ∉ (moves evs).map (· 0) := by
  obtain ⟨-, h2, -⟩ := C50_extremes hA hq h
  have hn : r.xMax ∉ (moves evs).map (· 0) := by
    intro hm
    obtain ⟨p, hp, hx⟩ := List.mem_map.1 hm
    have := h2.2 _ List.mem_cons_self
    rw [← hx] at this
    exact absurd (hz p hp) (not_lt.2 this)
  refine ⟨?_, hn⟩
  rcases List.mem_cons.1 h2.1 with h | h
  · exact h
  · exact absurd h hn

end order

/-! ### Extrusion -/

/-- The reported filament length and height of the print: E of the last move, and Z of the last move
with more E than the one before it (which, for the first move, is zero). -/
def extrusion (A : Arith F) : F × F → List (Axis → F) → F × F
  | x, [] => x
  | (z, e), p :: ps => extrusion A (if A.lt e (p 9) then p 2 else z, p 9) ps

theorem C50_extrusion (hq : e.queue = statsQueue e.A) {evs : List (Event F)}
    {s : Machine.State F (Book F) σ} {r : Stats F} (h : determinePrintStats e s evs = some r) :
    (r.lastZ, r.filament) = extrusion e.A (e.A.zero, e.A.zero) (moves evs) := by
  have hf : ∀ (l : List (Axis → F)) (x : Stats F),
      ((l.foldl (updateCoordinates e.A) x).lastZ, (l.foldl (updateCoordinates e.A) x).filament) =
        extrusion e.A (x.lastZ, x.filament) l := by
    intro l
    induction l with
    | nil => intro x; rfl
    | cons p l ih => intro x; exact ih (updateCoordinates e.A x p)
  unfold determinePrintStats at h
  cases hr : run e (withBook s ⟨initial e.A, []⟩) evs with
  | none => rw [hr] at h; cases h
  | some s' =>
    rw [hr] at h
    cases h
    dsimp only
    obtain ⟨t, ht⟩ := run_coordinates hq hr
    rw [ht]
    exact hf _ _

/-! ### What is counted -/

/-- Does an event leave no trace in the statistics? -/
def Event.silent : Event F → Bool
  | .home _ => true
  | .other => true
  | _ => false

/-- **C50** (homing). Homing is not simulated: the statistics are those of the file without the homing commands. -/
theorem C50_homing (s : Machine.State F (Book F) σ) (evs : List (Event F)) :
    determinePrintStats e s evs = determinePrintStats e s (evs.filter fun ev => !ev.silent) := by
  unfold determinePrintStats
  generalize withBook s ⟨initial e.A, []⟩ = s0
  congr 1
  induction evs generalizing s0 with
  | nil => rfl
  | cons ev evs ih =>
    cases hs : ev.silent with
    | false =>
      rw [List.filter_cons_of_pos (by simp [hs])]
      unfold run
      cases handle e ev s0 with
      | none => rfl
      | some s1 => exact ih s1
    | true =>
      rw [List.filter_cons_of_neg (by simp [hs]), ← ih s0]
      show (handle e ev s0).bind (fun s => run e s evs) = _
      have : handle e ev s0 = some s0 := by
        cases ev <;> first | rfl | cases hs
      rw [this]
      rfl

/-- **C50** (dwell). A dwell counts with its milliseconds as seconds. -/
theorem C50_dwell (A : Arith F) (b : Book F) (ms : F) :
    (Event.note A (.dwell ms) b).stats.time = A.toFloat (A.add b.stats.time (A.toFloat (A.div ms (A.ofInt 1000)))) := rfl

/-- **C50** (segments). The time of a segment is that of the motor that does most steps, in either direction. -/
theorem C50_steps (cmd : Command F) :
    (∀ m, ((cmd.steps m).natAbs : Int) ≤ maxSteps cmd) ∧
    (maxSteps cmd = 0 ∨ ∃ m, maxSteps cmd = ((cmd.steps m).natAbs : Int)) := by
  have key : ∀ (l : List Planner.Motor) (acc : Int),
      acc ≤ l.foldl (fun acc m => max ((cmd.steps m).natAbs : Int) acc) acc ∧
      (∀ m ∈ l, ((cmd.steps m).natAbs : Int) ≤ l.foldl (fun acc m => max ((cmd.steps m).natAbs : Int) acc) acc) ∧
      (l.foldl (fun acc m => max ((cmd.steps m).natAbs : Int) acc) acc = acc ∨
        ∃ m, l.foldl (fun acc m => max ((cmd.steps m).natAbs : Int) acc) acc = ((cmd.steps m).natAbs : Int)) := by
    intro l
    induction l with
    | nil => exact fun acc => ⟨Int.le_refl _, fun m hm => (by cases hm), .inl rfl⟩
    | cons a l ih =>
      intro acc
      rw [List.foldl_cons]
      obtain ⟨h1, h2, h3⟩ := ih (max ((cmd.steps a).natAbs : Int) acc)
      refine ⟨Int.le_trans (Int.le_max_right _ _) h1, fun m hm => ?_, ?_⟩
      · rcases List.mem_cons.1 hm with rfl | hm
        · exact Int.le_trans (Int.le_max_left _ _) h1
        · exact h2 m hm
      · rcases h3 with h3 | h3
        · rw [h3]
          rcases Int.le_total ((cmd.steps a).natAbs : Int) acc with h | h
          · exact .inl (Int.max_eq_right h)
          · exact .inr ⟨a, Int.max_eq_left h⟩
        · exact .inr h3
  obtain ⟨_, h2, h3⟩ := key (List.finRange 8) 0
  exact ⟨fun m => h2 m (List.mem_finRange m), h3⟩

end BeagleG.Stats
