import Verif.Machine.Trace
import Verif.Planner.Exact
/-!
# C33, C38: machine limits and clamping

Specification: `Within` says that a target is inside the machine cube. It is stated with the comparisons
of the arithmetic, so it also has a meaning for floating point; `within_exact` is what it means for numbers.
-/
namespace BeagleG.Machine

open Planner (Axis Motor Arith Command)
open Hardware

variable {F β σ : Type} (e : Env F β σ)

/-- Specification: axis `i` of the target is inside the machine cube. -/
def WithinAt (pos : Axis → F) (i : Axis) : Prop :=
  e.A.lt (pos i) e.A.zero = false ∧
    (e.A.le (e.cfg.moveRange i) e.A.zero = false → e.A.lt (e.cfg.moveRange i) (pos i) = false)

/-- Specification: the target is inside the machine cube; rotational axes (A, B, C) do not count. -/
def Within (pos : Axis → F) : Prop := ∀ i : Axis, rotational i = false → WithinAt e pos i

/-- Specification: the message names an axis that is outside. -/
def Complains (pos : Axis → F) (m : Msg) : Prop :=
  ∃ i : Axis, rotational i = false ∧
    ((m = .belowMin i ∧ e.A.lt (pos i) e.A.zero = true) ∨
     (m = .aboveMax i ∧ e.A.le (e.cfg.moveRange i) e.A.zero = false ∧
        e.A.lt (e.cfg.moveRange i) (pos i) = true))

theorem outside_none (pos : Axis → F) : ∀ l, outside e pos l = none ↔
    ∀ i ∈ l, rotational i = false → WithinAt e pos i
  | [] => by simp [outside]
  | i :: rest => by
    have ih := outside_none pos rest
    unfold outside WithinAt
    rcases Bool.eq_false_or_eq_true (rotational i) with h1 | h1 <;>
    rcases Bool.eq_false_or_eq_true (e.A.lt (pos i) e.A.zero) with h2 | h2 <;>
    rcases Bool.eq_false_or_eq_true (e.A.le (e.cfg.moveRange i) e.A.zero) with h3 | h3 <;>
    rcases Bool.eq_false_or_eq_true (e.A.lt (e.cfg.moveRange i) (pos i)) with h4 | h4 <;>
    simp [h1, h2, h3, h4, ih, WithinAt]

theorem outside_some (pos : Axis → F) : ∀ l m, outside e pos l = some m → Complains e pos m
  | [], m, h => by cases h
  | i :: rest, m, h => by
    have ih := outside_some pos rest m
    unfold outside at h
    split at h
    · exact ih h
    · rename_i hr
      split at h
      · cases h; exact ⟨i, by simpa using hr, .inl ⟨rfl, ‹_›⟩⟩
      · split at h
        · exact ih h
        · split at h
          · cases h; exact ⟨i, by simpa using hr, .inr ⟨rfl, by simpa using ‹¬ e.A.le _ _ = true›, ‹_›⟩⟩
          · exact ih h

theorem within_iff (pos : Axis → F) : outside e pos (List.finRange 10) = none ↔ Within e pos := by
  rw [outside_none]
  simp [Within]

/-- Specification: nothing speaks against a move to `pos`. -/
structure InOrder (s : State F β σ) (pos : Axis → F) : Prop where
  homing : e.cfg.requireHoming = true → s.homing ≠ .never
  limits : e.cfg.rangeCheck = true → Within e pos
  estop : s.hw.estop = false

/-- Specification: a message that says why a move is refused. -/
def Reason (s : State F β σ) (pos : Axis → F) (m : Msg) : Prop :=
  (m = .homeFirst ∧ e.cfg.requireHoming = true ∧ s.homing = .never) ∨
  (e.cfg.rangeCheck = true ∧ Complains e pos m) ∨
  (m = .inSoftEstop ∧ s.hw.estop = true)

theorem allowed_yes {s : State F β σ} {pos : Axis → F} (h : InOrder e s pos) :
    allowed e pos s = some (true, s) := by
  have h1 : allowedHoming e s = some (true, s) := by
    unfold allowedHoming
    rcases Bool.eq_false_or_eq_true e.cfg.requireHoming with hr | hr
    · have := h.homing hr
      simp only [hr, Bool.not_true, Bool.false_eq_true, if_false]
      show (if s.homing ≠ .never then (pure true : M F β σ Bool) else _) s = _
      rw [if_pos this]; rfl
    · simp only [hr, Bool.not_false, if_true]; rfl
  have h2 : allowedLimits e pos s = some (true, s) := by
    unfold allowedLimits
    rcases Bool.eq_false_or_eq_true e.cfg.rangeCheck with hr | hr
    · have := (within_iff e pos).2 (h.limits hr)
      simp only [hr, this, Bool.not_true, Bool.false_eq_true, if_false]; rfl
    · simp only [hr, Bool.not_false, if_true]; rfl
  have h3 : allowedEstop s = some (true, s) := by
    unfold allowedEstop inEstop
    show (if s.hw.estop = true then _ else (pure true : M F β σ Bool)) s = _
    rw [if_neg (by rw [h.estop]; simp)]; rfl
  unfold allowed
  rw [bind_some]
  refine ⟨true, s, h1, ?_⟩
  simp only [Bool.not_true, Bool.false_eq_true, if_false]
  rw [bind_some]
  exact ⟨true, s, h2, by simpa using h3⟩

theorem allowed_no {s : State F β σ} {pos : Axis → F} (h : ¬ InOrder e s pos) :
    ∃ m, Reason e s pos m ∧ allowed e pos s = some (false, { s with out := s.out ++ [m] }) := by
  unfold allowed
  by_cases hh : e.cfg.requireHoming = true ∧ s.homing = .never
  · refine ⟨.homeFirst, .inl ⟨rfl, hh⟩, ?_⟩
    rw [bind_some]
    refine ⟨false, { s with out := s.out ++ [.homeFirst] }, ?_, rfl⟩
    unfold allowedHoming
    simp only [hh.1, Bool.not_true, Bool.false_eq_true, if_false]
    show (if s.homing ≠ .never then (pure true : M F β σ Bool) else _) s = _
    rw [if_neg (by simpa using hh.2)]; rfl
  have h1 : allowedHoming e s = some (true, s) := by
    unfold allowedHoming
    rcases Bool.eq_false_or_eq_true e.cfg.requireHoming with hr | hr
    · simp only [hr, Bool.not_true, Bool.false_eq_true, if_false]
      show (if s.homing ≠ .never then (pure true : M F β σ Bool) else _) s = _
      rw [if_pos (fun h' => hh ⟨hr, h'⟩)]; rfl
    · simp only [hr, Bool.not_false, if_true]; rfl
  by_cases hw : e.cfg.rangeCheck = true ∧ ¬ Within e pos
  · cases ho : outside e pos (List.finRange 10) with
    | none => exact absurd ((within_iff e pos).1 ho) hw.2
    | some m =>
      refine ⟨m, .inr (.inl ⟨hw.1, outside_some e pos _ _ ho⟩), ?_⟩
      rw [bind_some]
      refine ⟨true, s, h1, ?_⟩
      simp only [Bool.not_true, Bool.false_eq_true, if_false]
      rw [bind_some]
      refine ⟨false, { s with out := s.out ++ [m] }, ?_, rfl⟩
      unfold allowedLimits
      simp only [hw.1, ho, Bool.not_true, Bool.false_eq_true, if_false]; rfl
  · have h2 : allowedLimits e pos s = some (true, s) := by
      unfold allowedLimits
      rcases Bool.eq_false_or_eq_true e.cfg.rangeCheck with hr | hr
      · have := (within_iff e pos).2 (by_contra fun h' => hw ⟨hr, h'⟩)
        simp only [hr, this, Bool.not_true, Bool.false_eq_true, if_false]; rfl
      · simp only [hr, Bool.not_false, if_true]; rfl
    have h3 : s.hw.estop = true := by
      by_contra h'
      exact h ⟨fun h1 h2 => hh ⟨h1, h2⟩, fun h1 => by_contra fun h2 => hw ⟨h1, h2⟩, by simpa using h'⟩
    refine ⟨.inSoftEstop, .inr (.inr ⟨rfl, h3⟩), ?_⟩
    rw [bind_some]
    refine ⟨true, s, h1, ?_⟩
    simp only [Bool.not_true, Bool.false_eq_true, if_false]
    rw [bind_some]
    refine ⟨true, s, h2, ?_⟩
    simp only [Bool.not_true, Bool.false_eq_true, if_false]
    unfold allowedEstop inEstop
    show (if s.hw.estop = true then _ else (pure true : M F β σ Bool)) s = _
    rw [if_pos h3]; rfl

/-- The move of an event. -/
def Event.target : Event F → Option (Axis → F)
  | .coordinated _ pos => some pos
  | .rapid _ pos => some pos
  | _ => none

/-- C33, also C34 and C35. A rapid or coordinated move that is not in order is answered with "no" and
exactly one message, which gives the reason; apart from the message nothing changes, in particular neither
the planner nor the motors nor the hardware. -/
theorem C33_refused {s : State F β σ} {ev : Event F} {pos : Axis → F} (hev : ev.target = some pos)
    (h : ¬ InOrder e s pos) :
    ∃ m, Reason e s pos m ∧
      handle e ev s = some (.bool false, { s with out := s.out ++ [m] }) := by
  obtain ⟨m, hm, ha⟩ := allowed_no e h
  refine ⟨m, hm, ?_⟩
  cases ev <;> cases hev
  · unfold handle
    rw [bind_some]
    refine ⟨false, _, ?_, rfl⟩
    unfold coordinatedMove
    rw [bind_some]
    exact ⟨false, _, ha, rfl⟩
  · unfold handle
    rw [bind_some]
    refine ⟨false, _, ?_, rfl⟩
    unfold rapidMove
    rw [bind_some]
    exact ⟨false, _, ha, rfl⟩

/-- C33. Whenever a rapid or coordinated move is accepted, or has an effect on the planner, the motors or
the hardware, the target was inside the machine cube (with range check enabled). -/
theorem C33_only_within_partial {s s' : State F β σ} {ev : Event F} {pos : Axis → F} {b : Bool}
    (hev : ev.target = some pos) (hr : e.cfg.rangeCheck = true)
    (h : handle e ev s = some (.bool b, s')) (hb : b = true ∨ s'.planner ≠ s.planner) :
    Within e pos := by
  by_contra hw
  obtain ⟨m, _, hm⟩ := C33_refused e (s := s) hev (fun ho => hw (ho.limits hr))
  rw [hm] at h
  injection h with h
  injection h with h1 h2
  injection h1 with h1
  subst h1 h2
  simp at hb

section Exact
variable {F : Type} [Field F] [LinearOrder F] [IsStrictOrderedRing F] {β σ : Type} (e : Env F β σ)

/-- What `Within` means for numbers: every axis but the rotational ones is at least 0 and, where a range
is configured, at most that. -/
theorem within_exact (ex : Planner.Exact e.A) (pos : Axis → F) :
    Within e pos ↔ ∀ i : Axis, rotational i = false →
      0 ≤ pos i ∧ (0 < e.cfg.moveRange i → pos i ≤ e.cfg.moveRange i) := by
  simp only [Within, WithinAt, ex.lt, ex.le, ex.zero, decide_eq_false_iff_not, not_lt, not_le]

/-- C33 for exact arithmetic. -/
theorem C33_cube (ex : Planner.Exact e.A) {s s' : State F β σ} {ev : Event F} {pos : Axis → F} {b : Bool}
    (hev : ev.target = some pos) (hr : e.cfg.rangeCheck = true)
    (h : handle e ev s = some (.bool b, s')) (hb : b = true ∨ s'.planner ≠ s.planner) (i : Axis)
    (hi : rotational i = false) :
    0 ≤ pos i ∧ (0 < e.cfg.moveRange i → pos i ≤ e.cfg.moveRange i) :=
  (within_exact e ex pos).1 (C33_only_within_partial e hev hr h hb) i hi

end Exact

/-- C33 does not hold for values that compare with nothing (NaN, which the parser delivers for example for
`X[0/0]`): such a target passes the range check, whatever the configuration. -/
theorem C33_nan_passes (pos : Axis → F)
    (h : ∀ i, e.A.lt (pos i) e.A.zero = false ∧ ∀ x, e.A.lt x (pos i) = false) : Within e pos :=
  fun i _ => ⟨(h i).1, fun _ => (h i).2 _⟩

/-! ### Clamping -/

/-- C38. Unless all affected axes are configured for clamping, nothing changes. -/
theorem C38_untouched {affected : Axis → Bool} {pos : Axis → F} {a : Axis} (ha : affected a = true)
    (hc : e.cfg.clamped a = false) : clampToRange e affected pos = pos := by
  unfold clampToRange
  rw [if_pos]
  rw [List.any_eq_true]
  exact ⟨a, List.mem_finRange a, by simp [ha, hc]⟩

/-- C38. Axes not configured for clamping never change. -/
theorem C38_other_axes (affected : Axis → Bool) (pos : Axis → F) {a : Axis}
    (hc : e.cfg.clamped a = false) : clampToRange e affected pos a = pos a := by
  unfold clampToRange
  split
  · rfl
  · simp [hc]

/-- C38. Values in range do not change. -/
theorem C38_in_range (affected : Axis → Bool) (pos : Axis → F) {a : Axis} (h : WithinAt e pos a) :
    clampToRange e affected pos a = pos a := by
  unfold clampToRange
  split
  · rfl
  · simp only [h.1, Bool.false_eq_true, if_false]
    split
    · rfl
    · split
      · rfl
      · rename_i h3
        rw [if_neg (by rw [h.2 (by simpa using h3)]; simp)]

/-- C38. After clamping, the configured axes pass the range check. The two laws hold for IEEE
comparisons, too. -/
theorem C38_passes (irr : ∀ x, e.A.lt x x = false) (weak : ∀ x y, e.A.lt x y = true → e.A.le x y = true)
    {affected : Axis → Bool} (hall : ∀ a, affected a = true → e.cfg.clamped a = true) (pos : Axis → F)
    {a : Axis} (hc : e.cfg.clamped a = true) : WithinAt e (clampToRange e affected pos) a := by
  have hn : ((List.finRange 10).any fun i => affected i && !e.cfg.clamped i) = false := by
    rw [Bool.eq_false_iff]
    intro h
    rw [List.any_eq_true] at h
    obtain ⟨i, _, hi⟩ := h
    simp only [Bool.and_eq_true, Bool.not_eq_true'] at hi
    rw [hall i hi.1] at hi
    exact absurd hi.2 (by simp)
  have hv : ∀ v : F, (if e.A.lt v e.A.zero = true then e.A.zero else v) = v ∧ e.A.lt v e.A.zero = false ∨
      (if e.A.lt v e.A.zero = true then e.A.zero else v) = e.A.zero := by
    intro v
    rcases Bool.eq_false_or_eq_true (e.A.lt v e.A.zero) with h | h
    · right; rw [if_pos h]
    · left; exact ⟨if_neg (by simp [h]), h⟩
  unfold WithinAt clampToRange
  rw [hn]
  simp only [Bool.false_eq_true, if_false, hc, Bool.not_true]
  have hz : e.A.lt (if e.A.lt (pos a) e.A.zero = true then e.A.zero else pos a) e.A.zero = false := by
    rcases hv (pos a) with ⟨h, h'⟩ | h
    · rw [h]; exact h'
    · rw [h]; exact irr _
  generalize (if e.A.lt (pos a) e.A.zero = true then e.A.zero else pos a) = v at hz ⊢
  rcases Bool.eq_false_or_eq_true (e.A.le (e.cfg.moveRange a) e.A.zero) with hr | hr
  · rw [if_pos hr]
    exact ⟨hz, fun h => absurd h (by simp [hr])⟩
  · rw [if_neg (by simp [hr])]
    split
    · refine ⟨?_, fun _ => irr _⟩
      rw [Bool.eq_false_iff]
      intro h
      rw [weak _ _ h] at hr
      exact absurd hr (by simp)
    · rename_i h
      exact ⟨hz, fun _ => by simpa using h⟩

section Exact
variable {F : Type} [Field F] [LinearOrder F] [IsStrictOrderedRing F] {β σ : Type} (e : Env F β σ)

/-- C38 for numbers: what clamping yields on a configured axis, if all affected axes are configured. -/
theorem C38_value (ex : Planner.Exact e.A) {affected : Axis → Bool}
    (hall : ∀ a, affected a = true → e.cfg.clamped a = true) (pos : Axis → F) {a : Axis}
    (hc : e.cfg.clamped a = true) :
    clampToRange e affected pos a =
      if 0 < e.cfg.moveRange a then min (max (pos a) 0) (e.cfg.moveRange a) else max (pos a) 0 := by
  have hn : ((List.finRange 10).any fun i => affected i && !e.cfg.clamped i) = false := by
    rw [Bool.eq_false_iff]
    intro h
    rw [List.any_eq_true] at h
    obtain ⟨i, _, hi⟩ := h
    simp only [Bool.and_eq_true, Bool.not_eq_true'] at hi
    rw [hall i hi.1] at hi
    exact absurd hi.2 (by simp)
  unfold clampToRange
  rw [hn]
  simp only [Bool.false_eq_true, if_false, hc, Bool.not_true, ex.lt, ex.le, ex.zero, decide_eq_true_eq]
  have hm : (if pos a < 0 then 0 else pos a) = max (pos a) 0 := by
    split
    · rw [max_eq_right (le_of_lt ‹_›)]
    · rw [max_eq_left (not_lt.1 ‹_›)]
  rw [hm]
  by_cases hr : 0 < e.cfg.moveRange a
  · rw [if_neg (not_le.2 hr), if_pos hr]
    split
    · rw [min_eq_right (le_of_lt ‹_›)]
    · rw [min_eq_left (not_lt.1 ‹_›)]
  · rw [if_pos (not_lt.1 hr), if_neg hr]

end Exact

end BeagleG.Machine
