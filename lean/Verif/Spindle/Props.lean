import Verif.Spindle.Model
import Verif.Planner.Exact
import Mathlib.Tactic.Linarith
import Mathlib.Tactic.NormNum
/-!
# C42: the spindle changes direction and power only at standstill
-/
namespace BeagleG.Spindle

open Planner (Arith Exact)

variable {F : Type}

/-- Specification: the hardware calls `l` are acceptable, if the speed is `duty` and the direction `dir`
before them. The direction changes and power is removed only at a speed that is `still`; a speed follows
another one only as `ramp` allows. -/
def Safe (still : F → Prop) (ramp : F → F → Prop) : (duty : F) → (dir : Bool) → List (Act F) → Prop
  | _, _, [] => True
  | duty, dir, .power on :: l => (on = false → still duty) ∧ Safe still ramp duty dir l
  | duty, dir, .direction b :: l => (b ≠ dir → still duty) ∧ Safe still ramp duty b l
  | duty, dir, .speed v :: l => ramp duty v ∧ Safe still ramp v dir l

/-- The speed after `l`. -/
def lastSpeed : F → List (Act F) → F
  | d, [] => d
  | _, .speed v :: l => lastSpeed v l
  | d, .power _ :: l => lastSpeed d l
  | d, .direction _ :: l => lastSpeed d l

/-- The direction after `l`. -/
def lastDir : Bool → List (Act F) → Bool
  | d, [] => d
  | _, .direction b :: l => lastDir b l
  | d, .power _ :: l => lastDir d l
  | d, .speed _ :: l => lastDir d l

theorem lastSpeed_append (l l' : List (Act F)) (d : F) :
    lastSpeed d (l ++ l') = lastSpeed (lastSpeed d l) l' := by
  induction l generalizing d with
  | nil => rfl
  | cons x l ih => cases x <;> exact ih _

theorem lastDir_append (l l' : List (Act F)) (d : Bool) :
    lastDir d (l ++ l') = lastDir (lastDir d l) l' := by
  induction l generalizing d with
  | nil => rfl
  | cons x l ih => cases x <;> exact ih _

variable {still : F → Prop} {ramp : F → F → Prop}

theorem Safe.append {l l' : List (Act F)} {d : F} {b : Bool} (h : Safe still ramp d b l)
    (h' : Safe still ramp (lastSpeed d l) (lastDir b l) l') : Safe still ramp d b (l ++ l') := by
  induction l generalizing d b with
  | nil => exact h'
  | cons x l ih => cases x <;> exact ⟨h.1, ih h.2 h'⟩

/-- Only speeds, each as `ramp` allows, ending at `e`. -/
def Ramp (ramp : F → F → Prop) : F → F → List (Act F) → Prop
  | d, e, [] => d = e
  | d, e, .speed v :: l => ramp d v ∧ Ramp ramp v e l
  | _, _, _ => False

theorem Ramp.safe {l : List (Act F)} {d e : F} {b : Bool} (h : Ramp ramp d e l) :
    Safe still ramp d b l ∧ lastSpeed d l = e ∧ lastDir b l = b := by
  induction l generalizing d with
  | nil => exact ⟨trivial, h, rfl⟩
  | cons x l ih =>
    cases x with
    | speed v => exact ⟨⟨h.1, (ih h.2).1⟩, (ih h.2).2.1, (ih h.2).2.2⟩
    | power _ => exact h.elim
    | direction _ => exact h.elim

theorem Ramp.mono {r r' : F → F → Prop} (hr : ∀ a b, r a b → r' a b) {l : List (Act F)} {d e : F}
    (h : Ramp r d e l) : Ramp r' d e l := by
  induction l generalizing d with
  | nil => exact h
  | cons x l ih =>
    cases x with
    | speed v => exact ⟨hr _ _ h.1, ih h.2⟩
    | power _ => exact h.elim
    | direction _ => exact h.elim

section
variable (A : Arith F) (cfg : Config)

theorem rampDown_any {n : Nat} {d e : F} {l : List (Act F)} (h : rampDown A n d = some (e, l)) :
    Ramp (fun _ _ => True) d e l ∧ A.lt A.zero e = false := by
  induction n generalizing d l with
  | zero =>
    unfold rampDown at h
    split at h
    · cases h
    · rename_i hn
      injection h with h
      injection h with h1 h2
      subst h1 h2
      exact ⟨rfl, by simpa using hn⟩
  | succ n ih =>
    unfold rampDown at h
    split at h
    · simp only [Option.map_eq_some_iff] at h
      obtain ⟨r, h1, h2⟩ := h
      injection h2 with h2 h3
      subst h2 h3
      exact ⟨⟨trivial, (ih h1).1⟩, (ih h1).2⟩
    · rename_i hn
      injection h with h
      injection h with h1 h2
      subst h1 h2
      exact ⟨rfl, by simpa using hn⟩

theorem rampTo_any {t : F} {up : Bool} {n : Nat} {d e : F} {l : List (Act F)}
    (h : rampTo A t up n d = some (e, l)) : Ramp (fun _ _ => True) d e l ∧ A.eq e t = true := by
  induction n generalizing d l with
  | zero =>
    unfold rampTo at h
    split at h
    · rename_i hn
      injection h with h
      injection h with h1 h2
      subst h1 h2
      exact ⟨rfl, hn⟩
    · cases h
  | succ n ih =>
    unfold rampTo at h
    split at h
    · rename_i hn
      injection h with h
      injection h with h1 h2
      subst h1 h2
      exact ⟨rfl, hn⟩
    · simp only [Option.map_eq_some_iff] at h
      obtain ⟨r, h1, h2⟩ := h
      injection h2 with h2 h3
      subst h2 h3
      exact ⟨⟨trivial, (ih h1).1⟩, (ih h1).2⟩

/-- Everything about one call of `On` that follows from properties of the two ramps. -/
theorem on_safe {n : Nat} {s s' : State F} {ccw : Bool} {rpm : Int} {l : List (Act F)}
    (h : on A cfg n s ccw rpm = some (s', l))
    (hd : ∀ e k, rampDown A n s.duty = some (e, k) → Ramp ramp s.duty e k ∧ still e)
    (hu : ∀ d e k, d = s.duty ∨ (∃ k', rampDown A n s.duty = some (d, k')) →
      rampTo A (targetDuty A cfg rpm) (A.lt d (targetDuty A cfg rpm)) n d = some (e, k) →
      Ramp ramp d e k) :
    Safe still ramp s.duty s.isCcw l ∧ s'.duty = lastSpeed s.duty l ∧ s'.isCcw = lastDir s.isCcw l ∧
      (cfg.allowCcw = false → ccw = true → s' = s ∧ l = []) := by
  unfold on at h
  by_cases hc : (!cfg.allowCcw && ccw) = true
  · rw [if_pos hc] at h
    injection h with h
    injection h with h1 h2
    subst h1 h2
    exact ⟨trivial, rfl, rfl, fun _ _ => ⟨rfl, rfl⟩⟩
  · rw [if_neg hc] at h
    simp only [Option.bind_eq_some_iff, Option.map_eq_some_iff] at h
    obtain ⟨⟨d, k⟩, h1, ⟨e, k'⟩, h2, h3⟩ := h
    injection h3 with h3 h4
    subst h3 h4
    have hpre : ∀ (pre : List (Act F)), pre = (if s.isOff then [Act.power true] else []) →
        Safe still ramp s.duty s.isCcw pre ∧ lastSpeed s.duty pre = s.duty ∧
          lastDir s.isCcw pre = s.isCcw := by
      intro pre e; subst e
      split
      · exact ⟨⟨(by simp), trivial⟩, rfl, rfl⟩
      · exact ⟨trivial, rfl, rfl⟩
    obtain ⟨p1, p2, p3⟩ := hpre _ rfl
    generalize (if s.isOff then [Act.power true] else []) = pre at *
    have hk : Ramp ramp s.duty d k ∧ (ccw ≠ s.isCcw → still d) := by
      by_cases hx : (ccw != s.isCcw) = true
      · rw [if_pos hx] at h1
        exact ⟨(hd _ _ h1).1, fun _ => (hd _ _ h1).2⟩
      · rw [if_neg hx] at h1
        injection h1 with h1
        injection h1 with h5 h6
        subst h5 h6
        exact ⟨rfl, fun g => absurd g (by simpa using hx)⟩
    have hdd : d = s.duty ∨ (∃ k', rampDown A n s.duty = some (d, k')) := by
      by_cases hx : (ccw != s.isCcw) = true
      · rw [if_pos hx] at h1; exact .inr ⟨_, h1⟩
      · rw [if_neg hx] at h1
        injection h1 with h1
        injection h1 with h5 h6
        exact .inl h5.symm
    have hr := hu d e k' hdd h2
    obtain ⟨q1, q2, q3⟩ := hk.1.safe (still := still) (b := s.isCcw)
    obtain ⟨r1, r2, r3⟩ := hr.safe (still := still) (b := ccw)
    refine ⟨?_, ?_, ?_, fun a b => ?_⟩
    · refine Safe.append (Safe.append (Safe.append p1 ?_) ⟨?_, trivial⟩) ?_
      · rw [p2, p3]; exact q1
      · rw [lastSpeed_append, lastDir_append, p2, p3, q2, q3]; exact hk.2
      · simp only [lastSpeed_append, lastDir_append, p2, q2, lastSpeed, lastDir]
        exact r1
    · simp only [lastSpeed_append, p2, q2, lastSpeed, r2]
    · simp only [lastDir_append, lastDir, r3]
    · exact absurd (by simp [a, b]) hc

theorem off_safe {n : Nat} {s s' : State F} {l : List (Act F)} (h : off A n s = some (s', l))
    (hd : ∀ e k, rampDown A n s.duty = some (e, k) → Ramp ramp s.duty e k ∧ still e) :
    Safe still ramp s.duty s.isCcw l ∧ s'.duty = lastSpeed s.duty l ∧ s'.isCcw = lastDir s.isCcw l := by
  unfold off at h
  simp only [Option.map_eq_some_iff] at h
  obtain ⟨⟨e, k⟩, h1, h2⟩ := h
  injection h2 with h2 h3
  subst h2 h3
  obtain ⟨g1, g2⟩ := hd _ _ h1
  obtain ⟨q1, q2, q3⟩ := g1.safe (still := still) (b := s.isCcw)
  refine ⟨Safe.append q1 ⟨fun _ => ?_, trivial⟩, ?_, ?_⟩
  · rw [q2]; exact g2
  · simp only [lastSpeed_append, q2, lastSpeed]
  · simp only [lastDir_append, q3, lastDir]

/-- **C42**, for every arithmetic: in every history of `On` and `Off` with any speeds, the direction is
changed and power is removed only while the commanded duty cycle is not above zero. -/
theorem C42_standstill (n : Nat) (cmds : List Cmd) : ∀ (s s' : State F) (l : List (Act F)),
    run A cfg n s cmds = some (s', l) →
    Safe (fun d => A.lt A.zero d = false) (fun _ _ => True) s.duty s.isCcw l ∧
      s'.duty = lastSpeed s.duty l ∧ s'.isCcw = lastDir s.isCcw l := by
  induction cmds with
  | nil =>
    intro s s' l h
    injection h with h
    injection h with h1 h2
    subst h1 h2
    exact ⟨trivial, rfl, rfl⟩
  | cons c cs ih =>
    intro s s' l h
    simp only [run, Option.bind_eq_some_iff, Option.map_eq_some_iff] at h
    obtain ⟨⟨s1, l1⟩, h1, ⟨s2, l2⟩, h2, h3⟩ := h
    injection h3 with h3 h4
    subst h3 h4
    obtain ⟨i1, i2, i3⟩ := ih _ _ _ h2
    have hc : Safe (fun d => A.lt A.zero d = false) (fun _ _ => True) s.duty s.isCcw l1 ∧
        s1.duty = lastSpeed s.duty l1 ∧ s1.isCcw = lastDir s.isCcw l1 := by
      cases c with
      | on ccw rpm =>
        obtain ⟨a, b, c, -⟩ := on_safe A cfg h1 (fun e k g => rampDown_any A g)
          (fun d e k _ g => (rampTo_any A g).1)
        exact ⟨a, b, c⟩
      | off => exact off_safe A h1 (fun e k g => rampDown_any A g)
    obtain ⟨c1, c2, c3⟩ := hc
    refine ⟨c1.append ?_, ?_, ?_⟩
    · rw [← c2, ← c3]; exact i1
    · rw [lastSpeed_append, ← c2]; exact i2
    · rw [lastDir_append, ← c3]; exact i3

/-- **C42.** Counter-clockwise rotation never happens when it is not allowed. -/
theorem C42_no_ccw (hc : cfg.allowCcw = false) (n : Nat) (cmds : List Cmd) :
    ∀ (s s' : State F) (l : List (Act F)), run A cfg n s cmds = some (s', l) →
      Act.direction true ∉ l := by
  have hramp : ∀ {d e : F} {l : List (Act F)}, Ramp (fun _ _ => True) d e l → Act.direction true ∉ l := by
    intro d e l h
    induction l generalizing d with
    | nil => simp
    | cons x l ih =>
      cases x with
      | speed v => simp only [List.mem_cons, reduceCtorEq, false_or]; exact ih h.2
      | power _ => exact h.elim
      | direction _ => exact h.elim
  induction cmds with
  | nil =>
    intro s s' l h
    injection h with h
    injection h with h1 h2
    subst h2
    simp
  | cons c cs ih =>
    intro s s' l h
    simp only [run, Option.bind_eq_some_iff, Option.map_eq_some_iff] at h
    obtain ⟨⟨s1, l1⟩, h1, ⟨s2, l2⟩, h2, h3⟩ := h
    injection h3 with h3 h4
    subst h3 h4
    rw [List.mem_append]
    rintro (h | h)
    · cases c with
      | on ccw rpm =>
        simp only [exec, on] at h1
        by_cases hx : (!cfg.allowCcw && ccw) = true
        · rw [if_pos hx] at h1
          injection h1 with h1
          injection h1 with h5 h6
          subst h6
          cases h
        · rw [if_neg hx] at h1
          have hccw : ccw = false := by simpa [hc] using hx
          subst hccw
          simp only [Option.bind_eq_some_iff, Option.map_eq_some_iff] at h1
          obtain ⟨⟨d, k⟩, g1, ⟨e, k'⟩, g2, g3⟩ := h1
          injection g3 with g3 g4
          subst g4
          simp only [List.append_assoc, List.mem_append, List.mem_cons, Act.direction.injEq,
            reduceCtorEq, false_or] at h
          rcases h with h | h | h
          · split at h <;> simp at h
          · split at g1
            · exact hramp (rampDown_any A g1).1 h
            · injection g1 with g1
              injection g1 with g5 g6
              subst g6
              cases h
          · simp at h
            exact hramp (rampTo_any A g2).1 h
      | off =>
        simp only [exec, off, Option.map_eq_some_iff] at h1
        obtain ⟨⟨e, k⟩, g1, g2⟩ := h1
        injection g2 with g2 g3
        subst g3
        simp only [List.mem_append, List.mem_cons, reduceCtorEq, List.not_mem_nil, or_self,
          or_false] at h
        exact hramp (rampDown_any A g1).1 h
    · exact ih _ _ _ h2 h

/-- A target that compares unequal to everything, as the not-a-number that `rpm / max_rpm` is for
`M3 S0` with `max-rpm = 0`: `On` never returns. -/
theorem C42_nan_never_returns (s : State F) (ccw : Bool) (rpm : Int)
    (hc : ccw = true → cfg.allowCcw = true)
    (hn : ∀ d, A.eq d (targetDuty A cfg rpm) = false) (n : Nat) : on A cfg n s ccw rpm = none := by
  have hr : ∀ n up d, rampTo A (targetDuty A cfg rpm) up n d = none := by
    intro n
    induction n with
    | zero => intro up d; simp [rampTo, hn]
    | succ n ih => intro up d; simp [rampTo, hn, ih]
  unfold on
  rw [if_neg (by cases ccw <;> simp_all)]
  simp [hr]

end

/-! ### Exact arithmetic -/
section
variable [Field F] [LinearOrder F] [IsStrictOrderedRing F] {A : Arith F} (cfg : Config)

/-- One step of a ramp: at most 10%, to a duty cycle within 0..100%. -/
def Small (d v : F) : Prop := |v - d| ≤ 1 / 10 ∧ 0 ≤ v ∧ v ≤ 1

omit [IsStrictOrderedRing F] in
theorem rampEpsilon_exact (ex : Exact A) : rampEpsilon A = 1 / 10 := by
  simp [rampEpsilon, ex.toFloat, ex.div, ex.ofInt]

theorem rampDown_exact (ex : Exact A) {n : Nat} {d e : F} {l : List (Act F)} (h0 : 0 ≤ d) (h1 : d ≤ 1)
    (h : rampDown A n d = some (e, l)) : Ramp Small d e l ∧ e = 0 := by
  induction n generalizing d l with
  | zero =>
    unfold rampDown at h
    split at h
    · cases h
    · rename_i hn
      injection h with h
      injection h with h2 h3
      subst h2 h3
      rw [ex.lt, ex.zero, decide_eq_true_eq, not_lt] at hn
      exact ⟨rfl, le_antisymm hn h0⟩
  | succ n ih =>
    unfold rampDown at h
    split at h
    · rename_i hp
      rw [ex.lt, ex.zero, decide_eq_true_eq] at hp
      simp only [Option.map_eq_some_iff] at h
      obtain ⟨r, g1, g2⟩ := h
      injection g2 with g2 g3
      subst g2 g3
      rw [rampEpsilon_exact ex] at g1 ⊢
      simp only [ex.le, ex.sub, ex.zero, decide_eq_true_eq] at g1 ⊢
      by_cases hge : 1 / 10 ≤ d
      · rw [if_pos hge] at g1 ⊢
        obtain ⟨i1, i2⟩ := ih (by linarith) (by linarith) g1
        refine ⟨⟨⟨?_, by linarith, by linarith⟩, i1⟩, i2⟩
        rw [abs_le]; constructor <;> linarith
      · rw [if_neg hge] at g1 ⊢
        rw [not_le] at hge
        obtain ⟨i1, i2⟩ := ih le_rfl zero_le_one g1
        refine ⟨⟨⟨?_, le_rfl, zero_le_one⟩, i1⟩, i2⟩
        rw [abs_le]; constructor <;> linarith
    · rename_i hn
      injection h with h
      injection h with h2 h3
      subst h2 h3
      rw [ex.lt, ex.zero, decide_eq_true_eq, not_lt] at hn
      exact ⟨rfl, le_antisymm hn h0⟩

/-- A step of the loop of `On`. -/
theorem rampTo_step {t d : F} {up : Bool} (ht0 : 0 ≤ t) (ht1 : t ≤ 1) (h0 : 0 ≤ d) (h1 : d ≤ 1)
    (hup : if up then d ≤ t else t ≤ d) {v : F}
    (hv : v = if (!up && decide ((if up then d + 1 / 10 else d - 1 / 10) < t)) ||
        (up && decide (t < (if up then d + 1 / 10 else d - 1 / 10))) then t
      else (if up then d + 1 / 10 else d - 1 / 10)) :
    Small d v ∧ (if up then v ≤ t else t ≤ v) ∧ (v = t ∨ |t - v| = |t - d| - 1 / 10) := by
  cases up
  · simp only [Bool.false_eq_true, if_false, Bool.not_false, Bool.true_and, Bool.false_and,
      Bool.or_false, decide_eq_true_eq] at hup hv ⊢
    by_cases hlt : d - 1 / 10 < t
    · rw [if_pos hlt] at hv
      subst hv
      refine ⟨⟨?_, ht0, ht1⟩, le_rfl, .inl rfl⟩
      rw [abs_le]; constructor <;> linarith
    · rw [if_neg hlt] at hv
      rw [not_lt] at hlt
      subst hv
      refine ⟨⟨?_, by linarith, by linarith⟩, hlt, .inr ?_⟩
      · rw [abs_le]; constructor <;> linarith
      · rw [abs_of_nonpos (by linarith), abs_of_nonpos (by linarith)]; ring
  · simp only [if_true, Bool.not_true, Bool.true_and, Bool.false_and, Bool.false_or,
      decide_eq_true_eq] at hup hv ⊢
    by_cases hlt : t < d + 1 / 10
    · rw [if_pos hlt] at hv
      subst hv
      refine ⟨⟨?_, ht0, ht1⟩, le_rfl, .inl rfl⟩
      rw [abs_le]; constructor <;> linarith
    · rw [if_neg hlt] at hv
      rw [not_lt] at hlt
      subst hv
      refine ⟨⟨?_, by linarith, by linarith⟩, hlt, .inr ?_⟩
      · rw [abs_le]; constructor <;> linarith
      · rw [abs_of_nonneg (by linarith), abs_of_nonneg (by linarith)]; ring

theorem rampTo_succ (ex : Exact A) (t d : F) (up : Bool) (n : Nat) :
    rampTo A t up (n + 1) d = if d = t then some (d, []) else
      let v := if (!up && decide ((if up then d + 1 / 10 else d - 1 / 10) < t)) ||
        (up && decide (t < (if up then d + 1 / 10 else d - 1 / 10))) then t
      else (if up then d + 1 / 10 else d - 1 / 10)
      (rampTo A t up n v).map fun r => (r.1, .speed v :: r.2) := by
  rw [rampTo]
  simp only [ex.eq, ex.add, ex.sub, ex.lt, rampEpsilon_exact ex, decide_eq_true_eq]

theorem rampTo_exact (ex : Exact A) {t : F} (ht0 : 0 ≤ t) (ht1 : t ≤ 1) {up : Bool} {n : Nat} {d e : F}
    {l : List (Act F)} (h0 : 0 ≤ d) (h1 : d ≤ 1) (hup : if up then d ≤ t else t ≤ d)
    (h : rampTo A t up n d = some (e, l)) : Ramp Small d e l ∧ e = t := by
  induction n generalizing d l with
  | zero =>
    unfold rampTo at h
    split at h
    · rename_i hn
      injection h with h
      injection h with h2 h3
      subst h2 h3
      rw [ex.eq, decide_eq_true_eq] at hn
      exact ⟨rfl, hn⟩
    · cases h
  | succ n ih =>
    rw [rampTo_succ ex] at h
    split at h
    · rename_i hn
      injection h with h
      injection h with h2 h3
      subst h2 h3
      exact ⟨rfl, hn⟩
    · simp only [Option.map_eq_some_iff] at h
      obtain ⟨r, g1, g2⟩ := h
      injection g2 with g2 g3
      subst g2 g3
      obtain ⟨s1, s2, -⟩ := rampTo_step ht0 ht1 h0 h1 hup rfl
      obtain ⟨i1, i2⟩ := ih s1.2.1 s1.2.2 s2 g1
      exact ⟨⟨s1, i1⟩, i2⟩

theorem target_exact (ex : Exact A) (hm : 0 < cfg.maxRpm) {rpm : Int} (hr : 0 ≤ rpm) :
    targetDuty A cfg rpm = min ((rpm : F) / cfg.maxRpm) 1 ∧ 0 ≤ targetDuty A cfg rpm ∧
      targetDuty A cfg rpm ≤ 1 := by
  have e : targetDuty A cfg rpm = min ((rpm : F) / cfg.maxRpm) 1 := by
    simp [targetDuty, ex.min, ex.div, ex.toFloat, ex.ofInt]
  rw [e]
  have h1 : (0 : F) < cfg.maxRpm := by exact_mod_cast hm
  have h2 : (0 : F) ≤ rpm := by exact_mod_cast hr
  exact ⟨rfl, le_min (by positivity) zero_le_one, min_le_right _ _⟩

/-- The calls the machine control makes: the speed of `M3`/`M4` is not negative. -/
def Cmd.ok : Cmd → Prop
  | .on _ rpm => 0 ≤ rpm
  | .off => True

theorem exec_exact (ex : Exact A) (hm : 0 < cfg.maxRpm) {n : Nat} {c : Cmd} (hc : c.ok) {s s' : State F}
    {l : List (Act F)} (h0 : 0 ≤ s.duty) (h1 : s.duty ≤ 1) (h : exec A cfg n s c = some (s', l)) :
    Safe (fun d => d = 0) Small s.duty s.isCcw l ∧ s'.duty = lastSpeed s.duty l ∧
      s'.isCcw = lastDir s.isCcw l ∧ 0 ≤ s'.duty ∧ s'.duty ≤ 1 := by
  have bound : ∀ (l : List (Act F)) (d : F) (b : Bool), 0 ≤ d → d ≤ 1 →
      Safe (fun d => d = 0) Small d b l → 0 ≤ lastSpeed d l ∧ lastSpeed d l ≤ 1 := by
    intro l
    induction l with
    | nil => intro d b x y _; exact ⟨x, y⟩
    | cons a l ih =>
      intro d b x y hs
      cases a with
      | power _ => exact ih _ _ x y hs.2
      | direction _ => exact ih _ _ x y hs.2
      | speed v => exact ih _ _ hs.1.2.1 hs.1.2.2 hs.2
  have key : Safe (fun d => d = 0) Small s.duty s.isCcw l ∧ s'.duty = lastSpeed s.duty l ∧
      s'.isCcw = lastDir s.isCcw l := by
    cases c with
    | on ccw rpm =>
      obtain ⟨t0, t1, t2⟩ := target_exact cfg ex hm (rpm := rpm) hc
      obtain ⟨a, b, c, -⟩ := on_safe (still := fun d => d = 0) (ramp := Small) A cfg h
        (fun e k g => rampDown_exact ex h0 h1 g)
        (fun d e k hd g => by
          have hd' : 0 ≤ d ∧ d ≤ 1 := by
            rcases hd with rfl | ⟨k', hk⟩
            · exact ⟨h0, h1⟩
            · rw [(rampDown_exact ex h0 h1 hk).2]; exact ⟨le_rfl, zero_le_one⟩
          refine (rampTo_exact ex t1 t2 hd'.1 hd'.2 ?_ g).1
          rw [ex.lt]
          by_cases hlt : d < targetDuty A cfg rpm
          · simp [hlt, hlt.le]
          · simp [hlt, not_lt.1 hlt])
      exact ⟨a, b, c⟩
    | off => exact off_safe A h (fun e k g => rampDown_exact ex h0 h1 g)
  obtain ⟨k1, k2, k3⟩ := key
  rw [k2]
  exact ⟨k1, rfl, k3, bound _ _ _ h0 h1 k1⟩

/-- **C42.** In every history of `On` and `Off` calls, the direction changes and power is removed only at
duty cycle zero, and every change of the duty cycle is at most 10% and ends within 0..100%. -/
theorem C42_ramps (ex : Exact A) (hm : 0 < cfg.maxRpm) (n : Nat) (cmds : List Cmd)
    (hc : ∀ c ∈ cmds, c.ok) : ∀ (s s' : State F) (l : List (Act F)), 0 ≤ s.duty → s.duty ≤ 1 →
    run A cfg n s cmds = some (s', l) →
    Safe (fun d => d = 0) Small s.duty s.isCcw l ∧ s'.duty = lastSpeed s.duty l ∧
      s'.isCcw = lastDir s.isCcw l ∧ 0 ≤ s'.duty ∧ s'.duty ≤ 1 := by
  induction cmds with
  | nil =>
    intro s s' l h0 h1 h
    injection h with h
    injection h with h2 h3
    subst h2 h3
    exact ⟨trivial, rfl, rfl, h0, h1⟩
  | cons c cs ih =>
    intro s s' l h0 h1 h
    simp only [run, Option.bind_eq_some_iff, Option.map_eq_some_iff] at h
    obtain ⟨⟨s1, l1⟩, g1, ⟨s2, l2⟩, g2, g3⟩ := h
    injection g3 with g3 g4
    subst g3 g4
    obtain ⟨c1, c2, c3, c4, c5⟩ := exec_exact cfg ex hm (hc c (by simp)) h0 h1 g1
    obtain ⟨i1, i2, i3, i4⟩ := ih (fun x hx => hc x (by simp [hx])) _ _ _ c4 c5 g2
    refine ⟨c1.append ?_, ?_, ?_, i4⟩
    · rw [← c2, ← c3]; exact i1
    · rw [lastSpeed_append, ← c2]; exact i2
    · rw [lastDir_append, ← c3]; exact i3

/-- **C42.** An accepted `On` ends exactly at the requested speed, limited to 100%, and in the requested
direction; `Off` ends at zero. -/
theorem C42_reaches (ex : Exact A) (hm : 0 < cfg.maxRpm) (n : Nat) (s s' : State F) (l : List (Act F))
    (h0 : 0 ≤ s.duty) (h1 : s.duty ≤ 1) :
    (∀ ccw rpm, 0 ≤ rpm → (ccw = true → cfg.allowCcw = true) → on A cfg n s ccw rpm = some (s', l) →
      s'.duty = min ((rpm : F) / cfg.maxRpm) 1 ∧ s'.isCcw = ccw ∧ s'.isOff = false) ∧
    (off A n s = some (s', l) → s'.duty = 0 ∧ s'.isOff = true) := by
  constructor
  · intro ccw rpm hr hccw h
    obtain ⟨t0, t1, t2⟩ := target_exact cfg ex hm (rpm := rpm) hr
    unfold on at h
    rw [if_neg (by cases ccw <;> simp_all)] at h
    simp only [Option.bind_eq_some_iff, Option.map_eq_some_iff] at h
    obtain ⟨⟨d, k⟩, g1, ⟨e, k'⟩, g2, g3⟩ := h
    injection g3 with g3 g4
    subst g3 g4
    refine ⟨?_, rfl, rfl⟩
    have hd' : 0 ≤ d ∧ d ≤ 1 := by
      split at g1
      · rw [(rampDown_exact ex h0 h1 g1).2]; exact ⟨le_rfl, zero_le_one⟩
      · injection g1 with g1
        injection g1 with g5 g6
        rw [← g5]; exact ⟨h0, h1⟩
    show e = _
    rw [← t0]
    refine (rampTo_exact ex t1 t2 hd'.1 hd'.2 ?_ g2).2
    rw [ex.lt]
    by_cases hlt : d < targetDuty A cfg rpm
    · simp [hlt, hlt.le]
    · simp [hlt, not_lt.1 hlt]
  · intro h
    unfold off at h
    simp only [Option.map_eq_some_iff] at h
    obtain ⟨⟨e, k⟩, g1, g2⟩ := h
    injection g2 with g2 g3
    subst g2
    exact ⟨(rampDown_exact ex h0 h1 g1).2, rfl⟩

theorem rampDown_ends (ex : Exact A) : ∀ (n : Nat) (d : F), d ≤ n / 10 → (rampDown A n d).isSome := by
  intro n
  induction n with
  | zero =>
    intro d h
    simp only [Nat.cast_zero, zero_div] at h
    unfold rampDown
    rw [ex.lt, ex.zero, if_neg (by simpa using h)]
    rfl
  | succ n ih =>
    intro d h
    unfold rampDown
    split
    · rw [Option.isSome_map]
      apply ih
      have hn : (0 : F) ≤ n / 10 := by positivity
      push_cast at h
      rw [rampEpsilon_exact ex, ex.le, ex.sub, ex.zero]
      split
      · linarith
      · exact hn
    · rfl

theorem rampTo_ends (ex : Exact A) {t : F} (ht0 : 0 ≤ t) (ht1 : t ≤ 1) {up : Bool} :
    ∀ (n : Nat) (d : F), 0 ≤ d → d ≤ 1 → (if up then d ≤ t else t ≤ d) → |t - d| ≤ n / 10 →
      (rampTo A t up n d).isSome := by
  intro n
  induction n with
  | zero =>
    intro d h0 h1 hup h
    simp only [Nat.cast_zero, zero_div, abs_nonpos_iff] at h
    unfold rampTo
    rw [ex.eq, if_pos (by rw [decide_eq_true_eq]; linarith)]
    rfl
  | succ n ih =>
    intro d h0 h1 hup h
    rw [rampTo_succ ex]
    split
    · rfl
    · simp only [Option.isSome_map]
      obtain ⟨s1, s2, s3⟩ := rampTo_step ht0 ht1 h0 h1 hup rfl
      refine ih _ s1.2.1 s1.2.2 s2 ?_
      push_cast at h
      rcases s3 with s3 | s3
      · rw [s3, sub_self, abs_zero]; positivity
      · rw [s3]; linarith

/-- **C42.** Every call returns: ten steps are enough for every ramp. -/
theorem C42_returns (ex : Exact A) (hm : 0 < cfg.maxRpm) (cmds : List Cmd) (hc : ∀ c ∈ cmds, c.ok) :
    ∀ (s : State F), 0 ≤ s.duty → s.duty ≤ 1 → (run A cfg 10 s cmds).isSome := by
  induction cmds with
  | nil => intro s _ _; rfl
  | cons c cs ih =>
    intro s h0 h1
    have hd := rampDown_ends ex 10 s.duty (by norm_num; exact h1)
    have he : (exec A cfg 10 s c).isSome := by
      cases c with
      | off => simp only [exec, off, Option.isSome_map]; exact hd
      | on ccw rpm =>
        obtain ⟨-, t1, t2⟩ := target_exact cfg ex hm (rpm := rpm) (hc (.on ccw rpm) (by simp))
        have hu : ∀ d, 0 ≤ d → d ≤ 1 → (rampTo A (targetDuty A cfg rpm)
            (A.lt d (targetDuty A cfg rpm)) 10 d).isSome := by
          intro d d0 d1
          refine rampTo_ends ex t1 t2 10 d d0 d1 ?_ ?_
          · rw [ex.lt]
            by_cases hlt : d < targetDuty A cfg rpm
            · simp [hlt, hlt.le]
            · simp [hlt, not_lt.1 hlt]
          · rw [abs_le]; constructor <;> norm_num <;> linarith
        simp only [exec, on]
        split
        · rfl
        · split
          · obtain ⟨⟨e, k⟩, hk⟩ := Option.isSome_iff_exists.1 hd
            rw [hk, Option.bind_some, Option.isSome_map]
            rw [(rampDown_exact ex h0 h1 hk).2]
            exact hu 0 le_rfl zero_le_one
          · rw [Option.bind_some, Option.isSome_map]
            exact hu _ h0 h1
    obtain ⟨⟨s1, l1⟩, hs⟩ := Option.isSome_iff_exists.1 he
    obtain ⟨-, -, -, c4, c5⟩ := exec_exact cfg ex hm (hc c (by simp)) h0 h1 hs
    simp only [run, hs, Option.bind_some, Option.isSome_map]
    exact ih (fun x hx => hc x (by simp [hx])) s1 c4 c5

/-- Not vacuous: a new spindle satisfies the assumptions, and a history with a change of direction
returns. -/
example (ex : Exact A) (allow : Bool) : ∃ s' l,
    run A ⟨3000, allow⟩ 10 (State.init A) [.on false 1500, .on true 3000, .off] = some (s', l) ∧
      Safe (fun d => d = 0) Small 0 false l := by
  have h0 : (State.init A).duty = 0 := ex.zero
  have hc : ∀ c ∈ [Cmd.on false 1500, .on true 3000, .off], c.ok := by simp [Cmd.ok]
  obtain ⟨⟨s', l⟩, h⟩ := Option.isSome_iff_exists.1
    (C42_returns ⟨3000, allow⟩ ex (by norm_num) _ hc (State.init A) h0.ge (by rw [h0]; exact zero_le_one))
  obtain ⟨g, -⟩ := C42_ramps ⟨3000, allow⟩ ex (by norm_num) 10 _ hc _ _ _ h0.ge
    (by rw [h0]; exact zero_le_one) h
  rw [h0] at g
  exact ⟨s', l, h, g⟩

end
end BeagleG.Spindle
