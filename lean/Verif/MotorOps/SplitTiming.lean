import Verif.MotorOps.TimingProps
import Verif.MotorOps.Lemmas
/-!
# C64 for moves that are cut into several hardware segments

The speeds of the parts follow one acceleration. A part counts the steps of the axis that has the most in this part, so the
counts may add up to a few more than the whole move has; it is shown how far the last speed may be off by this, and that no
part ends up with a standstill as both speeds.
-/
set_option linter.unusedSectionVars false

namespace BeagleG.MotorOps

open Planner (Arith Exact u32)
open StepGen (Motor MotionSegment NoEarlyStop)

variable {F : Type} [Field F] [LinearOrder F] [IsStrictOrderedRing F] {A : Arith F}

theorem partSteps_eq (steps : Motor → Int) (n d : Nat) : partSteps steps n d = fun i => part (steps i) n d := by
  funext i
  unfold partSteps part
  rw [mul_comm ((d + 1 : Nat) : Int), mul_comm (d : Int)]
  push_cast
  rfl

/-- Steps of the `d`-th part. -/
def stepsOf (steps : Motor → Int) (n d : Nat) : Nat := definingAxisSteps (partSteps steps n d)

/-- Steps of the parts before the `d`-th. -/
def stepsBefore (steps : Motor → Int) (n : Nat) : Nat → Nat
  | 0 => 0
  | d + 1 => stepsBefore steps n d + stepsOf steps n d

/-- All parts have about the same number of steps. -/
theorem stepsOf_bounds (steps : Motor → Int) {n : Nat} (d : Nat) (hn : 0 < n) (hn2 : n < 2 ^ 31) :
    definingAxisSteps steps / n ≤ stepsOf steps n d + 1 ∧ stepsOf steps n d ≤ definingAxisSteps steps / n + 1 := by
  have hq := Nat.div_add_mod (definingAxisSteps steps) n
  have hr := Nat.mod_lt (definingAxisSteps steps) hn
  unfold stepsOf
  rw [partSteps_eq]
  generalize hD : definingAxisSteps steps = D at *
  generalize D / n = h at *
  generalize D % n = r at *
  have hq' : (n : Int) * h + r = D := by exact_mod_cast hq
  have hr' : (r : Int) < n := by exact_mod_cast hr
  have hr0 : (0 : Int) ≤ r := Int.natCast_nonneg r
  have hn' : (0 : Int) < n := by exact_mod_cast hn
  constructor
  · obtain ⟨i, hi⟩ := defining_attained steps
    have hle := le_defining (fun i => part (steps i) n d) i
    obtain ⟨H, hp, h1, h2⟩ := part_mem (steps i) n d hn hn2
    rw [hD] at hi
    rcases Int.natAbs_eq (steps i) with e | e
    · have : (h : Int) ≤ H := by
        by_contra hc
        have : (H + 1) * n ≤ (h : Int) * n := mul_le_mul_of_nonneg_right (by omega) hn'.le
        have := mul_comm (n : Int) h
        omega
      omega
    · have : H ≤ -(h : Int) := by
        by_contra hc
        have : (-(h : Int) + 1) * n ≤ H * n := mul_le_mul_of_nonneg_right (by omega) hn'.le
        have := mul_comm (n : Int) h
        have : (-(h : Int) + 1) * n = -(h * n) + n := by ring
        omega
      omega
  · obtain ⟨i, hi⟩ := defining_attained (fun i => part (steps i) n d)
    rw [← hi]
    have hle := le_defining steps i
    obtain ⟨H, hp, h1, h2⟩ := part_mem (steps i) n d hn hn2
    rw [hD] at hle
    have b1 : H ≤ (h : Int) := by
      by_contra hc
      have : ((h : Int) + 1) * n ≤ H * n := mul_le_mul_of_nonneg_right (by omega) hn'.le
      have := mul_comm (n : Int) h
      have : ((h : Int) + 1) * n = h * n + n := by ring
      omega
    have b2 : -(h : Int) - 1 ≤ H := by
      by_contra hc
      have : (H + 1) * n ≤ (-(h : Int) - 1) * n := mul_le_mul_of_nonneg_right (by omega) hn'.le
      have := mul_comm (n : Int) h
      have : (-(h : Int) - 1) * n = -(h * n) - n := by ring
      omega
    omega

theorem stepsBefore_bounds (steps : Motor → Int) {n : Nat} (hn : 0 < n) (hn2 : n < 2 ^ 31) : ∀ d,
    d * (definingAxisSteps steps / n) ≤ stepsBefore steps n d + d ∧
      stepsBefore steps n d ≤ d * (definingAxisSteps steps / n + 1)
  | 0 => by simp [stepsBefore]
  | d + 1 => by
    obtain ⟨h1, h2⟩ := stepsBefore_bounds steps hn hn2 d
    obtain ⟨h3, h4⟩ := stepsOf_bounds steps d hn hn2
    rw [stepsBefore, Nat.add_mul, Nat.add_mul]
    omega

/-- The division of a move into `n` parts of about `h` steps. -/
structure Cut (D n h : Nat) : Prop where
  lo : n * h ≤ D
  hi : D < n * h + n
  two : 2 ≤ n
  many : 16383 ≤ h
  few : 3 * n ≤ h

theorem cut_of {D : Nat} (hD : 32767 < D) (hD2 : D ≤ 2 ^ 27) : Cut D (divisions D) (D / divisions D) := by
  have hn : 2 ≤ divisions D := by unfold divisions maxStepsPerSegment loopsPerStep; omega
  have h3 : divisions D ≤ 4097 := by unfold divisions maxStepsPerSegment loopsPerStep; omega
  have h4 : 32767 * (divisions D - 1) ≤ D := by unfold divisions maxStepsPerSegment loopsPerStep; omega
  have hq := Nat.div_add_mod D (divisions D)
  have hr := Nat.mod_lt D (show divisions D > 0 by omega)
  generalize divisions D = n at *
  have h5 : 16383 ≤ D / n := by
    rw [Nat.le_div_iff_mul_le (by omega)]
    omega
  exact ⟨by omega, by omega, hn, h5, by omega⟩

section
variable (ex : Exact A)
include ex

/-- `previous_speed` squared as long as it does not reach zero. -/
def speedSq (steps : Motor → Int) (v0 v1 : F) (n d : Nat) : F :=
  v0 ^ 2 + (v1 ^ 2 - v0 ^ 2) / definingAxisSteps steps * stepsBefore steps n d

theorem partSpeed_succ (steps : Motor → Int) (v0 v1 : F) (n d : Nat)
    (h : partSpeed A steps v0 v1 n d ^ 2 = speedSq steps v0 v1 n d) :
    0 ≤ partSpeed A steps v0 v1 n (d + 1) ∧
      partSpeed A steps v0 v1 n (d + 1) ^ 2 = max 0 (speedSq steps v0 v1 n (d + 1)) := by
  have e : A.add (sqd A (partSpeed A steps v0 v1 n d))
      (A.mul (A.mul (A.ofInt 2) (totalAcceleration A v0 v1 (definingAxisSteps steps)))
        (A.ofInt (definingAxisSteps (partSteps steps n d)))) = speedSq steps v0 v1 n (d + 1) := by
    unfold sqd totalAcceleration
    rw [ex.add, ex.mul, ex.mul, ex.mul, ex.div, ex.sub, sqd, sqd, ex.mul, ex.mul, ex.mul, ex.ofInt, ex.ofInt, ex.ofInt,
      ← pow_two, h]
    unfold speedSq
    rw [stepsBefore]
    push_cast
    unfold stepsOf
    by_cases hz : (definingAxisSteps steps : F) = 0
    · rw [hz]; simp
    · field_simp
      ring
  rw [partSpeed]
  rw [e, ex.lt, ex.zero]
  by_cases hp : 0 < speedSq steps v0 v1 n (d + 1)
  · rw [decide_eq_true hp, if_pos rfl, max_eq_right hp.le, pow_two]
    exact ⟨ex.sqrt_nonneg _ hp.le, ex.sqrt_sq _ hp.le⟩
  · rw [decide_eq_false hp, if_neg (by decide), max_eq_left (not_lt.1 hp)]
    exact ⟨le_refl _, by norm_num⟩

theorem partSpeed_sq (steps : Motor → Int) {v0 v1 : F} (n : Nat) (h0 : 0 ≤ v0) : ∀ d,
    (∀ e, 1 ≤ e → e ≤ d → 0 ≤ speedSq steps v0 v1 n e) →
    0 ≤ partSpeed A steps v0 v1 n d ∧ partSpeed A steps v0 v1 n d ^ 2 = speedSq steps v0 v1 n d
  | 0, _ => ⟨h0, by simp [partSpeed, speedSq, stepsBefore]⟩
  | d + 1, h => by
    obtain ⟨-, h2⟩ := partSpeed_sq steps n h0 d fun e he he' => h e he (by omega)
    obtain ⟨h3, h4⟩ := partSpeed_succ ex steps v0 v1 n d h2
    refine ⟨h3, ?_⟩
    rw [h4, max_eq_right (h (d + 1) (by omega) (le_refl _))]

end

/-- A move that can be timed even if it has to be cut: as `Timeable` with some margin. -/
structure Movable (v0 v1 : F) (D : Nat) : Prop where
  pos0 : 0 ≤ v0
  pos1 : 0 ≤ v1
  fast0 : v0 ≤ 390000
  fast1 : v1 ≤ 390000
  slow : v0 = v1 → 1 / 40 ≤ v0
  up : v0 < v1 → 36 ≤ accelOver v1 v0 D ∧ v1 ^ 2 ≤ 2 ^ 26 * accelOver v1 v0 D
  down : v1 < v0 → 36 ≤ accelOver v0 v1 D ∧ v0 ^ 2 ≤ 2 ^ 26 * accelOver v0 v1 D

theorem Movable.timeable {v0 v1 : F} {D : Nat} (h : Movable v0 v1 D) : Timeable v0 v1 D := by
  obtain ⟨p0, p1, f0, f1, s, u, d⟩ := h
  refine ⟨p0, p1, by linarith, by linarith, s, fun hlt => ?_, fun hlt => ?_⟩
  · obtain ⟨a, b⟩ := u hlt
    refine ⟨by linarith, ?_⟩
    have : v0 ^ 2 ≤ v1 ^ 2 := pow_le_pow_left₀ p0 hlt.le 2
    norm_num at b ⊢
    linarith
  · obtain ⟨a, b⟩ := d hlt
    refine ⟨by linarith, ?_⟩
    norm_num at b ⊢
    linarith

/-- The squares of the speeds of the parts. -/
structure Speeds (steps : Motor → Int) (v0 v1 : F) (n : Nat) (p : Nat → F) : Prop where
  pos : ∀ d ≤ n, 0 ≤ p d
  sq : ∀ d < n, p d ^ 2 = speedSq steps v0 v1 n d
  last : p n ^ 2 = max 0 (speedSq steps v0 v1 n n)

section
variable {steps : Motor → Int} {v0 v1 : F} {n h : Nat} (c : Cut (definingAxisSteps steps) n h)
  (hh : h = definingAxisSteps steps / n) (hn2 : n < 2 ^ 31)
include c hh hn2

theorem before_bounds {d : Nat} : d * h ≤ stepsBefore steps n d + d ∧ stepsBefore steps n d ≤ d * h + d := by
  obtain ⟨h1, h2⟩ := stepsBefore_bounds steps (show 0 < n by have := c.two; omega) hn2 d
  rw [← hh] at h1 h2
  rw [Nat.mul_add] at h2
  omega

/-- Before the last part, at least most of a part is left. -/
theorem before_lt {d : Nat} (hd : d < n) : stepsBefore steps n d + h ≤ definingAxisSteps steps + n := by
  obtain ⟨h1, h2⟩ := before_bounds c hh hn2 (d := d)
  have h3 : (d + 1) * h ≤ n * h := Nat.mul_le_mul_right h hd
  have := c.lo
  rw [Nat.add_mul] at h3
  omega

theorem before_total : definingAxisSteps steps ≤ stepsBefore steps n n + 2 * n ∧
    stepsBefore steps n n ≤ definingAxisSteps steps + n := by
  obtain ⟨h1, h2⟩ := before_bounds c hh hn2 (d := n)
  have := c.lo
  have := c.hi
  omega

theorem part_range {d : Nat} : h ≤ stepsOf steps n d + 1 ∧ stepsOf steps n d ≤ h + 1 := by
  have := stepsOf_bounds steps d (show 0 < n by have := c.two; omega) hn2
  rwa [← hh] at this

/-- Before the last part the square of the speed is positive: at least `6 / 10` of what a part adds. -/
theorem speedSq_pos (m : Movable v0 v1 (definingAxisSteps steps)) {d : Nat} (hd : d < n) : 0 ≤ speedSq steps v0 v1 n d ∧
    (v1 < v0 → accelOver v0 v1 (definingAxisSteps steps) * (h + 1) ≤ speedSq steps v0 v1 n d) := by
  have hD0 : 0 < definingAxisSteps steps := by
    have := c.lo
    have := Nat.mul_le_mul c.two c.many
    omega
  have hD : (0 : F) < (definingAxisSteps steps : F) := by exact_mod_cast hD0
  have hb := before_lt c hh hn2 hd
  have hm := c.many
  have hf := c.few
  have hs0 : (0 : F) ≤ (stepsBefore steps n d : F) := Nat.cast_nonneg _
  have e : (v1 ^ 2 - v0 ^ 2) / definingAxisSteps steps = -(2 * accelOver v0 v1 (definingAxisSteps steps)) := by
    unfold accelOver
    field_simp
    ring
  unfold speedSq
  rcases lt_or_ge v1 v0 with hlt | hge
  · have ha := (m.down hlt).1
    have hmul := accelOver_mul (fast := v0) (slow := v1) hD0
    rw [e]
    have hb' : (stepsBefore steps n d : F) + h ≤ definingAxisSteps steps + n := by exact_mod_cast hb
    have hf' : 3 * (n : F) ≤ h := by exact_mod_cast hf
    have hm' : (16383 : F) ≤ h := by exact_mod_cast hm
    generalize accelOver v0 v1 (definingAxisSteps steps) = a at *
    generalize (definingAxisSteps steps : F) = D at *
    generalize (stepsBefore steps n d : F) = S at *
    have key : a * (h + 1) ≤ v0 ^ 2 + -(2 * a) * S := by
      have h1 : a * (S + (h + 1) / 2) ≤ a * D := mul_le_mul_of_nonneg_left (by linarith) (by linarith)
      nlinarith [sq_nonneg v1]
    refine ⟨?_, fun _ => key⟩
    have : 0 ≤ a * ((h : F) + 1) := mul_nonneg (by linarith) (by linarith)
    linarith
  · refine ⟨?_, fun h => absurd h (not_lt.2 hge)⟩
    have : v0 ^ 2 ≤ v1 ^ 2 := pow_le_pow_left₀ m.pos0 hge 2
    have : 0 ≤ (v1 ^ 2 - v0 ^ 2) / definingAxisSteps steps * (stepsBefore steps n d : F) :=
      mul_nonneg (div_nonneg (by linarith) hD.le) hs0
    have := sq_nonneg v0
    linarith

theorem speeds (ex : Exact A) (m : Movable v0 v1 (definingAxisSteps steps)) :
    Speeds steps v0 v1 n (partSpeed A steps v0 v1 n) := by
  have hlt : ∀ d < n, 0 ≤ partSpeed A steps v0 v1 n d ∧ partSpeed A steps v0 v1 n d ^ 2 = speedSq steps v0 v1 n d :=
    fun d hd => partSpeed_sq ex steps n m.pos0 d fun e _ he => (speedSq_pos c hh hn2 m (by omega)).1
  obtain ⟨k, rfl⟩ : ∃ k, n = k + 1 := ⟨n - 1, by have := c.two; omega⟩
  obtain ⟨-, b⟩ := hlt k (by omega)
  obtain ⟨a', b'⟩ := partSpeed_succ ex steps v0 v1 (k + 1) k b
  refine ⟨fun d hd => ?_, fun d hd => (hlt d hd).2, b'⟩
  by_cases hk : d = k + 1
  · rw [hk]; exact a'
  · exact (hlt d (by omega)).1

/-- Every part of a move that can be timed can be timed. -/
theorem part_timeable (m : Movable v0 v1 (definingAxisSteps steps)) {p : Nat → F} (hp : Speeds steps v0 v1 n p) {d : Nat}
    (hd : d < n) : Timeable (p d) (p (d + 1)) (stepsOf steps n d) := by
  have hD0 : 0 < definingAxisSteps steps := by
    have := c.lo
    have := Nat.mul_le_mul c.two c.many
    omega
  have hD : (0 : F) < (definingAxisSteps steps : F) := by exact_mod_cast hD0
  have p0 := hp.pos d (by omega)
  have p1 := hp.pos (d + 1) (by omega)
  have q0 := hp.sq d hd
  have q1 : p (d + 1) ^ 2 = max 0 (speedSq steps v0 v1 n (d + 1)) := by
    by_cases hk : d + 1 = n
    · rw [hk, hp.last]
    · rw [hp.sq (d + 1) (by omega), max_eq_right (speedSq_pos c hh hn2 m (by omega)).1]
  obtain ⟨s0, s1⟩ := speedSq_pos c hh hn2 m hd
  obtain ⟨k1, k2⟩ := part_range c hh hn2 (d := d)
  have hb := before_lt c hh hn2 hd
  have hm := c.many
  have hf := c.few
  have hlo := c.lo
  have htwo := c.two
  have hk0 : 0 < stepsOf steps n d := by omega
  have es : speedSq steps v0 v1 n (d + 1) =
      speedSq steps v0 v1 n d + (v1 ^ 2 - v0 ^ 2) / definingAxisSteps steps * stepsOf steps n d := by
    unfold speedSq
    rw [stepsBefore]
    push_cast
    ring
  have eu : speedSq steps v0 v1 n d = v0 ^ 2 + (v1 ^ 2 - v0 ^ 2) / definingAxisSteps steps * stepsBefore steps n d := rfl
  have hS : (0 : F) ≤ (stepsBefore steps n d : F) := Nat.cast_nonneg _
  have hT : (0 : F) < (stepsOf steps n d : F) := by exact_mod_cast hk0
  have hb' : (stepsBefore steps n d : F) + h ≤ definingAxisSteps steps + n := by exact_mod_cast hb
  have hk2' : (stepsOf steps n d : F) ≤ h + 1 := by exact_mod_cast k2
  have hf' : 3 * (n : F) ≤ h := by exact_mod_cast hf
  have hlo' : (n : F) * h ≤ definingAxisSteps steps := by exact_mod_cast hlo
  have hm' : (16383 : F) ≤ h := by exact_mod_cast hm
  have htwo' : (2 : F) ≤ n := by exact_mod_cast htwo
  have f0 : v0 ^ 2 ≤ 390000 ^ 2 := pow_le_pow_left₀ m.pos0 m.fast0 2
  have f1 : v1 ^ 2 ≤ 390000 ^ 2 := pow_le_pow_left₀ m.pos1 m.fast1 2
  have le400 : ∀ {x : F}, 0 ≤ x → x ^ 2 ≤ 160000000000 → x ≤ 400000 := by
    intro x _ hx2
    by_contra hc
    have : (400000 : F) ^ 2 < x ^ 2 := pow_lt_pow_left₀ (not_le.1 hc) (by norm_num) (by norm_num)
    norm_num at this
    linarith
  norm_num at f0 f1
  rcases lt_trichotomy v0 v1 with hlt | heq | hlt
  · -- acceleration
    obtain ⟨ma, mi⟩ := m.up hlt
    have hmul := accelOver_mul (fast := v1) (slow := v0) hD0
    have e : (v1 ^ 2 - v0 ^ 2) / definingAxisSteps steps = 2 * accelOver v1 v0 (definingAxisSteps steps) := by
      unfold accelOver; field_simp
    rw [e] at es eu
    have ea : p (d + 1) ^ 2 = p d ^ 2 + 2 * accelOver v1 v0 (definingAxisSteps steps) * stepsOf steps n d := by
      rw [q1, es, ← q0, max_eq_right]
      have : 0 ≤ 2 * accelOver v1 v0 (definingAxisSteps steps) * (stepsOf steps n d : F) :=
        mul_nonneg (by linarith) hT.le
      have := sq_nonneg (p d)
      linarith
    have eacc : accelOver (p (d + 1)) (p d) (stepsOf steps n d) = accelOver v1 v0 (definingAxisSteps steps) := by
      show (p (d + 1) ^ 2 - p d ^ 2) / (2 * (stepsOf steps n d : F)) = _
      rw [ea]
      field_simp
      ring
    have hsq0 : p d ^ 2 ≤ v1 ^ 2 := by
      rw [q0, eu]
      have : accelOver v1 v0 (definingAxisSteps steps) * (stepsBefore steps n d : F) ≤
          accelOver v1 v0 (definingAxisSteps steps) * definingAxisSteps steps :=
        mul_le_mul_of_nonneg_left (by linarith) (by linarith)
      linarith
    have hlt' : p d < p (d + 1) := by
      by_contra hc
      have h2 : p (d + 1) ^ 2 ≤ p d ^ 2 := pow_le_pow_left₀ p1 (not_lt.1 hc) 2
      have : 0 < 2 * accelOver v1 v0 (definingAxisSteps steps) * (stepsOf steps n d : F) :=
        mul_pos (by linarith) hT
      linarith
    have hsq1 : p (d + 1) ^ 2 ≤ 160000000000 := by
      have h5 : 2 * accelOver v1 v0 (definingAxisSteps steps) *
          ((stepsBefore steps n d : F) + stepsOf steps n d) ≤ 2 * accelOver v1 v0 (definingAxisSteps steps) *
          (21 / 20 * definingAxisSteps steps) := by
        refine mul_le_mul_of_nonneg_left ?_ (by linarith)
        have : (2 : F) * h ≤ n * h := mul_le_mul_of_nonneg_right htwo' (by linarith)
        have : (n : F) * 16383 ≤ n * h := mul_le_mul_of_nonneg_left hm' (by linarith)
        linarith
      have := sq_nonneg v0
      rw [q0, eu] at ea
      nlinarith
    refine ⟨p0, p1, le400 p0 (by linarith), le400 p1 hsq1, fun he => absurd he hlt'.ne, fun _ => ?_,
      fun hc => absurd hc (not_lt.2 hlt'.le)⟩
    rw [eacc]
    refine ⟨by linarith, ?_⟩
    norm_num at mi ⊢
    linarith
  · -- constant speed
    have hv := m.slow heq
    subst heq
    have e1 : ∀ k, speedSq steps v0 v0 n k = v0 ^ 2 := fun k => by simp [speedSq]
    have eqv : ∀ {x : F}, 0 ≤ x → x ^ 2 = v0 ^ 2 → x = v0 := by
      intro x hx hx2
      exact (pow_left_inj₀ hx m.pos0 (by norm_num)).1 hx2
    have e2 := eqv p0 (by rw [q0, e1])
    have e3 := eqv p1 (by rw [q1, e1, max_eq_right (sq_nonneg _)])
    rw [e2, e3]
    have := m.fast0
    refine ⟨m.pos0, m.pos0, by linarith, by linarith, fun _ => hv, fun h => absurd h (lt_irrefl _),
      fun h => absurd h (lt_irrefl _)⟩
  · -- deceleration
    obtain ⟨ma, mi⟩ := m.down hlt
    have hmul := accelOver_mul (fast := v0) (slow := v1) hD0
    have e : (v1 ^ 2 - v0 ^ 2) / definingAxisSteps steps = -(2 * accelOver v0 v1 (definingAxisSteps steps)) := by
      unfold accelOver
      field_simp
      ring
    rw [e] at es eu
    have s2 := s1 hlt
    have hsq0 : p d ^ 2 ≤ v0 ^ 2 := by
      rw [q0, eu]
      have : 0 ≤ 2 * accelOver v0 v1 (definingAxisSteps steps) * (stepsBefore steps n d : F) :=
        mul_nonneg (by linarith) hS
      linarith
    -- the speed goes down by at least half of what is due
    have hdown : accelOver v0 v1 (definingAxisSteps steps) * stepsOf steps n d ≤ p d ^ 2 - p (d + 1) ^ 2 := by
      have h6 : accelOver v0 v1 (definingAxisSteps steps) * (stepsOf steps n d : F) ≤
          accelOver v0 v1 (definingAxisSteps steps) * (h + 1) := mul_le_mul_of_nonneg_left hk2' (by linarith)
      have h7 : 0 ≤ accelOver v0 v1 (definingAxisSteps steps) * (stepsOf steps n d : F) :=
        mul_nonneg (by linarith) hT.le
      rw [q1, es, q0]
      rcases le_total 0 (speedSq steps v0 v1 n d +
        -(2 * accelOver v0 v1 (definingAxisSteps steps)) * (stepsOf steps n d : F)) with h8 | h8
      · rw [max_eq_right h8]; linarith
      · rw [max_eq_left h8]; linarith
    have hlt' : p (d + 1) < p d := by
      by_contra hc
      have h2 : p d ^ 2 ≤ p (d + 1) ^ 2 := pow_le_pow_left₀ p0 (not_lt.1 hc) 2
      have : 0 < accelOver v0 v1 (definingAxisSteps steps) * (stepsOf steps n d : F) := mul_pos (by linarith) hT
      linarith
    have hacc : accelOver v0 v1 (definingAxisSteps steps) / 2 ≤ accelOver (p d) (p (d + 1)) (stepsOf steps n d) := by
      show _ ≤ (p d ^ 2 - p (d + 1) ^ 2) / (2 * (stepsOf steps n d : F))
      rw [le_div_iff₀ (by linarith)]
      linarith
    have hsq1 : p (d + 1) ^ 2 ≤ p d ^ 2 := pow_le_pow_left₀ p1 hlt'.le 2
    refine ⟨p0, p1, le400 p0 (by linarith), le400 p1 (by linarith), fun he => absurd he hlt'.ne',
      fun hc => absurd hc (not_lt.2 hlt'.le), fun _ => ⟨by linarith, ?_⟩⟩
    norm_num at mi ⊢
    linarith

end

section
variable (ex : Exact A) (flip : Motor → Bool) (seg : LinearSegment) {v0 v1 : F}
include ex

theorem partBuilt_timed (hD : 32767 < definingAxisSteps seg.steps) (d : Nat) :
    partBuilt flip (hostTiming A seg.steps v0 v1) seg (definingAxisSteps seg.steps) d =
      timedSegment A flip (partSegment seg (definingAxisSteps seg.steps) d)
        (stepsOf seg.steps (divisions (definingAxisSteps seg.steps)) d)
        (partSpeed A seg.steps v0 v1 (divisions (definingAxisSteps seg.steps)) d)
        (partSpeed A seg.steps v0 v1 (divisions (definingAxisSteps seg.steps)) (d + 1)) := by
  have e : (partSegment seg (definingAxisSteps seg.steps) d).steps =
      partSteps seg.steps (divisions (definingAxisSteps seg.steps)) d := by
    rw [partSteps_eq]; rfl
  have ht : hostTiming A seg.steps v0 v1 d =
      segmentTiming A (partSpeed A seg.steps v0 v1 (divisions (definingAxisSteps seg.steps)) d)
        (partSpeed A seg.steps v0 v1 (divisions (definingAxisSteps seg.steps)) (d + 1))
        (stepsOf seg.steps (divisions (definingAxisSteps seg.steps)) d) := by
    unfold hostTiming
    dsimp only
    rw [if_pos (show definingAxisSteps seg.steps > maxStepsPerSegment from hD), ex.toFloat, ex.toFloat]
    rfl
  unfold partBuilt timedSegment stepsOf
  rw [e, ht]
  rfl

/-- **C64, long moves**: each part is timed for the speeds `p d` and `p (d + 1)`. They start with the first speed of the move,
follow its acceleration and end with its last speed up to a small error, which comes from the rounding of the number of steps
of the parts. -/
theorem C64_parts (hD : 32767 < definingAxisSteps seg.steps) (hD2 : definingAxisSteps seg.steps ≤ 2 ^ 27)
    (m : Movable v0 v1 (definingAxisSteps seg.steps)) :
    ∃ (T : Nat → Nat) (p : Nat → F), p 0 = v0 ∧
      (∀ d < divisions (definingAxisSteps seg.steps),
        partBuilt flip (hostTiming A seg.steps v0 v1) seg (definingAxisSteps seg.steps) d =
          timedSegment A flip (partSegment seg (definingAxisSteps seg.steps) d) (T d) (p d) (p (d + 1)) ∧
        0 < T d ∧ T d ≤ 32767 ∧ Timeable (p d) (p (d + 1)) (T d)) ∧
      (∀ d, d + 1 < divisions (definingAxisSteps seg.steps) →
        (p (d + 1) ^ 2 - p d ^ 2) * definingAxisSteps seg.steps = (v1 ^ 2 - v0 ^ 2) * T d) ∧
      |p (divisions (definingAxisSteps seg.steps)) ^ 2 - v1 ^ 2| ≤ |v1 ^ 2 - v0 ^ 2| / 8000 := by
  have c := cut_of hD hD2
  have hn2 := (divisions_bounds _ hD (by omega)).2.1
  have hsp := speeds c rfl hn2 ex m
  refine ⟨stepsOf seg.steps _, partSpeed A seg.steps v0 v1 _, rfl,
    fun d hd => ⟨partBuilt_timed ex flip seg hD d, ?_, ?_, part_timeable c rfl hn2 m hsp hd⟩, fun d hd => ?_, ?_⟩
  · have h1 := (part_range c rfl hn2 (d := d)).1
    have := c.many
    omega
  · have := (partSegment_defining seg d hD (by omega)).2
    unfold stepsOf
    rw [partSteps_eq]
    exact this
  · have hDp : (0 : F) < (definingAxisSteps seg.steps : F) := by exact_mod_cast (by omega : 0 < definingAxisSteps seg.steps)
    rw [hsp.sq d (by omega), hsp.sq (d + 1) hd]
    unfold speedSq
    rw [stepsBefore]
    push_cast
    field_simp
    ring
  · have hDp : (0 : F) < (definingAxisSteps seg.steps : F) := by exact_mod_cast (by omega : 0 < definingAxisSteps seg.steps)
    obtain ⟨b1, b2⟩ := before_total c rfl hn2
    have hlo := c.lo
    have hm := c.many
    rw [hsp.last]
    generalize divisions (definingAxisSteps seg.steps) = n at *
    have b1' : (definingAxisSteps seg.steps : F) ≤ stepsBefore seg.steps n n + 2 * n := by exact_mod_cast b1
    have b2' : (stepsBefore seg.steps n n : F) ≤ definingAxisSteps seg.steps + n := by exact_mod_cast b2
    have hn' : 16383 * (n : F) ≤ definingAxisSteps seg.steps := by
      have : 16383 * n ≤ definingAxisSteps seg.steps := by
        refine le_trans ?_ hlo
        rw [Nat.mul_comm]
        exact Nat.mul_le_mul_left n hm
      exact_mod_cast this
    have e1 : speedSq seg.steps v0 v1 n n - v1 ^ 2 =
        (v1 ^ 2 - v0 ^ 2) * (((stepsBefore seg.steps n n : F) - definingAxisSteps seg.steps) / definingAxisSteps seg.steps) := by
      unfold speedSq
      field_simp
      ring
    have e2 : |((stepsBefore seg.steps n n : F) - definingAxisSteps seg.steps) / definingAxisSteps seg.steps| ≤ 1 / 8000 := by
      rw [abs_div, abs_of_pos hDp, div_le_iff₀ hDp, abs_le]
      constructor <;> linarith
    have e3 : |speedSq seg.steps v0 v1 n n - v1 ^ 2| ≤ |v1 ^ 2 - v0 ^ 2| / 8000 := by
      rw [e1, abs_mul, div_eq_mul_one_div (|v1 ^ 2 - v0 ^ 2|)]
      exact mul_le_mul_of_nonneg_left e2 (abs_nonneg _)
    refine le_trans ?_ e3
    rcases le_total 0 (speedSq seg.steps v0 v1 n n) with h0 | h0
    · rw [max_eq_right h0]
    · rw [max_eq_left h0]
      have := sq_nonneg v1
      rw [abs_le]
      rw [abs_of_nonpos (by linarith)]
      constructor <;> linarith

/-- All hardware segments of a move run to their end. -/
theorem C64_move_runs (hD0 : 0 < definingAxisSteps seg.steps) (hD2 : definingAxisSteps seg.steps ≤ 2 ^ 27)
    (m : Movable v0 v1 (definingAxisSteps seg.steps)) :
    if 32767 < definingAxisSteps seg.steps then
      ∀ d < divisions (definingAxisSteps seg.steps),
        NoEarlyStop (partBuilt flip (hostTiming A seg.steps v0 v1) seg (definingAxisSteps seg.steps) d)
    else NoEarlyStop (buildSegment flip seg (definingAxisSteps seg.steps) (hostTiming A seg.steps v0 v1 0)) := by
  by_cases hD : 32767 < definingAxisSteps seg.steps
  · rw [if_pos hD]
    intro d hd
    obtain ⟨T, p, -, h, -⟩ := C64_parts ex flip seg hD hD2 m
    obtain ⟨e, t0, t1, ht⟩ := h d hd
    rw [e]
    exact C64_no_early_stop ex flip _ t0 t1 ht
  · rw [if_neg hD]
    have e : hostTiming A seg.steps v0 v1 0 = segmentTiming A v0 v1 (definingAxisSteps seg.steps) := by
      unfold hostTiming
      dsimp only
      rw [if_neg (show ¬ definingAxisSteps seg.steps > maxStepsPerSegment from hD)]
    rw [e]
    exact C64_no_early_stop ex flip seg hD0 (by omega) m.timeable

end

end BeagleG.MotorOps
