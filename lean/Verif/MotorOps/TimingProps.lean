import Verif.MotorOps.RampTiming
import Verif.StepGen.SimProps
/-!
# C64: the step rate of a segment is the commanded one

`G / X` is the speed in steps per second of a loop with cycle count `X`. The exact speed after `k` loops of a phase (half steps)
is `v0² + k * acc` squared, `acc` being the acceleration.
-/
set_option linter.unusedSectionVars false

namespace BeagleG.MotorOps

open Planner (Arith Exact u32)
open StepGen (Motor MotionSegment NoEarlyStop Regs delayAfter delayCycleShift rampUp rampDown accelCycles)

variable {F : Type} [Field F] [LinearOrder F] [IsStrictOrderedRing F] {A : Arith F}

/-- The segment built for `D` steps and the two speeds. -/
def timedSegment (A : Arith F) (flip : Motor → Bool) (seg : LinearSegment) (D : Nat) (v0 v1 : F) : MotionSegment :=
  buildSegment flip seg D (segmentTiming A v0 v1 D)

/-- The acceleration between two speeds within `D` steps. -/
def accelOver (fast slow : F) (D : Nat) : F := (fast ^ 2 - slow ^ 2) / (2 * D)

theorem accelOver_mul {fast slow : F} {D : Nat} (hD : 0 < D) : accelOver fast slow D * (2 * D) = fast ^ 2 - slow ^ 2 := by
  have : (0 : F) < D := by exact_mod_cast hD
  unfold accelOver
  field_simp

section
variable (ex : Exact A) (flip : Motor → Bool) (seg : LinearSegment)
include ex

theorem segmentTiming_accel {v0 v1 : F} (h : v0 < v1) (D : Nat) :
    segmentTiming A v0 v1 D = rampTiming A .accel v0 (accelOver v1 v0 D) := by
  unfold segmentTiming
  rw [ex.eq, ex.lt, decide_eq_false h.ne, decide_eq_true h, rampAcceleration_eq ex]
  rfl

theorem segmentTiming_decel {v0 v1 : F} (h : v1 < v0) (D : Nat) :
    segmentTiming A v0 v1 D = rampTiming A .decel v0 (accelOver v0 v1 D) := by
  unfold segmentTiming
  rw [ex.eq, ex.lt, decide_eq_false h.ne', decide_eq_false (not_lt.2 h.le), rampAcceleration_eq ex, rampAcceleration_eq ex]
  rfl

theorem timedSegment_accel {v0 v1 : F} (h : v0 < v1) {D : Nat} (hD : D ≤ 32767) :
    (timedSegment A flip seg D v0 v1).loopsAccel = 2 * D ∧ (timedSegment A flip seg D v0 v1).loopsTravel = 0 ∧
    (timedSegment A flip seg D v0 v1).loopsDecel = 0 ∧
    (timedSegment A flip seg D v0 v1).accelSeriesIndex = (rampTiming A .accel v0 (accelOver v1 v0 D)).index ∧
    (timedSegment A flip seg D v0 v1).hiresAccelCycles = (rampTiming A .accel v0 (accelOver v1 v0 D)).cycles := by
  unfold timedSegment
  rw [segmentTiming_accel ex h]
  refine ⟨?_, rfl, rfl, rfl, rfl⟩
  show loopsPerStep * D % 2 ^ 16 = _
  unfold loopsPerStep
  omega

theorem timedSegment_decel {v0 v1 : F} (h : v1 < v0) {D : Nat} (hD : D ≤ 32767) :
    (timedSegment A flip seg D v0 v1).loopsAccel = 0 ∧ (timedSegment A flip seg D v0 v1).loopsTravel = 0 ∧
    (timedSegment A flip seg D v0 v1).loopsDecel = 2 * D ∧
    (timedSegment A flip seg D v0 v1).accelSeriesIndex = (rampTiming A .decel v0 (accelOver v0 v1 D)).index ∧
    (timedSegment A flip seg D v0 v1).hiresAccelCycles = (rampTiming A .decel v0 (accelOver v0 v1 D)).cycles := by
  unfold timedSegment
  rw [segmentTiming_decel ex h]
  refine ⟨rfl, rfl, ?_, rfl, rfl⟩
  show loopsPerStep * D % 2 ^ 16 = _
  unfold loopsPerStep
  omega

/-- **C64, constant speed**: the delay is half the time of a step, rounded; the speed is limited to 1 MHz. -/
theorem C64_travel {v : F} (hv : 1 / 40 ≤ v) {D : Nat} (hD : D ≤ 32767) :
    let h := timedSegment A flip seg D v v
    h.loopsAccel = 0 ∧ h.loopsTravel = 2 * D ∧ h.loopsDecel = 0 ∧
    50 ≤ h.travelDelayCycles ∧ h.travelDelayCycles ≤ 2000000000 ∧
    |(h.travelDelayCycles : F) * (2 * min v 1000000) - 100000000| ≤ min v 1000000 ∧
    ∀ k < 2 * D, delayAfter (Regs.load h) k = h.travelDelayCycles - 2 := by
  have e1 : clipFrequency A v = min v 1000000 := by
    unfold clipFrequency frequencyLimit
    rw [fint_eq ex, ex.lt]
    push_cast
    by_cases h : v < 1000000
    · rw [decide_eq_true h, if_pos rfl, min_eq_left h.le]
    · rw [decide_eq_false h, if_neg (by decide), min_eq_right (not_lt.1 h)]
  have w0 : 1 / 40 ≤ min v 1000000 := le_min hv (by norm_num)
  have w1 : min v 1000000 ≤ 1000000 := min_le_right _ _
  have ht : segmentTiming A v v D = { phase := .travel, index := 0, cycles := 0
                                      delay := u32 (A.lround (100000000 / (2 * min v 1000000))) } := by
    unfold segmentTiming
    rw [ex.eq, decide_eq_true rfl, if_pos rfl, e1, ex.toFloat, ex.div, timerFrequency, ex.ofInt, fmul_eq ex, fint_eq ex]
    push_cast
    rfl
  unfold timedSegment
  rw [ht]
  generalize min v 1000000 = w at *
  have wp : 0 < w := by linarith
  obtain ⟨n1, n2⟩ := ex.near (100000000 / (2 * w))
  have q1 : 50 ≤ 100000000 / (2 * w) := by rw [le_div_iff₀ (by linarith)]; linarith
  have q2 : 100000000 / (2 * w) ≤ 2000000000 := by rw [div_le_iff₀ (by linarith)]; linarith
  have q3 : 100000000 / (2 * w) * (2 * w) = 100000000 := by field_simp
  generalize 100000000 / (2 * w) = q at *
  have r1 : 50 ≤ A.lround q := by
    have h1 : ((49 : Int) : F) < (A.lround q : F) := by push_cast; linarith
    have := Int.cast_lt.1 h1
    omega
  have r2 : A.lround q ≤ 2000000000 := by
    have h1 : (A.lround q : F) < ((2000000001 : Int) : F) := by push_cast; linarith
    have := Int.cast_lt.1 h1
    omega
  have f := u32_of_nonneg (show 0 ≤ A.lround q by omega) (by omega)
  have f' : ((u32 (A.lround q) : Nat) : F) = (A.lround q : F) := by
    rw [← Int.cast_natCast, f]
  dsimp only
  have hl : (buildSegment flip seg D { phase := .travel, index := 0, cycles := 0, delay := u32 (A.lround q) }).loopsTravel =
      2 * D := by
    show loopsPerStep * D % 2 ^ 16 = _
    unfold loopsPerStep
    omega
  refine ⟨rfl, hl, rfl, ?_, ?_, ?_, ?_⟩
  · show 50 ≤ u32 (A.lround q)
    omega
  · show u32 (A.lround q) ≤ 2000000000
    omega
  · show |((u32 (A.lround q) : Nat) : F) * (2 * w) - 100000000| ≤ w
    rw [f', abs_le]
    constructor <;> nlinarith
  · have hd : ∀ k (r : Regs), r.loopsAccel = 0 → r.travelDelay = u32 (A.lround q) → k < r.loopsTravel →
        delayAfter r k = u32 (A.lround q) - 2 := by
      intro k
      induction k with
      | zero =>
        intro r h1 h2 h3
        have h3' : r.loopsTravel ≠ 0 := by omega
        simp only [delayAfter, StepGen.calculateDelay, h1, ne_eq, not_true, if_false, h3', not_false_iff, if_true, h2,
          StepGen.sub32, Idiv.reg]
        omega
      | succ k ih =>
        intro r h1 h2 h3
        have h3' : r.loopsTravel ≠ 0 := by omega
        rw [StepGen.delayAfter_add]
        refine ih _ ?_ ?_ ?_
        · simp only [StepGen.calculateDelay, h1, ne_eq, not_true, if_false, h3', not_false_iff, if_true]
        · simp only [StepGen.calculateDelay, h1, ne_eq, not_true, if_false, h3', not_false_iff, if_true, h2]
        · simp only [StepGen.calculateDelay, h1, ne_eq, not_true, if_false, h3', not_false_iff, if_true]
          omega
    intro k hk
    refine hd k _ rfl rfl ?_
    rw [← hl] at hk
    exact hk

/-- **C64, acceleration**: the delays of the firmware, and bounds on the speed they mean. From zero, the speed after `k + 1`
half steps is at most what the acceleration gives, and the square of the speed is at least 98 % of what is due after `k` half
steps. From another speed, the motion is too fast by a factor that is noticeable for a small series index `i`: the square of
the speed by between `(4 i + 1) / (4 i - 1)` and `(2 i + 1) / (2 i - 1)`. -/
theorem C64_accel_partial {v0 v1 : F} (h : v0 < v1) {D : Nat} (hD2 : D ≤ 32767)
    (hm : Moderate v0 (accelOver v1 v0 D)) :
    let s := timedSegment A flip seg D v0 v1
    let acc := accelOver v1 v0 D
    s.loops = 2 * D ∧ ∀ k < 2 * D, ∃ X : Nat, delayAfter (Regs.load s) k = StepGen.sub32 (X >>> delayCycleShift) 69 ∧ X < 2 ^ 30 ∧
      (s.accelSeriesIndex = 0 → G ^ 2 ≤ (v0 ^ 2 + ((k : F) + 1) * acc) * ((X : F) + 1 / 2) ^ 2 ∧
        (3 ≤ X → 98 / 100 * (v0 ^ 2 + (k : F) * acc) * ((X : F) - 5 / 2) ^ 2 ≤ G ^ 2)) ∧
      (1 ≤ s.accelSeriesIndex →
        G ^ 2 * (2 * (s.accelSeriesIndex : F) - 1) ≤
          (v0 ^ 2 + ((k : F) + 1) * acc) * (2 * (s.accelSeriesIndex : F) + 1) * ((X : F) + 1 / 2) ^ 2 ∧
        (3 ≤ X → (v0 ^ 2 + ((k : F) + 1 / 4) * acc) * (4 * (s.accelSeriesIndex : F) + 1) * ((X : F) - 5 / 2) ^ 2 ≤
          G ^ 2 * (4 * (s.accelSeriesIndex : F) - 1))) := by
  obtain ⟨l1, l2, l3, l4, l5⟩ := timedSegment_accel ex flip seg h hD2
  obtain ⟨y, ok, b1, b2⟩ := rampTiming_ok ex .accel hm
  rw [← l4] at ok b1
  rw [← l5] at ok b2
  generalize timedSegment A flip seg D v0 v1 = s at *
  dsimp only
  refine ⟨by unfold MotionSegment.loops; omega, fun k hk => ⟨accelCycles s k, ?_, ?_, ?_, ?_⟩⟩
  · exact StepGen.accel_delay s (by unfold StepGen.UpFits; omega) k (by omega)
  · have h1 := StepGen.rampUp_le 1 s.hiresAccelCycles k
    have h2 := StepGen.rampUp_le s.accelSeriesIndex s.hiresAccelCycles (k + 1)
    unfold accelCycles
    split <;> omega
  · intro hi
    unfold accelCycles
    rw [if_pos hi]
    refine ⟨?_, ok.first_slow hi k⟩
    refine (ok.first_fast hi k).trans (mul_le_mul_of_nonneg_right ?_ (sq_nonneg _))
    have := sq_nonneg v0
    linarith
  · intro hi
    unfold accelCycles
    rw [if_neg (by omega)]
    exact ⟨ok.accel_fast hi k, ok.accel_slow hi k⟩

/-- The index of a deceleration is at least its number of loops. -/
theorem RampOk.loops_le {v0 v1 y : F} {i x D : Nat} (hD : 0 < D) (ok : RampOk v0 (accelOver v0 v1 D) i x y) : 2 * D ≤ i := by
  have h1 := accelOver_mul (fast := v0) (slow := v1) hD
  have h2 := ok.lo
  have h3 := ok.pos
  have h4 : ((2 * D : Nat) : F) < ((i + 1 : Nat) : F) := by
    push_cast
    by_contra hn
    have := not_lt.1 hn
    nlinarith [sq_nonneg v1]
  have := Nat.cast_lt.1 h4
  omega

omit ex in
theorem RampOk.downFits {v acc y : F} {i x : Nat} (ok : RampOk v acc i x y) (hm : 18 ≤ acc) (hi : i < 2 ^ 28) :
    (x + 1) ^ 2 * (2 * i + 1) ≤ 2 ^ 60 := by
  have h1 := ok.y_le
  have h2 := ok.near1
  have hy := ok.y0
  have hi' : (i : F) ≤ 268435456 := by exact_mod_cast hi.le
  have hi0 : (0 : F) ≤ (i : F) := Nat.cast_nonneg i
  have hx0 : (0 : F) ≤ (x : F) := Nat.cast_nonneg x
  have h3 : y ^ 2 * (4 * (i : F) + 1) * 18 ≤ 4 * G ^ 2 := by
    have : 0 ≤ y ^ 2 * (4 * (i : F) + 1) := by positivity
    nlinarith
  have h4 : ((x : F) + 1) ^ 2 ≤ 2 * y ^ 2 + 5 := by
    have : (x : F) + 1 ≤ y + 3 / 2 := by linarith
    have h5 : ((x : F) + 1) ^ 2 ≤ (y + 3 / 2) ^ 2 := pow_le_pow_left₀ (by linarith) this 2
    nlinarith [sq_nonneg (y - 3 / 2)]
  have h6 : ((x : F) + 1) ^ 2 * (2 * i + 1) ≤ 2 ^ 60 := by
    have h7 : ((x : F) + 1) ^ 2 * (2 * i + 1) ≤ (2 * y ^ 2 + 5) * (2 * i + 1) :=
      mul_le_mul_of_nonneg_right h4 (by linarith)
    have h8 : y ^ 2 * (2 * (i : F) + 1) ≤ y ^ 2 * (4 * (i : F) + 1) :=
      mul_le_mul_of_nonneg_left (by linarith) (sq_nonneg y)
    unfold G at h3
    norm_num at h3 ⊢
    nlinarith
  exact_mod_cast h6

/-- **C64, deceleration**: the speed follows the deceleration to within a quarter of a half step, apart from the rounding of the
initial cycle count `x`. -/
theorem C64_decel {v0 v1 : F} (h : v1 < v0) {D : Nat} (hD : 0 < D) (hD2 : D ≤ 32767)
    (hm : Moderate v0 (accelOver v0 v1 D)) :
    let s := timedSegment A flip seg D v0 v1
    let acc := accelOver v0 v1 D
    s.loops = 2 * D ∧ ∀ k < 2 * D, ∃ X : Nat, delayAfter (Regs.load s) k = StepGen.sub32 (X >>> delayCycleShift) 70 ∧
      s.hiresAccelCycles ≤ X ∧ X < 2 ^ 30 ∧
      G ^ 2 * (2 * (s.hiresAccelCycles : F)) ^ 2 ≤
        (v0 ^ 2 - ((k : F) - 1 / 4) * acc) * ((2 * (s.hiresAccelCycles : F) + 1) * ((X : F) + 1)) ^ 2 ∧
      (1 ≤ s.hiresAccelCycles → (v0 ^ 2 - ((k : F) + 1) * acc) * (4 * (s.accelSeriesIndex : F) + 1) *
        ((2 * (s.hiresAccelCycles : F) - 1) * ((X : F) + 1)) ^ 2 ≤
        G ^ 2 * (4 * (s.accelSeriesIndex : F) + 2) * (2 * ((s.hiresAccelCycles : F) + 1)) ^ 2) := by
  obtain ⟨l1, l2, l3, l4, l5⟩ := timedSegment_decel ex flip seg h hD2
  obtain ⟨y, ok, b1, b2⟩ := rampTiming_ok ex .decel hm
  rw [← l4] at ok b1
  rw [← l5] at ok b2
  have hle := RampOk.loops_le ex hD ok
  have hfit := ok.downFits hm.least b1
  have hmul := accelOver_mul (fast := v0) (slow := v1) hD
  have hpos := ok.pos
  generalize timedSegment A flip seg D v0 v1 = s at *
  dsimp only
  refine ⟨by unfold MotionSegment.loops; omega, fun k hk =>
    ⟨(rampDown s.accelSeriesIndex s.hiresAccelCycles (k + 1)).1, ?_, ?_, ?_, ?_, ?_⟩⟩
  · exact StepGen.decel_delay s l1 l2 ⟨by omega, by omega, hfit⟩ k (by omega)
  · exact StepGen.rampDown_ge _ _ _
  · exact StepGen.rampDown_le hfit _ (by omega)
  · exact ok.decel_fast k (by omega)
  · intro hx
    refine ok.decel_slow k (by omega) hx ?_
    have hk' : (k : F) + 1 ≤ 2 * D := by exact_mod_cast hk
    nlinarith [sq_nonneg v1]

omit ex in
/-- The delay after subtracting the cycles spent, for a cycle count large enough. -/
theorem delay_range {X c : Nat} (h2 : X < 2 ^ 30) (hc : c = 69 ∧ 2304 ≤ X ∨ c = 70 ∧ 2336 ≤ X) :
    3 ≤ StepGen.sub32 (X >>> delayCycleShift) c ∧ StepGen.sub32 (X >>> delayCycleShift) c ≤ 2000000000 := by
  have e : X >>> delayCycleShift = X / 32 := by
    rw [Nat.shiftRight_eq_div_pow]; rfl
  rw [e]
  unfold StepGen.sub32 Idiv.reg
  omega

/-- A move the firmware can time: no faster than 400 kHz, not too slow, acceleration not too small. -/
structure Timeable (v0 v1 : F) (D : Nat) : Prop where
  pos0 : 0 ≤ v0
  pos1 : 0 ≤ v1
  fast0 : v0 ≤ 400000
  fast1 : v1 ≤ 400000
  slow : v0 = v1 → 1 / 40 ≤ v0
  up : v0 < v1 → Moderate v0 (accelOver v1 v0 D)
  down : v1 < v0 → Moderate v0 (accelOver v0 v1 D)

omit ex in
/-- Non-vacuity: accelerate from rest to 20000 steps/s within 1000 steps, and back, and travel. -/
example : Timeable (0 : F) 20000 1000 ∧ Timeable (20000 : F) 0 1000 ∧ Timeable (20000 : F) 20000 1000 := by
  have ha : accelOver (20000 : F) 0 1000 = 200000 := by unfold accelOver; norm_num
  refine ⟨⟨by norm_num, by norm_num, by norm_num, by norm_num, fun h => ?_, fun _ => ?_, fun h => ?_⟩,
    ⟨by norm_num, by norm_num, by norm_num, by norm_num, fun h => ?_, fun h => ?_, fun _ => ?_⟩,
    ⟨by norm_num, by norm_num, by norm_num, by norm_num, fun _ => by norm_num, fun h => ?_, fun h => ?_⟩⟩
  · norm_num at h
  · rw [ha]; constructor <;> norm_num
  · norm_num at h
  · norm_num at h
  · norm_num at h
  · rw [ha]; constructor <;> norm_num
  · norm_num at h
  · norm_num at h

/-- **C64, delays**: in all three phases, no delay is so small that it would be taken for the end of the segment, or that
subtracting the cycles spent would wrap around. -/
theorem C64_delays {v0 v1 : F} {D : Nat} (hD : 0 < D) (hD2 : D ≤ 32767) (ht : Timeable v0 v1 D) :
    (timedSegment A flip seg D v0 v1).loops = 2 * D ∧ ∀ k < 2 * D,
      3 ≤ delayAfter (Regs.load (timedSegment A flip seg D v0 v1)) k ∧
      delayAfter (Regs.load (timedSegment A flip seg D v0 v1)) k ≤ 2000000000 := by
  obtain ⟨p0, p1, f0, f1, hs, hu, hd⟩ := ht
  rcases lt_trichotomy v0 v1 with h | h | h
  · obtain ⟨l, hk⟩ := C64_accel_partial ex flip seg h hD2 (hu h)
    refine ⟨l, fun k hk' => ?_⟩
    obtain ⟨X, e, hX, c1, c2⟩ := hk k hk'
    rw [e]
    refine delay_range hX (.inl ⟨rfl, ?_⟩)
    have hmul := accelOver_mul (fast := v1) (slow := v0) hD
    have hacc : 0 < accelOver v1 v0 D := by have := (hu h).least; linarith
    have hkD : (k : F) + 1 ≤ 2 * D := by exact_mod_cast hk'
    have hk0 : (0 : F) ≤ (k : F) := Nat.cast_nonneg k
    have hv : v0 ^ 2 + ((k : F) + 1) * accelOver v1 v0 D ≤ 160000000000 := by
      have h1 : ((k : F) + 1) * accelOver v1 v0 D ≤ 2 * D * accelOver v1 v0 D := mul_le_mul_of_nonneg_right hkD hacc.le
      have h2 : v1 ^ 2 ≤ 400000 ^ 2 := pow_le_pow_left₀ p1 f1 2
      norm_num at h2
      linarith
    have hv0 : 0 ≤ v0 ^ 2 + ((k : F) + 1) * accelOver v1 v0 D :=
      add_nonneg (sq_nonneg _) (mul_nonneg (by linarith) hacc.le)
    have hx0 : (0 : F) ≤ (X : F) := Nat.cast_nonneg X
    have key : G ^ 2 ≤ 480000000000 * ((X : F) + 1 / 2) ^ 2 := by
      by_cases hi : (timedSegment A flip seg D v0 v1).accelSeriesIndex = 0
      · refine (c1 hi).1.trans (mul_le_mul_of_nonneg_right (by linarith) (sq_nonneg _))
      · have hi1 : 1 ≤ (timedSegment A flip seg D v0 v1).accelSeriesIndex := by omega
        have := (c2 hi1).1
        have hi' : (1 : F) ≤ ((timedSegment A flip seg D v0 v1).accelSeriesIndex : F) := by exact_mod_cast hi1
        generalize ((timedSegment A flip seg D v0 v1).accelSeriesIndex : F) = i at *
        have h3 : (v0 ^ 2 + ((k : F) + 1) * accelOver v1 v0 D) * (2 * i + 1) * ((X : F) + 1 / 2) ^ 2 ≤
            160000000000 * (3 * (2 * i - 1)) * ((X : F) + 1 / 2) ^ 2 := by
          refine mul_le_mul_of_nonneg_right (mul_le_mul hv (by linarith) (by linarith) (by norm_num)) (sq_nonneg _)
        have h4 : G ^ 2 * (2 * i - 1) ≤ 480000000000 * ((X : F) + 1 / 2) ^ 2 * (2 * i - 1) := by
          refine (this.trans h3).trans (le_of_eq ?_)
          ring
        exact le_of_mul_le_mul_right h4 (by linarith)
    by_contra hn
    have hn' : (X : F) ≤ 2303 := by exact_mod_cast (by omega : X ≤ 2303)
    have h5 : ((X : F) + 1 / 2) ^ 2 ≤ (2304) ^ 2 := pow_le_pow_left₀ (by linarith) (by linarith) 2
    unfold G at key
    norm_num at key h5
    linarith
  · subst h
    obtain ⟨l1, l2, l3, d1, d2, -, hk⟩ := C64_travel ex flip seg (hs rfl) hD2
    refine ⟨by unfold MotionSegment.loops; omega, fun k hk' => ?_⟩
    rw [hk k hk']
    omega
  · obtain ⟨l, hk⟩ := C64_decel ex flip seg h hD hD2 (hd h)
    obtain ⟨l1, l2, l3, l4, l5⟩ := timedSegment_decel ex flip seg h hD2
    obtain ⟨y, ok, b1, b2⟩ := rampTiming_ok ex .decel (hd h)
    rw [← l4] at ok b1
    rw [← l5] at ok b2
    refine ⟨l, fun k hk' => ?_⟩
    obtain ⟨X, e, hxX, hX, -⟩ := hk k hk'
    rw [e]
    refine delay_range hX (.inr ⟨rfl, le_trans ?_ hxX⟩)
    have hle := RampOk.loops_le ex hD ok
    have hf := ok.fast (by omega)
    have hmul := accelOver_mul (fast := v0) (slow := v1) hD
    have hpos := ok.pos
    have hhi := ok.hi
    have hn2 := ok.near2
    have hy := ok.y0
    have hD' : (1 : F) ≤ (D : F) := by exact_mod_cast hD
    generalize ((timedSegment A flip seg D v0 v1).accelSeriesIndex : F) = i at *
    have hv : v0 ^ 2 ≤ 160000000000 := by
      have h2 : v0 ^ 2 ≤ 400000 ^ 2 := pow_le_pow_left₀ p0 f0 2
      norm_num at h2
      exact h2
    have ha : accelOver v0 v1 D ≤ 80000000000 := by
      have h1 : accelOver v0 v1 D * 1 ≤ accelOver v0 v1 D * D := mul_le_mul_of_nonneg_left hD' hpos.le
      have := sq_nonneg v1
      linarith
    have h6 : accelOver v0 v1 D * (2 * i + 1) ≤ 480000000000 := by linarith
    have key : 2 * G ^ 2 ≤ y ^ 2 * 480000000000 := by
      refine hf.trans ?_
      rw [mul_assoc]
      exact mul_le_mul_of_nonneg_left h6 (sq_nonneg y)
    by_contra hn
    have hn' : ((timedSegment A flip seg D v0 v1).hiresAccelCycles : F) ≤ 2335 := by
      exact_mod_cast (by omega : (timedSegment A flip seg D v0 v1).hiresAccelCycles ≤ 2335)
    have h5 : y ^ 2 ≤ 2336 ^ 2 := pow_le_pow_left₀ hy (by linarith) 2
    unfold G at key
    norm_num at key h5
    linarith

/-- So the segment runs to its end, which is what C20 needs. -/
theorem C64_no_early_stop {v0 v1 : F} {D : Nat} (hD : 0 < D) (hD2 : D ≤ 32767) (ht : Timeable v0 v1 D) :
    NoEarlyStop (timedSegment A flip seg D v0 v1) := by
  obtain ⟨l, h⟩ := C64_delays ex flip seg hD hD2 ht
  intro k hk
  rw [l] at hk
  have := (h k hk).1
  omega

/-- **C28 for the timing the host computes**: simulation and firmware make the same steps and the same number of loops. -/
theorem C28_host {v0 v1 : F} {D : Nat} (hD : 0 < D) (hD2 : D ≤ 32767) (ht : Timeable v0 v1 D) (steps : Motor → Int) :
    ∃ delays steps', StepGen.simExec (timedSegment A flip seg D v0 v1) steps = some (delays, steps') ∧
      (StepGen.exec (timedSegment A flip seg D v0 v1) StepGen.noEstop).2 = .done ∧
      delays.length + 1 = (StepGen.exec (timedSegment A flip seg D v0 v1) StepGen.noEstop).1.length ∧
      ∀ i, steps' i = steps i + StepGen.netSteps (timedSegment A flip seg D v0 v1) StepGen.noEstop false i :=
  StepGen.C28_simulation_agrees_partial _ (C64_no_early_stop ex flip seg hD hD2 ht) steps

/-- And it waits for what was computed. -/
theorem C64_waits {v0 v1 : F} {D : Nat} (hD : 0 < D) (hD2 : D ≤ 32767) (ht : Timeable v0 v1 D) (k : Nat) (hk : k < 2 * D) :
    StepGen.waitRounds (delayAfter (Regs.load (timedSegment A flip seg D v0 v1)) k) =
      delayAfter (Regs.load (timedSegment A flip seg D v0 v1)) k - 2 := by
  obtain ⟨h1, h2⟩ := (C64_delays ex flip seg hD hD2 ht).2 k hk
  unfold StepGen.waitRounds
  dsimp only
  have e : StepGen.sub32 (delayAfter (Regs.load (timedSegment A flip seg D v0 v1)) k) 2 =
      delayAfter (Regs.load (timedSegment A flip seg D v0 v1)) k - 2 := by
    unfold StepGen.sub32 Idiv.reg
    omega
  rw [e, if_neg (by omega)]

/-- **C64, too fast**: an acceleration from 1000 to 29000 steps/s within 420 steps (10⁶ steps/s²) ends with more than
36250 steps/s. The host computes the period of the first loop and the firmware shortens it once more before using it; when the
series index is 1, the whole series is therefore too fast. -/
theorem C64_overshoot : ∃ X : Nat,
    delayAfter (Regs.load (timedSegment A flip seg 420 1000 29000)) 839 = StepGen.sub32 (X >>> delayCycleShift) 69 ∧
    (5 / 4 * 29000 : F) * X < G := by
  have hlt : (1000 : F) < 29000 := by norm_num
  have hacc : accelOver (29000 : F) 1000 420 = 1000000 := by unfold accelOver; norm_num
  have hm : Moderate (1000 : F) (accelOver 29000 1000 420) := by
    rw [hacc]; constructor <;> norm_num
  obtain ⟨-, hk⟩ := C64_accel_partial ex flip seg hlt (show 420 ≤ 32767 by omega) hm
  obtain ⟨X, e, -, -, c⟩ := hk 839 (by omega)
  refine ⟨X, e, ?_⟩
  have hi : (timedSegment A flip seg 420 (1000 : F) 29000).accelSeriesIndex = 1 := by
    obtain ⟨-, -, -, l4, -⟩ := timedSegment_accel ex flip seg hlt (show 420 ≤ 32767 by omega)
    obtain ⟨y, ok, -⟩ := rampTiming_ok ex .accel hm
    rw [← l4] at ok
    have h1 := ok.lo
    have h2 := ok.hi
    rw [hacc] at h1 h2
    generalize (timedSegment A flip seg 420 (1000 : F) 29000).accelSeriesIndex = i at *
    have h3 : (i : F) < ((2 : Nat) : F) := by push_cast; linarith
    have h4 : ((0 : Nat) : F) < (i : F) := by push_cast; linarith
    have := Nat.cast_lt.1 h3
    have := Nat.cast_lt.1 h4
    omega
  rw [hi, hacc] at c
  obtain ⟨c1, c2⟩ := c (le_refl 1)
  have hx0 : (0 : F) ≤ (X : F) := Nat.cast_nonneg X
  unfold G at c1 c2 ⊢
  norm_num at c1 c2
  have hX : 3 ≤ X := by
    by_contra hn
    have hn' : (X : F) ≤ 2 := by exact_mod_cast (by omega : X ≤ 2)
    have h5 : ((X : F) + 1 / 2) ^ 2 ≤ 3 ^ 2 := pow_le_pow_left₀ (by linarith) (by linarith) 2
    norm_num at h5
    linarith
  have c3 := c2 hX
  have hX' : (3 : F) ≤ (X : F) := by exact_mod_cast hX
  by_contra hn
  have h6 : (44000 : F) ≤ (X : F) := by linarith
  have h7 : (43997 : F) ^ 2 ≤ ((X : F) - 5 / 2) ^ 2 := pow_le_pow_left₀ (by norm_num) (by linarith) 2
  norm_num at h7
  linarith

end

end BeagleG.MotorOps
