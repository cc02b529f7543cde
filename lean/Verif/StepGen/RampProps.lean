import Verif.StepGen.Props
import Verif.Idiv.Props
import Mathlib.Tactic.Linarith
import Mathlib.Tactic.Ring
import Mathlib.Tactic.FieldSimp
import Mathlib.Tactic.Positivity
import Mathlib.Algebra.Order.Field.Basic
/-!
# C64: the delays of an acceleration or deceleration phase

The firmware computes the delay of each loop from that of the loop before by an integer division whose remainder is carried
along. Here it is shown how far this is from the product of fractions it approximates, that no register overflows, and that
the delays are what the firmware waits for.
-/
namespace BeagleG.StepGen

open Idiv (reg idiv)

/-! ### The registers -/

/-- Cycle count and remainder after `j` updates of an acceleration that starts with series index `a` and cycle count `x`. -/
def rampUp (a x : Nat) : Nat → Nat × Nat
  | 0 => (x, 0)
  | j + 1 =>
    let p := rampUp a x j
    (p.1 - (2 * p.1 + p.2) / (4 * (a + j) + 1), (2 * p.1 + p.2) % (4 * (a + j) + 1))

/-- Likewise for a deceleration. -/
def rampDown (a x : Nat) : Nat → Nat × Nat
  | 0 => (x, 0)
  | j + 1 =>
    let p := rampDown a x j
    (p.1 + (2 * p.1 + p.2) / (4 * (a - j) - 1), (2 * p.1 + p.2) % (4 * (a - j) - 1))

theorem rampUp_rem (a x j : Nat) : (rampUp a x j).2 ≤ 4 * (a + j) := by
  cases j with
  | zero => simp [rampUp]
  | succ j =>
    have := Nat.mod_lt (2 * (rampUp a x j).1 + (rampUp a x j).2) (show 0 < 4 * (a + j) + 1 by omega)
    simp only [rampUp]
    omega

theorem rampUp_quot (a x j : Nat) :
    (2 * (rampUp a x j).1 + (rampUp a x j).2) / (4 * (a + j) + 1) ≤ (rampUp a x j).1 ∨ a + j = 0 := by
  by_cases h0 : a + j = 0
  · exact .inr h0
  left
  have hr := rampUp_rem a x j
  refine Nat.le_of_lt_succ ((Nat.div_lt_iff_lt_mul (by omega)).2 ?_)
  have h5 : 5 ≤ 4 * (a + j) + 1 := by omega
  have : (rampUp a x j).1 * 5 ≤ (rampUp a x j).1 * (4 * (a + j) + 1) := Nat.mul_le_mul_left _ h5
  have e : ((rampUp a x j).1 + 1) * (4 * (a + j) + 1) = (rampUp a x j).1 * (4 * (a + j) + 1) + (4 * (a + j) + 1) := Nat.succ_mul _ _
  show _ < ((rampUp a x j).1 + 1) * (4 * (a + j) + 1)
  rw [e]
  omega

theorem rampUp_le (a x j : Nat) : (rampUp a x j).1 ≤ x := by
  induction j with
  | zero => simp [rampUp]
  | succ j ih => exact (Nat.sub_le _ _).trans ih

/-- The state of the registers after `j` loops of an acceleration with index at least 1. -/
def upRegs (r : Regs) (j : Nat) : Regs :=
  { r with
    loopsAccel := r.loopsAccel - j
    index := r.index + j
    cycles := (rampUp r.index r.cycles j).1
    remainder := (rampUp r.index r.cycles j).2 }

theorem up_step (r : Regs) (hi : 1 ≤ r.index) (hw : 2 * r.cycles + 4 * (r.index + r.loopsAccel) + 1 < 2 ^ 32) (j : Nat)
    (hj : j < r.loopsAccel) :
    calculateDelay (upRegs r j) = (upRegs r (j + 1), sub32 ((rampUp r.index r.cycles (j + 1)).1 >>> delayCycleShift) 69) := by
  have h1 := rampUp_rem r.index r.cycles j
  have h2 := rampUp_le r.index r.cycles j
  have h3 := (rampUp_quot r.index r.cycles j).resolve_right (by omega)
  have hd : accelUpdate (upRegs r j) = { upRegs r j with
      cycles := (rampUp r.index r.cycles (j + 1)).1
      remainder := (rampUp r.index r.cycles (j + 1)).2 } := by
    have e1 : reg (reg ((rampUp r.index r.cycles j).1 * 2) + (rampUp r.index r.cycles j).2) =
        2 * (rampUp r.index r.cycles j).1 + (rampUp r.index r.cycles j).2 := by
      unfold reg; omega
    have e2 : reg (reg ((r.index + j) * 4) + 1) = 4 * (r.index + j) + 1 := by
      unfold reg; omega
    unfold accelUpdate upRegs
    dsimp only
    rw [if_neg (by omega), e1, e2, Idiv.C22_idiv_eq _ _ (by omega) (by omega) (by omega)]
    dsimp only
    have e3 : sub32 (rampUp r.index r.cycles j).1
        ((2 * (rampUp r.index r.cycles j).1 + (rampUp r.index r.cycles j).2) / (4 * (r.index + j) + 1)) =
        (rampUp r.index r.cycles (j + 1)).1 := by
      simp only [rampUp]
      generalize (2 * (rampUp r.index r.cycles j).1 + (rampUp r.index r.cycles j).2) / (4 * (r.index + j) + 1) = q at h3 ⊢
      unfold sub32 reg
      omega
    rw [e3]
    rfl
  unfold calculateDelay
  rw [hd]
  have e4 : (upRegs r j).loopsAccel ≠ 0 := by show r.loopsAccel - j ≠ 0; omega
  rw [if_pos e4]
  unfold upRegs reg
  dsimp only
  have e5 : (r.index + j + 1) % 2 ^ 32 = r.index + (j + 1) := by omega
  have e6 : r.loopsAccel - j - 1 = r.loopsAccel - (j + 1) := by omega
  rw [e5, e6]

theorem delayAfter_add (r : Regs) (k : Nat) : delayAfter r (k + 1) = delayAfter (calculateDelay r).1 k := rfl

theorem up_delay (r : Regs) (hi : 1 ≤ r.index) (hw : 2 * r.cycles + 4 * (r.index + r.loopsAccel) + 1 < 2 ^ 32) (k j : Nat)
    (hk : j + k < r.loopsAccel) :
    delayAfter (upRegs r j) k = sub32 ((rampUp r.index r.cycles (j + k + 1)).1 >>> delayCycleShift) 69 := by
  induction k generalizing j with
  | zero =>
    show (calculateDelay (upRegs r j)).2 = _
    rw [up_step r hi hw j (by omega)]
  | succ k ih =>
    rw [delayAfter_add, up_step r hi hw j (by omega)]
    have := ih (j + 1) (by omega)
    rw [show j + 1 + k = j + (k + 1) by omega] at this
    exact this

theorem upRegs_zero (r : Regs) (hr : r.remainder = 0) : upRegs r 0 = r := by
  cases r
  cases hr
  rfl

/-- Cycle count of loop `k` of an acceleration; the first loop of a series is not computed. -/
def accelCycles (s : MotionSegment) (k : Nat) : Nat :=
  if s.accelSeriesIndex = 0 then (rampUp 1 s.hiresAccelCycles k).1
  else (rampUp s.accelSeriesIndex s.hiresAccelCycles (k + 1)).1

/-- The values of an acceleration phase fit the registers. -/
def UpFits (s : MotionSegment) : Prop :=
  2 * s.hiresAccelCycles + 4 * (s.accelSeriesIndex + s.loopsAccel) + 5 < 2 ^ 32

/-- The delays of an acceleration phase. -/
theorem accel_delay (s : MotionSegment) (hw : UpFits s) (k : Nat) (hk : k < s.loopsAccel) :
    delayAfter (Regs.load s) k = sub32 (accelCycles s k >>> delayCycleShift) 69 := by
  unfold UpFits at hw
  unfold accelCycles
  by_cases h0 : s.accelSeriesIndex = 0
  · rw [if_pos h0]
    have hd : calculateDelay (Regs.load s) =
        ({ Regs.load s with index := 1, loopsAccel := s.loopsAccel - 1 }, sub32 (s.hiresAccelCycles >>> delayCycleShift) 69) := by
      unfold calculateDelay accelUpdate Regs.load
      dsimp only
      rw [if_pos (by omega), if_pos h0]
      dsimp only
      rw [h0]
      rfl
    cases k with
    | zero =>
      show (calculateDelay (Regs.load s)).2 = _
      rw [hd]; rfl
    | succ k =>
      rw [delayAfter_add, hd]
      dsimp only
      have := up_delay { Regs.load s with index := 1, loopsAccel := s.loopsAccel - 1 } (le_refl 1)
        (by show 2 * s.hiresAccelCycles + 4 * (1 + (s.loopsAccel - 1)) + 1 < 2 ^ 32; omega) k 0
        (by show 0 + k < s.loopsAccel - 1; omega)
      rw [upRegs_zero _ rfl] at this
      rw [this]
      show sub32 ((rampUp 1 s.hiresAccelCycles (0 + k + 1)).1 >>> delayCycleShift) 69 = _
      rw [show 0 + k + 1 = k + 1 by omega]
  · rw [if_neg h0]
    have := up_delay (Regs.load s) (show 1 ≤ s.accelSeriesIndex by omega)
      (show 2 * s.hiresAccelCycles + 4 * (s.accelSeriesIndex + s.loopsAccel) + 1 < 2 ^ 32 by omega) k 0
      (show 0 + k < s.loopsAccel by omega)
    rw [upRegs_zero _ rfl] at this
    rw [this]
    show sub32 ((rampUp s.accelSeriesIndex s.hiresAccelCycles (0 + k + 1)).1 >>> delayCycleShift) 69 = _
    rw [show 0 + k + 1 = k + 1 by omega]

/-! ### The exact product -/

section
variable {F : Type} [Field F] [LinearOrder F] [IsStrictOrderedRing F]

/-- What the updates of an acceleration approximate. -/
def idealUp (a : Nat) (x : F) : Nat → F
  | 0 => x
  | j + 1 => idealUp a x j * ((4 * ((a + j : Nat) : F) - 1) / (4 * ((a + j : Nat) : F) + 1))

theorem idealUp_pos {a : Nat} (ha : 1 ≤ a) {x : F} (hx : 0 ≤ x) (j : Nat) : 0 ≤ idealUp a x j := by
  induction j with
  | zero => exact hx
  | succ j ih =>
    have : (1 : F) ≤ ((a + j : Nat) : F) := by exact_mod_cast (by omega : 1 ≤ a + j)
    refine mul_nonneg ih (div_nonneg ?_ ?_) <;> linarith

theorem upFactor {n : F} (hn : 1 ≤ n) : 2 * n - 1 ≤ ((4 * n - 1) / (4 * n + 1)) ^ 2 * (2 * n + 1) ∧
    ((4 * n - 1) / (4 * n + 1)) ^ 2 * (4 * n + 3) ≤ 4 * n - 1 := by
  have h : 0 < 4 * n + 1 := by linarith
  rw [div_pow, div_mul_eq_mul_div, div_mul_eq_mul_div, le_div_iff₀ (by positivity), div_le_iff₀ (by positivity)]
  constructor <;> nlinarith

/-- The square falls at least and at most like these fractions. -/
theorem idealUp_sq {a : Nat} (ha : 1 ≤ a) (x : F) (j : Nat) :
    x ^ 2 * (2 * (a : F) - 1) ≤ idealUp a x j ^ 2 * (2 * ((a + j : Nat) : F) - 1) ∧
    idealUp a x j ^ 2 * (4 * ((a + j : Nat) : F) - 1) ≤ x ^ 2 * (4 * (a : F) - 1) := by
  induction j with
  | zero => simp [idealUp]
  | succ j ih =>
    have hn : (1 : F) ≤ ((a + j : Nat) : F) := by exact_mod_cast (by omega : 1 ≤ a + j)
    have e : (((a + (j + 1) : Nat)) : F) = ((a + j : Nat) : F) + 1 := by push_cast; ring
    obtain ⟨f1, f2⟩ := upFactor hn
    have hp := sq_nonneg (idealUp a x j)
    rw [e]
    unfold idealUp
    constructor
    · refine ih.1.trans ?_
      have := mul_le_mul_of_nonneg_left f1 hp
      refine this.trans (le_of_eq ?_)
      ring
    · refine le_trans ?_ ih.2
      have := mul_le_mul_of_nonneg_left f2 hp
      refine le_trans (le_of_eq ?_) this
      ring

/-- **The error of the integer computation**: the cycle count is never below the product and less than 2 above. (A cycle
count is 32 times a delay.) -/
theorem rampUp_ideal {a x : Nat} (ha : 1 ≤ a) (j : Nat) :
    idealUp a (x : F) j ≤ ((rampUp a x j).1 : F) ∧ ((rampUp a x j).1 : F) < idealUp a (x : F) j + 2 := by
  -- The remainder divided by the last divisor.
  have key : idealUp a (x : F) j ≤ ((rampUp a x j).1 : F) - ((rampUp a x j).2 : F) / (4 * ((a + j : Nat) : F) - 3) ∧
      ((rampUp a x j).1 : F) - ((rampUp a x j).2 : F) / (4 * ((a + j : Nat) : F) - 3) ≤ idealUp a (x : F) j + 1 ∧
      ((rampUp a x j).2 : F) < 4 * ((a + j : Nat) : F) - 3 := by
    induction j with
    | zero =>
      have hn : (1 : F) ≤ ((a + 0 : Nat) : F) := by exact_mod_cast (by omega : 1 ≤ a + 0)
      simp only [idealUp, rampUp, Nat.cast_zero, zero_div, sub_zero]
      exact ⟨le_refl _, by linarith, by linarith⟩
    | succ j ih =>
      obtain ⟨i1, i2, i3⟩ := ih
      have hn : (1 : F) ≤ ((a + j : Nat) : F) := by exact_mod_cast (by omega : 1 ≤ a + j)
      have e : (((a + (j + 1) : Nat)) : F) = ((a + j : Nat) : F) + 1 := by push_cast; ring
      have hq := (rampUp_quot a x j).resolve_right (by omega)
      have hdiv := Nat.div_add_mod (2 * (rampUp a x j).1 + (rampUp a x j).2) (4 * (a + j) + 1)
      have hmod := Nat.mod_lt (2 * (rampUp a x j).1 + (rampUp a x j).2) (show 0 < 4 * (a + j) + 1 by omega)
      rw [e]
      simp only [idealUp, rampUp]
      rw [Nat.cast_sub hq]
      generalize (2 * (rampUp a x j).1 + (rampUp a x j).2) / (4 * (a + j) + 1) = q at *
      generalize (2 * (rampUp a x j).1 + (rampUp a x j).2) % (4 * (a + j) + 1) = r' at *
      have hdiv' : (4 * ((a + j : Nat) : F) + 1) * (q : F) + (r' : F) = 2 * ((rampUp a x j).1 : F) + ((rampUp a x j).2 : F) := by
        exact_mod_cast hdiv
      have hmod' : (r' : F) < 4 * ((a + j : Nat) : F) + 1 := by exact_mod_cast hmod
      have hr0 : (0 : F) ≤ ((rampUp a x j).2 : F) := Nat.cast_nonneg _
      generalize ((rampUp a x j).1 : F) = X at *
      generalize ((rampUp a x j).2 : F) = R at *
      generalize ((a + j : Nat) : F) = n at *
      generalize idealUp a (x : F) j = p at *
      generalize (q : F) = Q at *
      generalize (r' : F) = R' at *
      have d1 : 0 < 4 * n + 1 := by linarith
      have d3 : 0 < 4 * n - 3 := by linarith
      have e1 : 4 * (n + 1) - 3 = 4 * n + 1 := by ring
      rw [e1]
      have y : X - Q - R' / (4 * n + 1) = ((4 * n - 1) * X - R) / (4 * n + 1) := by
        field_simp
        linarith
      rw [y, mul_div_assoc']
      have u : R / (4 * n - 3) * (4 * n - 3) = R := by field_simp
      have u0 : 0 ≤ R / (4 * n - 3) := div_nonneg hr0 d3.le
      have u1 : R / (4 * n - 3) ≤ 1 := by rw [div_le_one d3]; exact i3.le
      generalize R / (4 * n - 3) = v at *
      refine ⟨div_le_div_of_nonneg_right ?_ d1.le, ?_, hmod'⟩
      · nlinarith
      · rw [div_le_iff₀ d1, add_mul, div_mul_cancel₀ _ d1.ne']
        nlinarith
  obtain ⟨k1, k2, k3⟩ := key
  have hn : (1 : F) ≤ ((a + j : Nat) : F) := by exact_mod_cast (by omega : 1 ≤ a + j)
  have d3 : 0 < 4 * ((a + j : Nat) : F) - 3 := by linarith
  have u0 : 0 ≤ ((rampUp a x j).2 : F) / (4 * ((a + j : Nat) : F) - 3) := div_nonneg (Nat.cast_nonneg _) d3.le
  have u1 : ((rampUp a x j).2 : F) / (4 * ((a + j : Nat) : F) - 3) < 1 := by rw [div_lt_one d3]; exact k3
  exact ⟨by linarith, by linarith⟩

/-- What the updates of a deceleration approximate. -/
def idealDown (a : Nat) (x : F) : Nat → F
  | 0 => x
  | j + 1 => idealDown a x j * ((4 * ((a - j : Nat) : F) + 1) / (4 * ((a - j : Nat) : F) - 1))

theorem downFactor {n : F} (hn : 1 ≤ n) : ((4 * n + 1) / (4 * n - 1)) ^ 2 * (2 * n - 1) ≤ 2 * n + 1 ∧
    4 * n + 3 ≤ ((4 * n + 1) / (4 * n - 1)) ^ 2 * (4 * n - 1) := by
  have h : 0 < 4 * n - 1 := by linarith
  rw [div_pow, div_mul_eq_mul_div, div_mul_eq_mul_div, le_div_iff₀ (by positivity), div_le_iff₀ (by positivity)]
  constructor <;> nlinarith

theorem down_cast {a j : Nat} (h : j + 1 ≤ a) : (1 : F) ≤ ((a - j : Nat) : F) ∧ ((a - (j + 1) : Nat) : F) = ((a - j : Nat) : F) - 1 := by
  have h1 : 1 ≤ a - j := by omega
  refine ⟨by exact_mod_cast h1, ?_⟩
  rw [show a - (j + 1) = a - j - 1 by omega, Nat.cast_sub h1, Nat.cast_one]

theorem idealDown_sq {a : Nat} (x : F) (j : Nat) (hj : j ≤ a) :
    idealDown a x j ^ 2 * (2 * ((a - j : Nat) : F) + 1) ≤ x ^ 2 * (2 * (a : F) + 1) ∧
    x ^ 2 * (4 * (a : F) + 3) ≤ idealDown a x j ^ 2 * (4 * ((a - j : Nat) : F) + 3) := by
  induction j with
  | zero => simp [idealDown]
  | succ j ih =>
    obtain ⟨i1, i2⟩ := ih (by omega)
    obtain ⟨hn, e⟩ := down_cast (F := F) hj
    obtain ⟨f1, f2⟩ := downFactor hn
    have hp := sq_nonneg (idealDown a x j)
    rw [e]
    unfold idealDown
    constructor
    · refine le_trans ?_ i1
      have := mul_le_mul_of_nonneg_left f1 hp
      refine le_trans (le_of_eq ?_) this
      ring
    · refine i2.trans ?_
      have := mul_le_mul_of_nonneg_left f2 hp
      refine this.trans (le_of_eq ?_)
      ring

/-- **The error of the integer computation**, decelerating. -/
theorem rampDown_ideal {a x : Nat} (j : Nat) (hj : j ≤ a) :
    idealDown a (x : F) j < ((rampDown a x j).1 : F) + 1 ∧ ((rampDown a x j).1 : F) + 1 ≤ idealDown a ((x : F) + 1) j := by
  have key : idealDown a (x : F) j ≤ ((rampDown a x j).1 : F) + ((rampDown a x j).2 : F) / (4 * ((a - j : Nat) : F) + 3) ∧
      ((rampDown a x j).1 : F) + ((rampDown a x j).2 : F) / (4 * ((a - j : Nat) : F) + 3) + 1 ≤ idealDown a ((x : F) + 1) j ∧
      ((rampDown a x j).2 : F) < 4 * ((a - j : Nat) : F) + 3 := by
    induction j with
    | zero =>
      have hn : (0 : F) ≤ ((a - 0 : Nat) : F) := Nat.cast_nonneg _
      simp only [idealDown, rampDown, Nat.cast_zero, zero_div, add_zero]
      exact ⟨le_refl _, le_refl _, by linarith⟩
    | succ j ih =>
      obtain ⟨i1, i2, i3⟩ := ih (by omega)
      obtain ⟨hn, e⟩ := down_cast (F := F) hj
      have hc : ((4 * (a - j) - 1 : Nat) : F) = 4 * ((a - j : Nat) : F) - 1 := by
        rw [Nat.cast_sub (by omega)]; push_cast; ring
      have hdiv := Nat.div_add_mod (2 * (rampDown a x j).1 + (rampDown a x j).2) (4 * (a - j) - 1)
      have hmod := Nat.mod_lt (2 * (rampDown a x j).1 + (rampDown a x j).2) (show 0 < 4 * (a - j) - 1 by omega)
      rw [e]
      simp only [idealDown, rampDown]
      rw [Nat.cast_add]
      generalize (2 * (rampDown a x j).1 + (rampDown a x j).2) / (4 * (a - j) - 1) = q at *
      generalize (2 * (rampDown a x j).1 + (rampDown a x j).2) % (4 * (a - j) - 1) = r' at *
      have hdiv' : (4 * ((a - j : Nat) : F) - 1) * (q : F) + (r' : F) = 2 * ((rampDown a x j).1 : F) + ((rampDown a x j).2 : F) := by
        rw [← hc]
        exact_mod_cast hdiv
      have hmod' : (r' : F) < 4 * ((a - j : Nat) : F) - 1 := by rw [← hc]; exact_mod_cast hmod
      have hr0 : (0 : F) ≤ ((rampDown a x j).2 : F) := Nat.cast_nonneg _
      generalize ((rampDown a x j).1 : F) = X at *
      generalize ((rampDown a x j).2 : F) = R at *
      generalize ((a - j : Nat) : F) = n at *
      generalize idealDown a (x : F) j = p at *
      generalize idealDown a ((x : F) + 1) j = p1 at *
      generalize (q : F) = Q at *
      generalize (r' : F) = R' at *
      have d1 : 0 < 4 * n - 1 := by linarith
      have d3 : 0 < 4 * n + 3 := by linarith
      have e1 : 4 * (n - 1) + 3 = 4 * n - 1 := by ring
      rw [e1]
      have y : X + Q + R' / (4 * n - 1) = ((4 * n + 1) * X + R) / (4 * n - 1) := by
        field_simp
        linarith
      rw [y, mul_div_assoc', mul_div_assoc']
      have u : R / (4 * n + 3) * (4 * n + 3) = R := by field_simp
      have u0 : 0 ≤ R / (4 * n + 3) := div_nonneg hr0 d3.le
      have u1 : R / (4 * n + 3) ≤ 1 := by rw [div_le_one d3]; exact i3.le
      generalize R / (4 * n + 3) = v at *
      refine ⟨div_le_div_of_nonneg_right ?_ d1.le, ?_, hmod'⟩
      · nlinarith
      · rw [le_div_iff₀ d1, add_mul, div_mul_cancel₀ _ d1.ne']
        nlinarith
  obtain ⟨k1, k2, k3⟩ := key
  have hn : (0 : F) ≤ ((a - j : Nat) : F) := Nat.cast_nonneg _
  have d3 : 0 < 4 * ((a - j : Nat) : F) + 3 := by linarith
  have u0 : 0 ≤ ((rampDown a x j).2 : F) / (4 * ((a - j : Nat) : F) + 3) := div_nonneg (Nat.cast_nonneg _) d3.le
  have u1 : ((rampDown a x j).2 : F) / (4 * ((a - j : Nat) : F) + 3) < 1 := by rw [div_lt_one d3]; exact k3
  exact ⟨by linarith, by linarith⟩

end

/-! ### The registers when decelerating -/

theorem rampDown_rem (a x j : Nat) (hj : j ≤ a) : (rampDown a x j).2 ≤ 4 * a := by
  cases j with
  | zero => simp [rampDown]
  | succ j =>
    have := Nat.mod_lt (2 * (rampDown a x j).1 + (rampDown a x j).2) (show 0 < 4 * (a - j) - 1 by omega)
    simp only [rampDown]
    omega

theorem rampDown_ge (a x j : Nat) : x ≤ (rampDown a x j).1 := by
  induction j with
  | zero => simp [rampDown]
  | succ j ih => exact ih.trans (Nat.le_add_right _ _)

/-- The values of a deceleration phase fit the registers: it does not go on when the speed is zero, and the slowest loop
(a cycle count of about `(x + 1) * sqrt (2 * a + 1)`) takes less than 0.35 s. -/
structure DownFits (s : MotionSegment) : Prop where
  loops : s.loopsDecel ≤ s.accelSeriesIndex
  index : s.accelSeriesIndex < 2 ^ 28
  cycles : (s.hiresAccelCycles + 1) ^ 2 * (2 * s.accelSeriesIndex + 1) ≤ 2 ^ 60

theorem rampDown_le {a x : Nat} (h : (x + 1) ^ 2 * (2 * a + 1) ≤ 2 ^ 60) (j : Nat) (hj : j ≤ a) :
    (rampDown a x j).1 < 2 ^ 30 := by
  have h1 := (rampDown_ideal (F := Rat) (x := x) j hj).2
  have h2 := (idealDown_sq (F := Rat) (a := a) ((x : Rat) + 1) j hj).1
  have h3 : ((x : Rat) + 1) ^ 2 * (2 * (a : Rat) + 1) ≤ 2 ^ 60 := by exact_mod_cast h
  have h4 : (0 : Rat) ≤ ((a - j : Nat) : Rat) := Nat.cast_nonneg _
  have h5 : idealDown a ((x : Rat) + 1) j ^ 2 ≤ (2 ^ 30) ^ 2 := by
    have := sq_nonneg (idealDown a ((x : Rat) + 1) j)
    nlinarith
  have h6 : idealDown a ((x : Rat) + 1) j ≤ 2 ^ 30 := le_of_sq_le_sq h5 (by positivity)
  have h7 : ((rampDown a x j).1 : Rat) < 2 ^ 30 := by linarith
  exact_mod_cast h7
where
  le_of_sq_le_sq {x y : Rat} (h : x ^ 2 ≤ y ^ 2) (hy : 0 ≤ y) : x ≤ y := by
    by_contra hn
    have := not_le.1 hn
    nlinarith

/-- The state of the registers after `j` loops of a deceleration. -/
def downRegs (r : Regs) (j : Nat) : Regs :=
  { r with
    loopsDecel := r.loopsDecel - j
    index := r.index - j
    cycles := (rampDown r.index r.cycles j).1
    remainder := (rampDown r.index r.cycles j).2 }

theorem down_step (s : MotionSegment) (h1 : s.loopsAccel = 0) (h2 : s.loopsTravel = 0) (hw : DownFits s) (j : Nat)
    (hj : j < s.loopsDecel) :
    calculateDelay (downRegs (Regs.load s) j) = (downRegs (Regs.load s) (j + 1),
      sub32 ((rampDown s.accelSeriesIndex s.hiresAccelCycles (j + 1)).1 >>> delayCycleShift) 70) := by
  have hl := hw.loops
  have hi := hw.index
  have r1 := rampDown_rem s.accelSeriesIndex s.hiresAccelCycles j (by omega)
  have r2 := rampDown_le hw.cycles j (by omega)
  have r3 := rampDown_le hw.cycles (j + 1) (by omega)
  have hd : decelUpdate (downRegs (Regs.load s) j) = { downRegs (Regs.load s) j with
      cycles := (rampDown s.accelSeriesIndex s.hiresAccelCycles (j + 1)).1
      remainder := (rampDown s.accelSeriesIndex s.hiresAccelCycles (j + 1)).2 } := by
    unfold decelUpdate downRegs Regs.load
    dsimp only
    have e1 : reg (reg ((rampDown s.accelSeriesIndex s.hiresAccelCycles j).1 * 2) +
        (rampDown s.accelSeriesIndex s.hiresAccelCycles j).2) =
        2 * (rampDown s.accelSeriesIndex s.hiresAccelCycles j).1 + (rampDown s.accelSeriesIndex s.hiresAccelCycles j).2 := by
      unfold reg; omega
    have e2 : sub32 (reg ((s.accelSeriesIndex - j) * 4)) 1 = 4 * (s.accelSeriesIndex - j) - 1 := by
      unfold sub32 reg; omega
    rw [e1, e2, Idiv.C22_idiv_eq _ _ (by omega) (by omega) (by omega)]
    dsimp only
    have e3 : reg ((rampDown s.accelSeriesIndex s.hiresAccelCycles j).1 +
        (2 * (rampDown s.accelSeriesIndex s.hiresAccelCycles j).1 + (rampDown s.accelSeriesIndex s.hiresAccelCycles j).2) /
          (4 * (s.accelSeriesIndex - j) - 1)) = (rampDown s.accelSeriesIndex s.hiresAccelCycles (j + 1)).1 := by
      unfold reg
      exact Nat.mod_eq_of_lt (by
        show (rampDown s.accelSeriesIndex s.hiresAccelCycles (j + 1)).1 < 2 ^ 32
        omega)
    rw [e3]
    rfl
  unfold calculateDelay
  rw [hd]
  rw [if_neg (by show ¬ s.loopsAccel ≠ 0; omega), if_neg (by show ¬ s.loopsTravel ≠ 0; omega),
    if_pos (by show s.loopsDecel - j ≠ 0; omega)]
  unfold downRegs Regs.load
  dsimp only
  have e5 : sub32 (s.accelSeriesIndex - j) 1 = s.accelSeriesIndex - (j + 1) := by unfold sub32 reg; omega
  have e6 : s.loopsDecel - j - 1 = s.loopsDecel - (j + 1) := by omega
  rw [e5, e6]

/-- The delays of a deceleration phase. -/
theorem decel_delay (s : MotionSegment) (h1 : s.loopsAccel = 0) (h2 : s.loopsTravel = 0) (hw : DownFits s) (k : Nat)
    (hk : k < s.loopsDecel) : delayAfter (Regs.load s) k =
      sub32 ((rampDown s.accelSeriesIndex s.hiresAccelCycles (k + 1)).1 >>> delayCycleShift) 70 := by
  have key : ∀ k j, j + k < s.loopsDecel → delayAfter (downRegs (Regs.load s) j) k =
      sub32 ((rampDown s.accelSeriesIndex s.hiresAccelCycles (j + k + 1)).1 >>> delayCycleShift) 70 := by
    intro k
    induction k with
    | zero =>
      intro j hj
      show (calculateDelay (downRegs (Regs.load s) j)).2 = _
      rw [down_step s h1 h2 hw j (by omega)]
    | succ k ih =>
      intro j hj
      rw [delayAfter_add, down_step s h1 h2 hw j (by omega)]
      have := ih (j + 1) (by omega)
      rw [show j + 1 + k = j + (k + 1) by omega] at this
      exact this
  have := key k 0 (by omega)
  rw [show 0 + k + 1 = k + 1 by omega] at this
  exact this

end BeagleG.StepGen
