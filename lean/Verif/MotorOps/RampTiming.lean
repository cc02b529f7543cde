import Verif.MotorOps.Timing
import Verif.StepGen.RampProps
import Verif.Planner.Exact
import Mathlib.Tactic.NormNum
import Mathlib.Tactic.IntervalCases
/-!
# From speeds to series index and cycle count, and from there to the delays

In exact arithmetic. `16 * TIMER_FREQUENCY` divided by a cycle count is the speed in steps per second: a cycle count is 32
times a delay, and a step takes two delays.
-/
set_option linter.unusedSectionVars false

namespace BeagleG.MotorOps

open Planner (Arith Exact u32)
open StepGen (idealUp idealDown idealUp_sq idealDown_sq rampUp rampDown rampUp_ideal rampDown_ideal idealUp_pos)

variable {F : Type} [Field F] [LinearOrder F] [IsStrictOrderedRing F] {A : Arith F}

/-- `16 * TIMER_FREQUENCY`. -/
def G : F := 1600000000

theorem G_pos : (0 : F) < G := by unfold G; norm_num

section
variable (ex : Exact A)
include ex

theorem fadd_eq (a b : F) : fadd A a b = a + b := by rw [fadd, ex.toFloat, ex.add]
theorem fsub_eq (a b : F) : fsub A a b = a - b := by rw [fsub, ex.toFloat, ex.sub]
theorem fmul_eq (a b : F) : fmul A a b = a * b := by rw [fmul, ex.toFloat, ex.mul]
theorem fdiv_eq (a b : F) : fdiv A a b = a / b := by rw [fdiv, ex.toFloat, ex.div]
theorem fsqrt_eq (a : F) : fsqrt A a = A.sqrt a := by rw [fsqrt, ex.toFloat]
theorem fint_eq (n : Int) : fint A n = (n : F) := by rw [fint, ex.toFloat, ex.ofInt]
theorem sqf_eq (a : F) : sqf A a = a ^ 2 := by rw [sqf, fmul_eq ex]; ring

theorem rampAcceleration_eq (fast slow : F) (D : Nat) : rampAcceleration A fast slow D = (fast ^ 2 - slow ^ 2) / (2 * D) := by
  rw [rampAcceleration, fdiv_eq ex, fsub_eq ex, sqf_eq ex, sqf_eq ex, fmul_eq ex, fint_eq ex, fint_eq ex]
  push_cast
  rfl

theorem loopsFromZero_near {v acc : F} (ha : 0 < acc) :
    v ^ 2 - acc / 2 ≤ acc * (loopsFromZero A v acc : F) ∧ acc * (loopsFromZero A v acc : F) ≤ v ^ 2 + acc / 2 := by
  unfold loopsFromZero
  rw [fmul_eq ex, fdiv_eq ex, sqf_eq ex, fsub_eq ex, fmul_eq ex, fint_eq ex, fint_eq ex]
  have e : ((2 : Int) : F) * ((v - ((0 : Int) : F)) ^ 2 / (((2 : Int) : F) * acc)) = v ^ 2 / acc := by
    push_cast
    field_simp
    ring
  rw [e]
  obtain ⟨h1, h2⟩ := ex.near (v ^ 2 / acc)
  have e2 : v ^ 2 / acc * acc = v ^ 2 := by field_simp
  constructor <;> nlinarith

/-- The difference of two square roots. -/
theorem sqrt_step (i : Nat) : 0 ≤ A.sqrt ((i : F) + 1) - A.sqrt (i : F) ∧
    1 ≤ (A.sqrt ((i : F) + 1) - A.sqrt (i : F)) ^ 2 * (4 * i + 2) ∧
    (A.sqrt ((i : F) + 1) - A.sqrt (i : F)) ^ 2 * (4 * i + 1) ≤ 1 ∧
    (i = 0 → (A.sqrt ((i : F) + 1) - A.sqrt (i : F)) ^ 2 = 1) := by
  have hi : (0 : F) ≤ (i : F) := Nat.cast_nonneg i
  have a0 := ex.sqrt_nonneg ((i : F) + 1) (by linarith)
  have b0 := ex.sqrt_nonneg (i : F) hi
  have a2 := ex.sqrt_sq ((i : F) + 1) (by linarith)
  have b2 := ex.sqrt_sq (i : F) hi
  generalize A.sqrt ((i : F) + 1) = a at *
  generalize A.sqrt (i : F) = b at *
  have hab : b ≤ a := by
    by_contra h
    have := not_le.1 h
    nlinarith
  have hd : (a - b) * (a + b) = 1 := by nlinarith
  have h1 : (a - b) ^ 2 * (a + b) ^ 2 = 1 := by rw [← mul_pow, hd]; ring
  have h2 : (a + b) ^ 2 ≤ 4 * (i : F) + 2 := by nlinarith [sq_nonneg (a - b)]
  have h3 : 4 * (i : F) + 1 ≤ (a + b) ^ 2 := by nlinarith [mul_le_mul_of_nonneg_right hab b0]
  have h4 := sq_nonneg (a - b)
  refine ⟨by linarith, ?_, ?_, ?_⟩
  · exact h1.ge.trans (mul_le_mul_of_nonneg_left h2 h4)
  · exact (mul_le_mul_of_nonneg_left h3 h4).trans h1.le
  · rintro rfl
    have hb : b = 0 := by
      have : b * b = 0 := by simpa using b2
      simpa using this
    subst hb
    simp at a2
    rw [sub_zero, pow_two, a2]

end

/-- The correction of the first value. -/
def kappa : F := 67605 / 100000

/-- Series index `i` and cycle count `x` belong to speed `v` and acceleration `acc`; `y` is the cycle count before
rounding. -/
structure RampOk (v acc : F) (i x : Nat) (y : F) : Prop where
  pos : 0 < acc
  lo : v ^ 2 - acc / 2 ≤ acc * i
  hi : acc * i ≤ v ^ 2 + acc / 2
  y0 : 0 ≤ y
  near1 : (x : F) - 1 / 2 ≤ y
  near2 : y ≤ (x : F) + 1 / 2
  fast : 1 ≤ i → 2 * G ^ 2 ≤ y ^ 2 * acc * (2 * i + 1)
  slow : 1 ≤ i → y ^ 2 * acc * (4 * i + 1) ≤ 4 * G ^ 2
  first : i = 0 → y ^ 2 * acc = 4 * G ^ 2 * kappa ^ 2

/-- Not so slow that the registers overflow: at least 18 steps/s², and the number of loops to accelerate from zero has 28
bits. -/
structure Moderate (v acc : F) : Prop where
  least : 18 ≤ acc
  index : v ^ 2 ≤ (2 ^ 28 - 1) * acc

theorem y_le {acc y : F} {i : Nat} (slow : 1 ≤ i → y ^ 2 * acc * (4 * i + 1) ≤ 4 * G ^ 2)
    (first : i = 0 → y ^ 2 * acc = 4 * G ^ 2 * kappa ^ 2) : y ^ 2 * acc * (4 * i + 1) ≤ 4 * G ^ 2 := by
  by_cases hi : i = 0
  · have := first hi
    subst hi
    rw [Nat.cast_zero, this]
    have hg := G_pos (F := F)
    have : (kappa : F) ^ 2 ≤ 1 := by unfold kappa; norm_num
    nlinarith [sq_nonneg (G : F)]
  · exact slow (by omega)

theorem RampOk.y_le {v acc : F} {i x : Nat} {y : F} (h : RampOk v acc i x y) : y ^ 2 * acc * (4 * i + 1) ≤ 4 * G ^ 2 :=
  MotorOps.y_le h.slow h.first

theorem sq_le_sq' {x y : F} (h : x ^ 2 ≤ y ^ 2) (hy : 0 ≤ y) : x ≤ y := by
  by_contra hn
  have := not_le.1 hn
  nlinarith

/-- Cycle count before rounding: less than 2^30 - 1. -/
theorem y_small {acc y : F} {i : Nat} (h1 : y ^ 2 * acc * (4 * i + 1) ≤ 4 * G ^ 2) (hm : 18 ≤ acc) : y ≤ 800000000 := by
  have hi : (0 : F) ≤ (i : F) := Nat.cast_nonneg i
  have h2 : y ^ 2 * 18 ≤ 4 * G ^ 2 := by
    refine le_trans ?_ h1
    have := sq_nonneg y
    have h3 : y ^ 2 * 18 ≤ y ^ 2 * acc := mul_le_mul_of_nonneg_left hm this
    have h4 : 0 ≤ y ^ 2 * acc := mul_nonneg this (by linarith)
    nlinarith
  refine sq_le_sq' ?_ (by norm_num)
  unfold G at h2
  norm_num at h2 ⊢
  linarith

theorem curve_eq (ex : Exact A) {acc : F} (ha : 0 < acc) (i : Nat) :
    ∃ y, fmul A (fint A 32) (curveValueAt A (i : Int) acc) = y ∧ 0 ≤ y ∧
      (1 ≤ i → 2 * G ^ 2 ≤ y ^ 2 * acc * (2 * i + 1)) ∧ (1 ≤ i → y ^ 2 * acc * (4 * i + 1) ≤ 4 * G ^ 2) ∧
      (i = 0 → y ^ 2 * acc = 4 * G ^ 2 * kappa ^ 2) := by
  obtain ⟨d0, d1, d2, d3⟩ := sqrt_step ex i
  have hp : (0 : F) ≤ 4 / acc := by positivity
  have s0 := ex.sqrt_nonneg (4 / acc) hp
  have s2 := ex.sqrt_sq (4 / acc) hp
  have e1 : fmul A (fint A 2) (fint A 2) = 4 := by
    rw [fmul_eq ex, fint_eq ex]; push_cast; norm_num
  have e2 : fsqrt A (fint A ((i : Int) + 1)) = A.sqrt ((i : F) + 1) := by
    rw [fsqrt_eq ex, fint_eq ex]; push_cast; rfl
  have e3 : fsqrt A (fint A (i : Int)) = A.sqrt (i : F) := by
    rw [fsqrt_eq ex, fint_eq ex]; push_cast; rfl
  have e4 : firstStep A = kappa := by
    rw [firstStep, ex.toFloat, ex.div, ex.ofInt, ex.ofInt, kappa]; push_cast; rfl
  have sa : A.sqrt (4 / acc) ^ 2 * acc = 4 := by
    rw [pow_two, s2]; field_simp
  refine ⟨_, rfl, ?_⟩
  unfold curveValueAt
  dsimp only
  rw [e1, e2, e3, e4, fdiv_eq ex, fsqrt_eq ex, ex.toFloat, ex.div, ex.mul, timerFrequency, ex.ofInt, ex.ofInt]
  simp only [fmul_eq ex, fsub_eq ex, fint_eq ex]
  generalize A.sqrt ((i : F) + 1) - A.sqrt (i : F) = d at *
  generalize A.sqrt (4 / acc) = s at *
  push_cast
  by_cases hi : i = 0
  · subst hi
    rw [if_pos (by norm_num)]
    refine ⟨?_, by omega, by omega, fun _ => ?_⟩
    · have : (0 : F) ≤ kappa := by unfold kappa; norm_num
      positivity
    · have hd1 := d3 rfl
      calc _ = s ^ 2 * acc * d ^ 2 * (1600000000 ^ 2 * kappa ^ 2) := by ring
        _ = _ := by rw [sa, hd1]; unfold G; ring
  · rw [if_neg (by exact_mod_cast hi)]
    have e5 : (32 * (100000000 * s / 2 * d)) ^ 2 * acc = s ^ 2 * acc * (1600000000 ^ 2) * d ^ 2 := by ring
    refine ⟨by positivity, fun _ => ?_, fun _ => ?_, fun h => absurd h hi⟩
    · rw [e5, sa]
      unfold G
      nlinarith
    · rw [e5, sa]
      unfold G
      nlinarith

theorem u32_of_nonneg {n : Int} (h : 0 ≤ n) (h2 : n < 2 ^ 32) : ((u32 n : Nat) : Int) = n := by
  unfold u32
  omega

/-- **What the host computes**: index and cycle count belong to the speed and the acceleration, and fit the registers. -/
theorem rampTiming_ok (ex : Exact A) (phase : Phase) {v acc : F} (hm : Moderate v acc) :
    ∃ y, RampOk v acc (rampTiming A phase v acc).index (rampTiming A phase v acc).cycles y ∧
      (rampTiming A phase v acc).index < 2 ^ 28 ∧ (rampTiming A phase v acc).cycles ≤ 800000000 := by
  have ha : 0 < acc := by have := hm.least; linarith
  obtain ⟨n1, n2⟩ := loopsFromZero_near ex (v := v) ha
  have hv := hm.index
  have g0 : 0 ≤ loopsFromZero A v acc := by
    have h1 : ((-1 : Int) : F) < (loopsFromZero A v acc : F) := by
      push_cast
      by_contra h
      have := not_lt.1 h
      nlinarith [sq_nonneg v]
    have := Int.cast_lt.1 h1
    omega
  have g1 : loopsFromZero A v acc < 2 ^ 28 := by
    have h1 : (loopsFromZero A v acc : F) < ((2 ^ 28 : Int) : F) := by
      push_cast
      by_contra h
      have := not_lt.1 h
      nlinarith
    have := Int.cast_lt.1 h1
    omega
  have e := u32_of_nonneg g0 (by omega)
  have e' : ((u32 (loopsFromZero A v acc) : Nat) : F) = (loopsFromZero A v acc : F) := by
    rw [← Int.cast_natCast, e]
  obtain ⟨y, hy, y0, c1, c2, c3⟩ := curve_eq ex ha (u32 (loopsFromZero A v acc))
  obtain ⟨m1, m2⟩ := ex.near y
  have hidx : (rampTiming A phase v acc).index = u32 (loopsFromZero A v acc) := rfl
  have hcyc : (rampTiming A phase v acc).cycles = u32 (A.lround y) := by
    show u32 (A.lround (fmul A (fint A 32) (curveValueAt A _ acc))) = _
    rw [hy]
  rw [hidx, hcyc]
  have r0 : 0 ≤ A.lround y := by
    have h1 : ((-1 : Int) : F) < (A.lround y : F) := by push_cast; linarith
    have := Int.cast_lt.1 h1
    omega
  have ys : y ≤ 800000000 := y_small (y_le c2 c3) hm.least
  have r1 : A.lround y ≤ 800000000 := by
    have h1 : (A.lround y : F) < ((800000001 : Int) : F) := by push_cast; linarith
    have := Int.cast_lt.1 h1
    omega
  have f := u32_of_nonneg r0 (by omega)
  have f' : ((u32 (A.lround y) : Nat) : F) = (A.lround y : F) := by
    rw [← Int.cast_natCast, f]
  refine ⟨y, ⟨ha, ?_, ?_, y0, ?_, ?_, c1, c2, c3⟩, by omega, by omega⟩
  · rw [e']; exact n1
  · rw [e']; exact n2
  · rw [f']; exact m1
  · rw [f']; exact m2

/-! ### Acceleration -/

theorem idealUp_linear (a : Nat) (x : F) (j : Nat) : idealUp a x j = x * idealUp a 1 j := by
  induction j with
  | zero => simp [idealUp]
  | succ j ih => simp only [idealUp]; rw [ih]; ring

theorem idealDown_linear (a : Nat) (x : F) (j : Nat) : idealDown a x j = x * idealDown a 1 j := by
  induction j with
  | zero => simp [idealDown]
  | succ j ih => simp only [idealDown]; rw [ih]; ring

theorem idealUp_add (a : Nat) (x : F) (j m : Nat) : idealUp a x (j + m) = idealUp (a + j) (idealUp a x j) m := by
  induction m with
  | zero => rfl
  | succ m ih =>
    rw [← Nat.add_assoc]
    simp only [idealUp]
    rw [ih, Nat.add_assoc]

theorem idealUp_le_one {a : Nat} (ha : 1 ≤ a) (j : Nat) : (idealUp a 1 j : F) ≤ 1 := by
  induction j with
  | zero => simp [idealUp]
  | succ j ih =>
    have hn : (1 : F) ≤ ((a + j : Nat) : F) := by exact_mod_cast (by omega : 1 ≤ a + j)
    have h0 := idealUp_pos (F := F) ha zero_le_one j
    simp only [idealUp]
    refine (mul_le_of_le_one_right h0 ?_).trans ih
    rw [div_le_one (by linarith)]
    linarith

variable {v acc y : F} {i x : Nat}

/-- Cycle counts of an acceleration against the exact product. -/
theorem RampOk.up (h : RampOk v acc i x y) {a : Nat} (ha : 1 ≤ a) (j : Nat) :
    y * idealUp a 1 j ≤ ((rampUp a x j).1 : F) + 1 / 2 ∧ ((rampUp a x j).1 : F) - 5 / 2 ≤ y * idealUp a 1 j ∧
      (0 : F) ≤ idealUp a 1 j := by
  obtain ⟨h1, h2⟩ := rampUp_ideal (F := F) (x := x) ha j
  rw [idealUp_linear] at h1 h2
  have p0 := idealUp_pos (F := F) ha zero_le_one j
  have p1 := idealUp_le_one (F := F) ha j
  have := h.near1
  have := h.near2
  refine ⟨?_, ?_, p0⟩
  · nlinarith
  · nlinarith

/-- Speed limit of loop `k` of an acceleration with index at least 1. -/
theorem RampOk.accel_fast (h : RampOk v acc i x y) (hi : 1 ≤ i) (k : Nat) :
    G ^ 2 * (2 * (i : F) - 1) ≤
      (v ^ 2 + ((k : F) + 1) * acc) * (2 * (i : F) + 1) * (((rampUp i x (k + 1)).1 : F) + 1 / 2) ^ 2 := by
  obtain ⟨h1, -, p0⟩ := h.up hi (k + 1)
  obtain ⟨q, -⟩ := idealUp_sq (F := F) hi 1 (k + 1)
  have e : (((i + (k + 1) : Nat)) : F) = (i : F) + (k : F) + 1 := by push_cast; ring
  rw [e] at q
  have hy := h.y0
  have ha := h.pos
  have hl := h.hi
  have hf := h.fast hi
  have hi' : (1 : F) ≤ (i : F) := by exact_mod_cast hi
  have hk : (0 : F) ≤ (k : F) := Nat.cast_nonneg k
  generalize idealUp i (1 : F) (k + 1) = p at *
  generalize ((rampUp i x (k + 1)).1 : F) = X at *
  have s1 : y ^ 2 * p ^ 2 ≤ (X + 1 / 2) ^ 2 := by
    rw [← mul_pow]
    exact pow_le_pow_left₀ (mul_nonneg hy p0) h1 2
  have s2 : acc * (2 * ((i : F) + k + 1) - 1) / 2 ≤ v ^ 2 + ((k : F) + 1) * acc := by linarith
  have s3 : 0 ≤ v ^ 2 + ((k : F) + 1) * acc := by positivity
  calc G ^ 2 * (2 * (i : F) - 1) ≤ y ^ 2 * acc * (2 * i + 1) / 2 * (1 ^ 2 * (2 * (i : F) - 1)) := by nlinarith
    _ ≤ y ^ 2 * acc * (2 * i + 1) / 2 * (p ^ 2 * (2 * ((i : F) + k + 1) - 1)) := by
      refine mul_le_mul_of_nonneg_left q ?_
      positivity
    _ = acc * (2 * ((i : F) + k + 1) - 1) / 2 * ((2 * i + 1) * (y ^ 2 * p ^ 2)) := by ring
    _ ≤ (v ^ 2 + ((k : F) + 1) * acc) * ((2 * i + 1) * (y ^ 2 * p ^ 2)) := by
      refine mul_le_mul_of_nonneg_right s2 ?_
      positivity
    _ ≤ (v ^ 2 + ((k : F) + 1) * acc) * ((2 * i + 1) * (X + 1 / 2) ^ 2) := by
      refine mul_le_mul_of_nonneg_left (mul_le_mul_of_nonneg_left s1 (by positivity)) s3
    _ = _ := by ring

/-- Loop `k` of an acceleration with index at least 1 is not slower either, but noticeably faster for a small index. -/
theorem RampOk.accel_slow (h : RampOk v acc i x y) (hi : 1 ≤ i) (k : Nat) (hX : 3 ≤ (rampUp i x (k + 1)).1) :
    (v ^ 2 + ((k : F) + 1 / 4) * acc) * (4 * (i : F) + 1) * (((rampUp i x (k + 1)).1 : F) - 5 / 2) ^ 2 ≤
      G ^ 2 * (4 * (i : F) - 1) := by
  obtain ⟨-, h1, p0⟩ := h.up hi (k + 1)
  obtain ⟨-, q⟩ := idealUp_sq (F := F) hi 1 (k + 1)
  have e : (((i + (k + 1) : Nat)) : F) = (i : F) + (k : F) + 1 := by push_cast; ring
  rw [e] at q
  have hX' : (3 : F) ≤ ((rampUp i x (k + 1)).1 : F) := by exact_mod_cast hX
  have hy := h.y0
  have ha := h.pos
  have hl := h.lo
  have hf := h.slow hi
  have hi' : (1 : F) ≤ (i : F) := by exact_mod_cast hi
  have hk : (0 : F) ≤ (k : F) := Nat.cast_nonneg k
  generalize idealUp i (1 : F) (k + 1) = p at *
  generalize ((rampUp i x (k + 1)).1 : F) = X at *
  have s1 : (X - 5 / 2) ^ 2 ≤ y ^ 2 * p ^ 2 := by
    rw [← mul_pow]
    exact pow_le_pow_left₀ (by linarith) h1 2
  have s2 : v ^ 2 + ((k : F) + 1 / 4) * acc ≤ acc * (4 * ((i : F) + k + 1) - 1) / 4 := by linarith
  have s3 : 0 ≤ v ^ 2 + ((k : F) + 1 / 4) * acc := by positivity
  have s4 : 0 ≤ y ^ 2 * acc := by positivity
  have s5 : (v ^ 2 + ((k : F) + 1 / 4) * acc) * (X - 5 / 2) ^ 2 ≤ y ^ 2 * acc / 4 * (4 * (i : F) - 1) := by
    calc _ ≤ (v ^ 2 + ((k : F) + 1 / 4) * acc) * (y ^ 2 * p ^ 2) := mul_le_mul_of_nonneg_left s1 s3
      _ ≤ acc * (4 * ((i : F) + k + 1) - 1) / 4 * (y ^ 2 * p ^ 2) := mul_le_mul_of_nonneg_right s2 (by positivity)
      _ = y ^ 2 * acc / 4 * (p ^ 2 * (4 * ((i : F) + k + 1) - 1)) := by ring
      _ ≤ y ^ 2 * acc / 4 * (1 ^ 2 * (4 * (i : F) - 1)) := mul_le_mul_of_nonneg_left q (by positivity)
      _ = _ := by ring
  calc _ = (v ^ 2 + ((k : F) + 1 / 4) * acc) * (X - 5 / 2) ^ 2 * (4 * (i : F) + 1) := by ring
    _ ≤ y ^ 2 * acc / 4 * (4 * (i : F) - 1) * (4 * (i : F) + 1) := mul_le_mul_of_nonneg_right s5 (by linarith)
    _ = y ^ 2 * acc * (4 * (i : F) + 1) * ((4 * (i : F) - 1) / 4) := by ring
    _ ≤ 4 * G ^ 2 * ((4 * (i : F) - 1) / 4) := mul_le_mul_of_nonneg_right hf (by linarith)
    _ = _ := by ring

theorem first_fast (k : Nat) : (1 : F) ≤ idealUp 1 1 k ^ 2 * (k + 1) * (4 * kappa ^ 2) := by
  by_cases hk : k < 12
  · interval_cases k <;> simp only [idealUp, kappa] <;> norm_num
  · obtain ⟨m, rfl⟩ := Nat.exists_eq_add_of_le (Nat.le_of_not_lt hk)
    obtain ⟨q, -⟩ := idealUp_sq (F := F) (show 1 ≤ 13 by omega) (idealUp 1 1 12) m
    rw [idealUp_add, show 1 + 12 = 13 from rfl]
    have e : (((13 + m : Nat)) : F) = (m : F) + 13 := by push_cast; ring
    rw [e] at q
    have c : (1 : F) ≤ idealUp 1 1 12 ^ 2 * (2 * ((13 : Nat) : F) - 1) * (2 * kappa ^ 2) := by
      simp only [idealUp, kappa]; norm_num
    have hm : (0 : F) ≤ (m : F) := Nat.cast_nonneg m
    generalize idealUp (F := F) 13 (idealUp 1 1 12) m = p at *
    generalize idealUp (F := F) 1 1 12 ^ 2 * (2 * ((13 : Nat) : F) - 1) = r at *
    have hp := sq_nonneg p
    have hk2 : (0 : F) ≤ kappa ^ 2 := sq_nonneg _
    push_cast
    calc (1 : F) ≤ r * (2 * kappa ^ 2) := c
      _ ≤ p ^ 2 * (2 * ((m : F) + 13) - 1) * (2 * kappa ^ 2) := mul_le_mul_of_nonneg_right q (by positivity)
      _ ≤ p ^ 2 * (2 * ((m : F) + 13)) * (2 * kappa ^ 2) := by
        refine mul_le_mul_of_nonneg_right (mul_le_mul_of_nonneg_left ?_ hp) (by positivity)
        linarith
      _ = _ := by ring

theorem first_slow (k : Nat) : idealUp 1 1 k ^ 2 * ((k : F) + 1 / 2) * (4 * kappa ^ 2) * (98 / 100) ≤ 1 := by
  by_cases hk : k < 16
  · interval_cases k <;> simp only [idealUp, kappa] <;> norm_num
  · obtain ⟨m, rfl⟩ := Nat.exists_eq_add_of_le (Nat.le_of_not_lt hk)
    obtain ⟨-, q⟩ := idealUp_sq (F := F) (show 1 ≤ 17 by omega) (idealUp 1 1 16) m
    rw [idealUp_add, show 1 + 16 = 17 from rfl]
    have e : (((17 + m : Nat)) : F) = (m : F) + 17 := by push_cast; ring
    rw [e] at q
    have c : idealUp 1 1 16 ^ 2 * (4 * ((17 : Nat) : F) - 1) * kappa ^ 2 * (98 / 100) ≤ 1 := by
      simp only [idealUp, kappa]; norm_num
    have hm : (0 : F) ≤ (m : F) := Nat.cast_nonneg m
    generalize idealUp (F := F) 17 (idealUp 1 1 16) m = p at *
    generalize idealUp (F := F) 1 1 16 ^ 2 * (4 * ((17 : Nat) : F) - 1) = r at *
    have hp := sq_nonneg p
    have hk2 : (0 : F) ≤ kappa ^ 2 := sq_nonneg _
    push_cast
    calc _ = p ^ 2 * (4 * ((m : F) + 16) + 2) * (kappa ^ 2 * (98 / 100)) := by ring
      _ ≤ p ^ 2 * (4 * ((m : F) + 17) - 1) * (kappa ^ 2 * (98 / 100)) := by
        refine mul_le_mul_of_nonneg_right (mul_le_mul_of_nonneg_left ?_ hp) (by positivity)
        linarith
      _ ≤ r * (kappa ^ 2 * (98 / 100)) := mul_le_mul_of_nonneg_right q (by positivity)
      _ ≤ 1 := by linarith

/-- Speed limit of loop `k` of an acceleration from (nearly) zero. -/
theorem RampOk.first_fast (h : RampOk v acc i x y) (hi : i = 0) (k : Nat) :
    G ^ 2 ≤ (((k : F) + 1) * acc) * (((rampUp 1 x k).1 : F) + 1 / 2) ^ 2 := by
  obtain ⟨h1, -, p0⟩ := h.up (le_refl 1) k
  have q := MotorOps.first_fast (F := F) k
  have hy := h.y0
  have ha := h.pos
  have hf := h.first hi
  have hk : (0 : F) ≤ (k : F) := Nat.cast_nonneg k
  generalize idealUp 1 (1 : F) k = p at *
  generalize ((rampUp 1 x k).1 : F) = X at *
  have s1 : y ^ 2 * p ^ 2 ≤ (X + 1 / 2) ^ 2 := by
    rw [← mul_pow]
    exact pow_le_pow_left₀ (mul_nonneg hy p0) h1 2
  calc G ^ 2 = G ^ 2 * 1 := (mul_one _).symm
    _ ≤ G ^ 2 * (p ^ 2 * (k + 1) * (4 * kappa ^ 2)) := mul_le_mul_of_nonneg_left q (sq_nonneg _)
    _ = (y ^ 2 * acc) * (p ^ 2 * (k + 1)) := by rw [hf]; ring
    _ = (((k : F) + 1) * acc) * (y ^ 2 * p ^ 2) := by ring
    _ ≤ _ := mul_le_mul_of_nonneg_left s1 (by positivity)

theorem RampOk.first_slow (h : RampOk v acc i x y) (hi : i = 0) (k : Nat) (hX : 3 ≤ (rampUp 1 x k).1) :
    98 / 100 * (v ^ 2 + (k : F) * acc) * (((rampUp 1 x k).1 : F) - 5 / 2) ^ 2 ≤ G ^ 2 := by
  obtain ⟨-, h1, p0⟩ := h.up (le_refl 1) k
  have q := MotorOps.first_slow (F := F) k
  have hX' : (3 : F) ≤ ((rampUp 1 x k).1 : F) := by exact_mod_cast hX
  have hy := h.y0
  have ha := h.pos
  have hf := h.first hi
  have hl := h.lo
  rw [hi, Nat.cast_zero, mul_zero] at hl
  have hk : (0 : F) ≤ (k : F) := Nat.cast_nonneg k
  generalize idealUp 1 (1 : F) k = p at *
  generalize ((rampUp 1 x k).1 : F) = X at *
  have s1 : (X - 5 / 2) ^ 2 ≤ y ^ 2 * p ^ 2 := by
    rw [← mul_pow]
    exact pow_le_pow_left₀ (by linarith) h1 2
  have s2 : v ^ 2 + (k : F) * acc ≤ ((k : F) + 1 / 2) * acc := by linarith
  calc _ ≤ 98 / 100 * (v ^ 2 + (k : F) * acc) * (y ^ 2 * p ^ 2) := mul_le_mul_of_nonneg_left s1 (by positivity)
    _ ≤ 98 / 100 * (((k : F) + 1 / 2) * acc) * (y ^ 2 * p ^ 2) := by
      refine mul_le_mul_of_nonneg_right (mul_le_mul_of_nonneg_left s2 (by norm_num)) (by positivity)
    _ = (y ^ 2 * acc) * (p ^ 2 * (k + 1 / 2) * (98 / 100)) := by ring
    _ = G ^ 2 * (p ^ 2 * ((k : F) + 1 / 2) * (4 * kappa ^ 2) * (98 / 100)) := by rw [hf]; ring
    _ ≤ G ^ 2 * 1 := mul_le_mul_of_nonneg_left q (sq_nonneg _)
    _ = G ^ 2 := mul_one _

/-! ### Deceleration -/

theorem idealDown_pos {a : Nat} (j : Nat) (hj : j ≤ a) : (0 : F) ≤ idealDown a 1 j := by
  induction j with
  | zero => simp [idealDown]
  | succ j ih =>
    have hn : (1 : F) ≤ ((a - j : Nat) : F) := by exact_mod_cast (by omega : 1 ≤ a - j)
    refine mul_nonneg (ih (by omega)) (div_nonneg ?_ ?_) <;> linarith

/-- Speed limit of loop `k` of a deceleration. -/
theorem RampOk.decel_fast (h : RampOk v acc i x y) (k : Nat) (hk : k + 1 ≤ i) :
    G ^ 2 * (2 * (x : F)) ^ 2 ≤
      (v ^ 2 - ((k : F) - 1 / 4) * acc) * ((2 * (x : F) + 1) * (((rampDown i x (k + 1)).1 : F) + 1)) ^ 2 := by
  obtain ⟨h1, -⟩ := rampDown_ideal (F := F) (x := x) (k + 1) hk
  rw [idealDown_linear] at h1
  obtain ⟨-, q⟩ := idealDown_sq (F := F) 1 (k + 1) hk
  have p0 := idealDown_pos (F := F) (k + 1) hk
  have e : ((i - (k + 1) : Nat) : F) = (i : F) - k - 1 := by rw [Nat.cast_sub hk]; push_cast; ring
  have d0 : (0 : F) ≤ ((i - (k + 1) : Nat) : F) := Nat.cast_nonneg _
  rw [e] at q d0
  have hy := h.y0
  have ha := h.pos
  have hl := h.hi
  have hf := h.fast (by omega)
  have hn := h.near2
  have hx : (0 : F) ≤ (x : F) := Nat.cast_nonneg x
  generalize idealDown i (1 : F) (k + 1) = p at *
  generalize ((rampDown i x (k + 1)).1 : F) = X at *
  generalize (x : F) = x' at *
  have s1 : (2 * y * (x' * p)) ^ 2 ≤ ((2 * x' + 1) * (X + 1)) ^ 2 := by
    refine pow_le_pow_left₀ (by positivity) (mul_le_mul (by linarith) h1.le (by positivity) (by linarith)) 2
  have s2 : acc * (4 * ((i : F) - k - 1) + 3) / 4 ≤ v ^ 2 - ((k : F) - 1 / 4) * acc := by linarith
  have s3 : 0 ≤ v ^ 2 - ((k : F) - 1 / 4) * acc := le_trans (by positivity) s2
  have s4 : 0 ≤ y ^ 2 * acc := by positivity
  calc G ^ 2 * (2 * x') ^ 2 ≤ y ^ 2 * acc * (4 * i + 3) / 4 * (2 * x') ^ 2 :=
      mul_le_mul_of_nonneg_right (by linarith) (sq_nonneg _)
    _ = y ^ 2 * acc / 4 * (2 * x') ^ 2 * (1 ^ 2 * (4 * i + 3)) := by ring
    _ ≤ y ^ 2 * acc / 4 * (2 * x') ^ 2 * (p ^ 2 * (4 * ((i : F) - k - 1) + 3)) :=
      mul_le_mul_of_nonneg_left q (by positivity)
    _ = acc * (4 * ((i : F) - k - 1) + 3) / 4 * (2 * y * (x' * p)) ^ 2 := by ring
    _ ≤ (v ^ 2 - ((k : F) - 1 / 4) * acc) * (2 * y * (x' * p)) ^ 2 := mul_le_mul_of_nonneg_right s2 (sq_nonneg _)
    _ ≤ _ := mul_le_mul_of_nonneg_left s1 s3

theorem RampOk.decel_slow (h : RampOk v acc i x y) (k : Nat) (hk : k + 1 ≤ i) (hx : 1 ≤ x)
    (hv : 0 ≤ v ^ 2 - ((k : F) + 1) * acc) :
    (v ^ 2 - ((k : F) + 1) * acc) * (4 * i + 1) * ((2 * (x : F) - 1) * (((rampDown i x (k + 1)).1 : F) + 1)) ^ 2 ≤
      G ^ 2 * (4 * i + 2) * (2 * ((x : F) + 1)) ^ 2 := by
  obtain ⟨-, h1⟩ := rampDown_ideal (F := F) (x := x) (k + 1) hk
  rw [idealDown_linear] at h1
  obtain ⟨q, -⟩ := idealDown_sq (F := F) 1 (k + 1) hk
  have p0 := idealDown_pos (F := F) (k + 1) hk
  have e : ((i - (k + 1) : Nat) : F) = (i : F) - k - 1 := by rw [Nat.cast_sub hk]; push_cast; ring
  rw [e] at q
  have hy := h.y0
  have ha := h.pos
  have hl := h.lo
  have hf := h.slow (by omega)
  have hn := h.near1
  have hx : (1 : F) ≤ (x : F) := by exact_mod_cast hx
  have hX : (0 : F) ≤ ((rampDown i x (k + 1)).1 : F) := Nat.cast_nonneg _
  have hi : (0 : F) ≤ (i : F) := Nat.cast_nonneg _
  generalize idealDown i (1 : F) (k + 1) = p at *
  generalize ((rampDown i x (k + 1)).1 : F) = X at *
  generalize (x : F) = x' at *
  have s1 : ((2 * x' - 1) * (X + 1)) ^ 2 ≤ (2 * y * ((x' + 1) * p)) ^ 2 := by
    refine pow_le_pow_left₀ (mul_nonneg (by linarith) (by linarith))
      (mul_le_mul (by linarith) h1 (by linarith) (by linarith)) 2
  have s2 : v ^ 2 - ((k : F) + 1) * acc ≤ acc * (2 * ((i : F) - k - 1) + 1) / 2 := by linarith
  have s4 : 0 ≤ y ^ 2 * acc := by positivity
  calc _ ≤ (v ^ 2 - ((k : F) + 1) * acc) * (4 * i + 1) * (2 * y * ((x' + 1) * p)) ^ 2 :=
      mul_le_mul_of_nonneg_left s1 (mul_nonneg hv (by linarith))
    _ ≤ (acc * (2 * ((i : F) - k - 1) + 1) / 2) * (4 * i + 1) * (2 * y * ((x' + 1) * p)) ^ 2 := by
      refine mul_le_mul_of_nonneg_right (mul_le_mul_of_nonneg_right s2 (by linarith)) (sq_nonneg _)
    _ = y ^ 2 * acc * (4 * i + 1) / 2 * (2 * (x' + 1)) ^ 2 * (p ^ 2 * (2 * ((i : F) - k - 1) + 1)) := by ring
    _ ≤ y ^ 2 * acc * (4 * i + 1) / 2 * (2 * (x' + 1)) ^ 2 * (1 ^ 2 * (2 * i + 1)) := by
      refine mul_le_mul_of_nonneg_left q (mul_nonneg ?_ (sq_nonneg _))
      have : 0 ≤ y ^ 2 * acc * (4 * i + 1) := mul_nonneg s4 (by linarith)
      linarith
    _ = y ^ 2 * acc * (4 * i + 1) * ((2 * i + 1) / 2 * (2 * (x' + 1)) ^ 2) := by ring
    _ ≤ 4 * G ^ 2 * ((2 * i + 1) / 2 * (2 * (x' + 1)) ^ 2) := by
      refine mul_le_mul_of_nonneg_right hf (mul_nonneg (by linarith) (sq_nonneg _))
    _ = _ := by ring

end BeagleG.MotorOps
