import Verif.Planner.ExactProps
import Mathlib.Analysis.SpecialFunctions.Trigonometric.Inverse
/-!
# The real numbers as an exact arithmetic

This shows that the assumptions of C31, C32 and C53 can be met.
-/
namespace BeagleG.Planner

open Real

/-- Rounding towards zero. -/
noncomputable def truncR (x : ℝ) : Int := if 0 ≤ x then ⌊x⌋ else ⌈x⌉

/-- The arithmetic of the real numbers. -/
noncomputable def realArith : Arith ℝ where
  ofInt := fun n => n
  add := (· + ·)
  sub := (· - ·)
  mul := (· * ·)
  div := (· / ·)
  abs := fun x => |x|
  sqrt := fun x => √x
  acos := arccos
  cos := cos
  lt := fun a b => decide (a < b)
  le := fun a b => decide (a ≤ b)
  eq := fun a b => decide (a = b)
  toInt := truncR
  toU32 := fun x => (truncR x).toNat
  lround := fun x => if 0 ≤ x then ⌊x + 1 / 2⌋ else ⌈x - 1 / 2⌉
  toFloat := fun x => x
  pi := π
  eps := 1 / 100000

theorem real_exact : Exact realArith where
  ofInt := fun _ => rfl
  add := fun _ _ => rfl
  sub := fun _ _ => rfl
  mul := fun _ _ => rfl
  div := fun _ _ => rfl
  abs := fun _ => rfl
  lt := fun _ _ => rfl
  le := fun _ _ => rfl
  eq := fun _ _ => rfl
  toFloat := fun _ => rfl
  sqrt_nonneg := fun a _ => Real.sqrt_nonneg a
  sqrt_sq := fun a h => Real.mul_self_sqrt h
  trunc := by
    intro a h
    show ((truncR a : Int) : ℝ) ≤ a ∧ a < ((truncR a : Int) : ℝ) + 1
    unfold truncR
    rw [if_pos h]
    exact ⟨Int.floor_le a, Int.lt_floor_add_one a⟩
  truncU := by
    intro a h
    show (((truncR a).toNat : Nat) : ℝ) ≤ a ∧ a < (((truncR a).toNat : Nat) : ℝ) + 1
    have h0 : 0 ≤ ⌊a⌋ := Int.floor_nonneg.2 h
    have e : (((truncR a).toNat : Nat) : ℝ) = ((⌊a⌋ : Int) : ℝ) := by
      unfold truncR
      rw [if_pos h]
      exact_mod_cast Int.toNat_of_nonneg h0
    rw [e]
    exact ⟨Int.floor_le a, Int.lt_floor_add_one a⟩
  near := by
    intro a
    show (((if 0 ≤ a then ⌊a + 1 / 2⌋ else ⌈a - 1 / 2⌉ : Int)) : ℝ) - 1 / 2 ≤ a ∧
      a ≤ (((if 0 ≤ a then ⌊a + 1 / 2⌋ else ⌈a - 1 / 2⌉ : Int)) : ℝ) + 1 / 2
    split
    · have h1 := Int.floor_le (a + 1 / 2)
      have h2 := Int.lt_floor_add_one (a + 1 / 2)
      constructor <;> linarith
    · have h1 := Int.le_ceil (a - 1 / 2)
      have h2 := Int.ceil_lt_add_one (a - 1 / 2)
      constructor <;> linarith

/-- The condition on the cosine holds if the tuning angle is not below -90 degrees, and together with the threshold at
most 90 degrees, as `main` demands. -/
theorem real_cosOk (cfg : Config ℝ) (h0 : -90 ≤ cfg.speedTuneAngle) (h1 : cfg.thresholdAngle + cfg.speedTuneAngle ≤ 90) :
    CosOk realArith cfg := by
  intro x hx0 hx1 hx2
  show 0 ≤ cos ((x + cfg.speedTuneAngle) * (π / ((180 : Int) : ℝ)))
  have hpi := pi_pos
  apply cos_nonneg_of_neg_pi_div_two_le_of_le
  · push_cast
    have : -90 * (π / 180) ≤ (x + cfg.speedTuneAngle) * (π / 180) :=
      mul_le_mul_of_nonneg_right (by linarith) (by positivity)
    linarith
  · push_cast
    have : (x + cfg.speedTuneAngle) * (π / 180) ≤ 90 * (π / 180) :=
      mul_le_mul_of_nonneg_right (by linarith) (by positivity)
    linarith

/-- C31, C32 and C53 over the reals, from the constructor on. -/
theorem C31_real {β : Type} (B : Backend ℝ β) (b : β) (cfg : Config ℝ) (hc : cfg.Positive)
    (h0 : -90 ≤ cfg.speedTuneAngle) (h1 : cfg.thresholdAngle + cfg.speedTuneAngle ≤ 90) (home : Axis → ℝ)
    (hh : ∀ a, SaneOp realArith cfg (.external a (home a))) (ops : List (Op ℝ))
    (hops : ∀ op ∈ ops, SaneOp realArith cfg op) (s0 s : State ℝ β)
    (hi : init realArith cfg B b home = some s0) (hr : run realArith cfg B s0 ops = some s)
    (op : Op ℝ) (hop : SaneOp realArith cfg op) (seg : Segment ℝ)
    (hseg : seg ∈ queueOf realArith cfg s op) :
    seg.planned.accel + seg.planned.travel + seg.planned.decel =
      (seg.target.deltaSteps seg.target.definingAxis).natAbs ∧
    0 ≤ seg.planned.v0 ∧ seg.planned.v0 ≤ seg.planned.v1 ∧ seg.planned.v1 ≤ seg.target.speed ∧
    ∀ a, seg.planned.v1 * (|(seg.target.deltaSteps a : ℝ)| /
      |(seg.target.deltaSteps seg.target.definingAxis : ℝ)|) ≤ cfg.maxFeedrate a * cfg.stepsPerMm a := by
  have hcos := real_cosOk cfg h0 h1
  have hinv := planInv_init (B := B) real_exact b home hh hc hcos hi
  refine ⟨C31_phases_partition real_exact hc hcos hinv ops hops hr op hop seg hseg, ?_⟩
  have h32 := (C32_speeds_partial real_exact hc hcos hinv ops hops hr op hop).1 seg hseg
  exact ⟨h32.1, h32.2.2.1, h32.2.2.2.2.1,
    fun a => (C53_axis_limits real_exact hc hcos hinv ops hops hr op hop seg hseg a).1⟩

/-- A configuration to which this applies. -/
noncomputable example : { cfg : Config ℝ // cfg.Positive ∧ -90 ≤ cfg.speedTuneAngle ∧
    cfg.thresholdAngle + cfg.speedTuneAngle ≤ 90 } :=
  ⟨{ stepsPerMm := fun a => if a = 0 then 100 else 0, maxFeedrate := fun _ => 200, acceleration := fun _ => 1000
     thresholdAngle := 10, speedTuneAngle := 60, synchronous := false, motorMap := fun _ _ => true },
    ⟨fun a => by dsimp only; split <;> norm_num, fun _ _ => by norm_num, fun _ _ => by norm_num⟩, by norm_num, by norm_num⟩

/-- The queue of a first move is not empty: the statements are not about nothing. -/
example (cfg : Config ℝ) (hspm : ∀ a, cfg.stepsPerMm a = 100) :
    queueOf realArith cfg
      { backend := (), buffer := [Segment.zero realArith], ready := 0, lookahead := 10, halted := true
        positionKnown := true } (.move (fun _ => 1) 10 0) ≠ [] := by
  have hpos : ∀ a, realArith.lround (realArith.mul 1 (cfg.stepsPerMm a)) = 100 := by
    intro a
    rw [hspm]
    show (if (0 : ℝ) ≤ 1 * 100 then ⌊(1 : ℝ) * 100 + 1 / 2⌋ else ⌈(1 : ℝ) * 100 - 1 / 2⌉) = 100
    rw [if_pos (by norm_num), Int.floor_eq_iff]
    norm_num
  simp only [queueOf, List.getLast?_singleton]
  rw [if_neg]
  · intro h
    have := updateMotionProfile_length realArith ([Segment.zero realArith] ++ [⟨newTarget realArith cfg
      (Segment.zero realArith).target (fun _ => 1) 10 0, Profile.zero realArith⟩]) 0
    rw [h] at this
    simp at this
  · intro h
    have h0 := definingAxis_zero _ h 0
    rw [newTarget_delta, hpos 0] at h0
    simp [Segment.zero, AxisTarget.zero] at h0

end BeagleG.Planner
