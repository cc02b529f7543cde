import Verif.Parser.Model
import Mathlib.Analysis.SpecialFunctions.Complex.Arg
import Mathlib.Analysis.SpecialFunctions.Trigonometric.Bounds
import Mathlib.Data.List.Range
import Mathlib.Data.List.Chain
import Mathlib.Tactic.Ring
import Mathlib.Tactic.Linarith
import Mathlib.Tactic.FieldSimp
import Mathlib.Tactic.Positivity
/-!
# C65: the geometry of arcs, over the real numbers

The points computed by `arcGen` and `arcRadiusToCenter` (`Parser/Model.lean`, arc-gen.cc 46-151, gcode-parser.cc
1483-1513), compared with helices described by a rotation about the normal axis by the right-hand rule. The rounding of
floating point is not considered here; a radius of 0 is left out (the code divides by it).
-/
namespace BeagleG.Parser

open Real (pi cos sin sqrt)

/-- The arithmetic used for arcs is that of the real numbers. -/
structure RealNum (fl : Num ℝ) : Prop where
  zero : fl.zero = 0
  one : fl.one = 1
  lt : ∀ a b, fl.lt a b = decide (a < b)
  eq : ∀ a b, fl.eq a b = decide (a = b)
  add : ∀ a b, fl.add a b = a + b
  sub : ∀ a b, fl.sub a b = a - b
  mul : ∀ a b, fl.mul a b = a * b
  div : ∀ a b, fl.div a b = a / b
  neg : ∀ a, fl.neg a = -a
  abs : ∀ a, fl.abs a = |a|
  sqrt : ∀ a, fl.sqrt a = sqrt a
  floor : ∀ a, fl.floor a = (⌊a⌋ : ℝ)
  toInt : ∀ n : Int, fl.toInt (n : ℝ) = n
  ofInt : ∀ n : Int, fl.ofInt n = (n : ℝ)
  tenth : ∀ n : Int, fl.tenth n = (n : ℝ) / 10
  hundredth : fl.hundredth = 1 / 100
  hypot : ∀ a b, fl.hypot a b = Real.sqrt (a ^ 2 + b ^ 2)
  atan2 : ∀ y x, fl.atan2 y x = Complex.arg ⟨x, y⟩
  cos : ∀ a, fl.cos a = cos a
  sin : ∀ a, fl.sin a = sin a
  asin : ∀ a, fl.asin a = Real.arcsin a
  twoPi : fl.twoPi = 2 * pi
  halfPi : fl.halfPi = pi / 2
  onePlus : fl.onePlus = 1 + 1 / 1000000
  oneMinus : fl.oneMinus = 1 - 1 / 1000000
  tiny : fl.tiny = 1 / 100000

/-! ### What an arc is -/

/-- The vector product of the unit vector along `normal` with `v`, right-handed. -/
def perp (normal : Axis) (v : Axes ℝ) : Axes ℝ := fun a =>
  match normal, a with
  | .Z, .X => -v .Y
  | .Z, .Y => v .X
  | .X, .Y => -v .Z
  | .X, .Z => v .Y
  | .Y, .Z => -v .X
  | .Y, .X => v .Z
  | _, _ => 0

/-- `v` turned about the axis `normal`, counter-clockwise as seen from its positive end. -/
noncomputable def rotate (normal : Axis) (φ : ℝ) (v : Axes ℝ) : Axes ℝ := fun a =>
  if a = normal then v a else cos φ * v a + sin φ * perp normal v a

/-- The point of a helix about `center`: turned by `φ`, and the fraction `s` of the way in the other axes. -/
noncomputable def helix (normal : Axis) (start center target : Axes ℝ) (φ s : ℝ) : Axes ℝ := fun a =>
  if isLinear a ∧ a ≠ normal then center a + rotate normal φ (fun b => start b - center b) a
  else start a + s * (target a - start a)

/-- Square of the distance from the axis of the helix. -/
def radiusSq (normal : Axis) (center p : Axes ℝ) : ℝ :=
  (if normal = .X then 0 else (p .X - center .X) ^ 2) + (if normal = .Y then 0 else (p .Y - center .Y) ^ 2) +
    (if normal = .Z then 0 else (p .Z - center .Z) ^ 2)

/-- Square of the distance in space. -/
def distanceSq (p q : Axes ℝ) : ℝ := (p .X - q .X) ^ 2 + (p .Y - q .Y) ^ 2 + (p .Z - q .Z) ^ 2

/-- All points have the same distance from the axis. -/
theorem helix_radius {normal : Axis} (hn : isLinear normal = true) (start center target : Axes ℝ) (φ s : ℝ) :
    radiusSq normal center (helix normal start center target φ s) = radiusSq normal center start := by
  have h := Real.sin_sq_add_cos_sq φ
  cases normal <;> simp [isLinear] at hn <;> simp [radiusSq, helix, rotate, perp, isLinear]
  · linear_combination ((start .Y - center .Y) ^ 2 + (start .Z - center .Z) ^ 2) * h
  · linear_combination ((start .X - center .X) ^ 2 + (start .Z - center .Z) ^ 2) * h
  · linear_combination ((start .X - center .X) ^ 2 + (start .Y - center .Y) ^ 2) * h

/-- A helix begins at its start. -/
theorem helix_zero (normal : Axis) (start center target : Axes ℝ) :
    helix normal start center target 0 0 = start := by
  funext a
  unfold helix rotate
  split
  · next h => rw [if_neg h.2]; simp
  · simp

/-- The distance of two points of a helix. -/
theorem helix_distance {normal : Axis} (hn : isLinear normal = true) (start center target : Axes ℝ) (φ ψ s t : ℝ) :
    distanceSq (helix normal start center target φ s) (helix normal start center target ψ t) ≤
      radiusSq normal center start * (φ - ψ) ^ 2 + ((s - t) * (target normal - start normal)) ^ 2 := by
  have h1 := Real.sin_sq_add_cos_sq φ
  have h2 := Real.sin_sq_add_cos_sq ψ
  have h3 := Real.one_sub_sq_div_two_le_cos (x := φ - ψ)
  rw [Real.cos_sub] at h3
  have key : ∀ r : ℝ, 0 ≤ r → r * (2 - 2 * (cos φ * cos ψ + sin φ * sin ψ)) ≤ r * (φ - ψ) ^ 2 := by
    intro r hr
    exact mul_le_mul_of_nonneg_left (by linarith) hr
  cases normal <;> simp [isLinear] at hn <;> simp [distanceSq, radiusSq, helix, rotate, perp, isLinear]
  · refine le_trans (le_of_eq ?_) (add_le_add_left (key ((start .Y - center .Y) ^ 2 + (start .Z - center .Z) ^ 2)
      (by positivity)) _)
    linear_combination ((start .Y - center .Y) ^ 2 + (start .Z - center .Z) ^ 2) * (h1 + h2)
  · refine le_trans (le_of_eq ?_) (add_le_add_left (key ((start .X - center .X) ^ 2 + (start .Z - center .Z) ^ 2)
      (by positivity)) _)
    linear_combination ((start .X - center .X) ^ 2 + (start .Z - center .Z) ^ 2) * (h1 + h2)
  · refine le_trans (le_of_eq ?_) (add_le_add_left (key ((start .X - center .X) ^ 2 + (start .Y - center .Y) ^ 2)
      (by positivity)) _)
    linear_combination ((start .X - center .X) ^ 2 + (start .Y - center .Y) ^ 2) * (h1 + h2)

/-! ### The angle -/

/-- The angle of `atan2`: the second vector is the first one turned by it, up to the lengths. -/
theorem arg_turn (r0 r1 t0 t1 : ℝ) (h : r0 ^ 2 + r1 ^ 2 = t0 ^ 2 + t1 ^ 2) :
    t0 = cos (Complex.arg ⟨r0 * t0 + r1 * t1, r0 * t1 - r1 * t0⟩) * r0 -
        sin (Complex.arg ⟨r0 * t0 + r1 * t1, r0 * t1 - r1 * t0⟩) * r1 ∧
      t1 = cos (Complex.arg ⟨r0 * t0 + r1 * t1, r0 * t1 - r1 * t0⟩) * r1 +
        sin (Complex.arg ⟨r0 * t0 + r1 * t1, r0 * t1 - r1 * t0⟩) * r0 := by
  have hc := Complex.norm_mul_cos_arg ⟨r0 * t0 + r1 * t1, r0 * t1 - r1 * t0⟩
  have hs := Complex.norm_mul_sin_arg ⟨r0 * t0 + r1 * t1, r0 * t1 - r1 * t0⟩
  have hn : ‖(⟨r0 * t0 + r1 * t1, r0 * t1 - r1 * t0⟩ : ℂ)‖ = r0 ^ 2 + r1 ^ 2 := by
    have h0 : (0 : ℝ) ≤ r0 ^ 2 + r1 ^ 2 := by positivity
    rw [← sq_eq_sq₀ (norm_nonneg _) h0, ← Complex.normSq_eq_norm_sq, Complex.normSq_mk]
    linear_combination (r0 ^ 2 + r1 ^ 2) * (-h)
  rw [hn] at hc hs
  dsimp only at hc hs
  generalize cos (Complex.arg ⟨r0 * t0 + r1 * t1, r0 * t1 - r1 * t0⟩) = c at *
  generalize sin (Complex.arg ⟨r0 * t0 + r1 * t1, r0 * t1 - r1 * t0⟩) = s at *
  rcases eq_or_ne (r0 ^ 2 + r1 ^ 2) 0 with h0 | h0
  · have a0 : r0 = 0 := by nlinarith [sq_nonneg r0, sq_nonneg r1]
    have a1 : r1 = 0 := by nlinarith [sq_nonneg r0, sq_nonneg r1]
    have b0 : t0 = 0 := by nlinarith [sq_nonneg t0, sq_nonneg t1]
    have b1 : t1 = 0 := by nlinarith [sq_nonneg t0, sq_nonneg t1]
    subst a0 a1 b0 b1
    simp
  · constructor
    · apply mul_left_cancel₀ h0
      linear_combination (-r0) * hc + r1 * hs
    · apply mul_left_cancel₀ h0
      linear_combination (-r1) * hc - r0 * hs

variable {fl : Num ℝ}

/-- The angle is in the range of its direction, and differs from that of `atan2` by full turns. -/
theorem angularTravel_range (rn : RealNum fl) (cw : Bool) (r0 r1 t0 t1 : ℝ) :
    (if cw then -(2 * pi) ≤ angularTravel fl cw r0 r1 t0 t1 ∧ angularTravel fl cw r0 r1 t0 t1 < 0
      else 0 < angularTravel fl cw r0 r1 t0 t1 ∧ angularTravel fl cw r0 r1 t0 t1 ≤ 2 * pi) ∧
    cos (angularTravel fl cw r0 r1 t0 t1) = cos (Complex.arg ⟨r0 * t0 + r1 * t1, r0 * t1 - r1 * t0⟩) ∧
    sin (angularTravel fl cw r0 r1 t0 t1) = sin (Complex.arg ⟨r0 * t0 + r1 * t1, r0 * t1 - r1 * t0⟩) := by
  unfold angularTravel
  simp only [rn.lt, rn.eq, rn.zero, rn.atan2, rn.sub, rn.mul, rn.add, rn.twoPi]
  have hl := Complex.neg_pi_lt_arg ⟨r0 * t0 + r1 * t1, r0 * t1 - r1 * t0⟩
  have hu := Complex.arg_le_pi ⟨r0 * t0 + r1 * t1, r0 * t1 - r1 * t0⟩
  generalize Complex.arg ⟨r0 * t0 + r1 * t1, r0 * t1 - r1 * t0⟩ = a at *
  have hp := Real.pi_pos
  cases cw <;> simp only [Bool.or_eq_true, decide_eq_true_eq, Bool.false_eq_true, if_false, if_true]
  · split
    · next h =>
      refine ⟨⟨by linarith, by rcases h with h | h <;> linarith⟩, Real.cos_add_two_pi a, Real.sin_add_two_pi a⟩
    · next h =>
      rw [not_or] at h
      exact ⟨⟨lt_of_le_of_ne (not_lt.1 h.1) (Ne.symm h.2), by linarith⟩, rfl, rfl⟩
  · split
    · next h =>
      refine ⟨⟨by rcases h with h | h <;> linarith, by linarith⟩, Real.cos_sub_two_pi a, Real.sin_sub_two_pi a⟩
    · next h =>
      rw [not_or] at h
      exact ⟨⟨by linarith, lt_of_le_of_ne (not_lt.1 h.1) h.2⟩, rfl, rfl⟩

/-! ### The points -/

/-- The point of the loop for the counter `k`, in closed form. -/
noncomputable def loopPoint (o0 o1 c0 c1 θ l : ℝ) (p0 p1 p2 : Axis) (other start : Axes ℝ) (k : ℝ) : Axes ℝ := fun a =>
  if a = p0 then c0 + (-o0 * cos (k * θ) + o1 * sin (k * θ))
  else if a = p1 then c1 + (-o0 * sin (k * θ) - o1 * cos (k * θ))
  else if a = p2 then start a + k * l
  else if a ∈ fromA then start a + k * other a else start a

theorem arcPoints_succ (rn : RealNum fl) {p0 p1 p2 : Axis} (h01 : p0 ≠ p1) (h02 : p0 ≠ p2) (h12 : p1 ≠ p2)
    (hp0 : p0 ∉ fromA) (hp1 : p1 ∉ fromA) (hp2 : p2 ∉ fromA) (o0 o1 c0 c1 θ l : ℝ) (other start : Axes ℝ)
    (n : Nat) (i : Nat) (pos : Axes ℝ) (hl : pos p2 = start p2 + i * l)
    (ho : ∀ a ∈ fromA, pos a = start a + i * other a)
    (hr : ∀ a, a ∉ fromA → a ≠ p0 → a ≠ p1 → a ≠ p2 → pos a = start a) :
    arcPoints fl o0 o1 c0 c1 θ l p0 p1 p2 other (n + 1) (i + 1 : Int) pos =
      loopPoint o0 o1 c0 c1 θ l p0 p1 p2 other start (i + 1) ::
        arcPoints fl o0 o1 c0 c1 θ l p0 p1 p2 other n (((i + 1 : Nat) : Int) + 1)
          (loopPoint o0 o1 c0 c1 θ l p0 p1 p2 other start (i + 1)) := by
  have e : (((i + 1 : Int) : ℝ)) = (i : ℝ) + 1 := by push_cast; rfl
  have : ∃ q, arcPoints fl o0 o1 c0 c1 θ l p0 p1 p2 other (n + 1) (i + 1 : Int) pos =
      q :: arcPoints fl o0 o1 c0 c1 θ l p0 p1 p2 other n ((i + 1 : Int) + 1) q ∧
      ∀ a, q a = loopPoint o0 o1 c0 c1 θ l p0 p1 p2 other start (i + 1) a := by
    refine ⟨_, rfl, ?_⟩
    intro a
    simp only [rn.ofInt, rn.cos, rn.sin, rn.add, rn.mul, rn.neg, rn.sub, e, loopPoint]
    by_cases a0 : a = p0
    · subst a0; simp [setAxis, hp0, h02, h01]
    · by_cases a1 : a = p1
      · subst a1; simp [setAxis, hp1, h12, a0]
      · by_cases a2 : a = p2
        · subst a2
          simp only [setAxis, hp2, if_false, if_true, a0, a1]
          rw [hl]; ring
        · by_cases aA : a ∈ fromA
          · simp only [setAxis, aA, a0, a1, a2, if_true, if_false]
            rw [ho a aA]; ring
          · simp only [setAxis, aA, a0, a1, a2, if_false]
            exact hr a aA a0 a1 a2
  obtain ⟨q, hq, h⟩ := this
  rw [hq, funext h]
  push_cast
  rfl

/-- The points of the loop, in closed form. -/
theorem arcPoints_eq (rn : RealNum fl) {p0 p1 p2 : Axis} (h01 : p0 ≠ p1) (h02 : p0 ≠ p2) (h12 : p1 ≠ p2)
    (hp0 : p0 ∉ fromA) (hp1 : p1 ∉ fromA) (hp2 : p2 ∉ fromA) (o0 o1 c0 c1 θ l : ℝ) (other start : Axes ℝ) :
    ∀ (n : Nat) (i : Nat) (pos : Axes ℝ), pos p2 = start p2 + i * l →
      (∀ a ∈ fromA, pos a = start a + i * other a) → (∀ a, a ∉ fromA → a ≠ p0 → a ≠ p1 → a ≠ p2 → pos a = start a) →
      arcPoints fl o0 o1 c0 c1 θ l p0 p1 p2 other n (i + 1 : Int) pos =
        (List.range n).map (fun k : Nat => loopPoint o0 o1 c0 c1 θ l p0 p1 p2 other start ((i : ℝ) + 1 + (k : ℝ)))
  | 0, _, _, _, _, _ => rfl
  | n + 1, i, pos, hl, ho, hr => by
    rw [arcPoints_succ rn h01 h02 h12 hp0 hp1 hp2 o0 o1 c0 c1 θ l other start n i pos hl ho hr,
      List.range_succ_eq_map, List.map_cons, List.map_map]
    congr 1
    · simp
    · rw [arcPoints_eq rn h01 h02 h12 hp0 hp1 hp2 o0 o1 c0 c1 θ l other start n (i + 1)]
      · apply List.map_congr_left
        intro k _
        have e2 : (((i + 1 : Nat) : ℝ) + 1 + (k : ℝ)) = (i : ℝ) + 1 + ((k + 1 : Nat) : ℝ) := by push_cast; ring
        simp only [Function.comp, e2, Nat.succ_eq_add_one]
      · rw [loopPoint, if_neg (Ne.symm h02), if_neg (Ne.symm h12), if_pos rfl]; push_cast; ring
      · intro a ha
        rw [loopPoint, if_neg (fun h : a = p0 => hp0 (h ▸ ha)), if_neg (fun h : a = p1 => hp1 (h ▸ ha)),
          if_neg (fun h : a = p2 => hp2 (h ▸ ha)),
          if_pos ha]
        push_cast; ring
      · intro a ha b0 b1 b2
        rw [loopPoint, if_neg b0, if_neg b1, if_neg b2, if_neg ha]

/-- The direction of positive angles in the plane of `normal`: that of X and Z to the left, that of Y to the
right. -/
def handed : Axis → ℝ
  | .Y => -1
  | _ => 1

/-- The points of an arc about `normal`: `θ` the angle in the order of the axes of `plane`, `n` the segments. -/
def ArcOf (normal : Axis) (cw : Bool) (start center target : Axes ℝ) (θ : ℝ) (n : Nat) (ps : List (Axes ℝ)) : Prop :=
  (if cw then -(2 * pi) ≤ θ ∧ θ < 0 else 0 < θ ∧ θ ≤ 2 * pi) ∧
  ps = (List.range (n - 1)).map (fun k : Nat =>
      helix normal start center target (handed normal * (θ * (((k : ℝ) + 1) / n))) (((k : ℝ) + 1) / n)) ++ [target] ∧
  (radiusSq normal center target = radiusSq normal center start →
    helix normal start center target (handed normal * θ) 1 = target) ∧
  (n : ℝ) ≤ 10 * sqrt (radiusSq normal center start * θ ^ 2 + (target normal - start normal) ^ 2) ∧
  10 * sqrt (radiusSq normal center start * θ ^ 2 + (target normal - start normal) ^ 2) < n + 1

/-- Angle of the arc as the code computes it. -/
noncomputable def arcAngle (fl : Num ℝ) (cw : Bool) (start center target : Axes ℝ) (p0 p1 : Axis) : ℝ :=
  angularTravel fl cw (start p0 - center p0) (start p1 - center p1) (target p0 - center p0) (target p1 - center p1)

theorem arcGen_real (rn : RealNum fl) {normal p0 p1 p2 : Axis} (hp : plane normal = some (p0, p1, p2)) (cw : Bool)
    (start center target : Axes ℝ) :
    arcGen fl normal cw start center target =
      (let θ := arcAngle fl cw start center target p0 p1
       let travel := sqrt (radiusSq normal center start * θ ^ 2 + (target normal - start normal) ^ 2)
       if travel < 1 / 100000 then none
       else some ((List.range ((⌊10 * travel⌋₊) - 1)).map (fun k : Nat =>
         helix normal start center target (handed normal * (θ * (((k : ℝ) + 1) / (⌊10 * travel⌋₊ : ℝ))))
           (((k : ℝ) + 1) / (⌊10 * travel⌋₊ : ℝ))) ++ [target])) := by
  have hd : normal = p2 ∧ p0 ≠ p1 ∧ p0 ≠ p2 ∧ p1 ≠ p2 ∧ p0 ∉ fromA ∧ p1 ∉ fromA ∧ p2 ∉ fromA := by
    cases normal <;> simp [plane] at hp <;> obtain ⟨rfl, rfl, rfl⟩ := hp <;> simp [fromA]
  obtain ⟨rfl, h01, h02, h12, hp0, hp1, hp2⟩ := hd
  have hang : angularTravel fl cw (-(center p0 - start p0)) (-(center p1 - start p1))
      (target p0 - (start p0 + (center p0 - start p0))) (target p1 - (start p1 + (center p1 - start p1))) =
      arcAngle fl cw start center target p0 p1 := by
    unfold arcAngle; congr 1 <;> ring
  have hrad : (center p0 - start p0) * (center p0 - start p0) + (center p1 - start p1) * (center p1 - start p1) =
      radiusSq normal center start := by
    cases normal <;> simp [plane] at hp <;> obtain ⟨rfl, rfl⟩ := hp <;> simp [radiusSq] <;> ring
  have hrad0 : 0 ≤ radiusSq normal center start := by rw [← hrad]; exact add_nonneg (mul_self_nonneg _) (mul_self_nonneg _)
  unfold arcGen
  rw [hp]
  simp only [rn.sub, rn.add, rn.mul, rn.neg, rn.sqrt, rn.hypot, rn.abs, rn.lt, rn.tiny, rn.div, rn.tenth, rn.floor,
    rn.toInt, rn.ofInt, hang, hrad, sq_abs, mul_pow, Real.sq_sqrt hrad0]
  rw [mul_comm (arcAngle fl cw start center target p0 p1 ^ 2)]
  generalize arcAngle fl cw start center target p0 p1 = θ
  set T := sqrt (radiusSq normal center start * θ ^ 2 + (target normal - start normal) ^ 2) with hT
  have hT0 : 0 ≤ T := Real.sqrt_nonneg _
  have e1 : T / (((1 : Int) : ℝ) / 10) = 10 * T := by push_cast; ring
  rw [e1]
  have e2 : ⌊10 * T⌋ = ((⌊10 * T⌋₊ : Nat) : Int) := (Int.natCast_floor_eq_floor (by positivity)).symm
  rw [e2]
  generalize ⌊10 * T⌋₊ = n
  by_cases h : T < 1 / 100000
  · simp only [h, decide_true, if_true]
  · simp only [h, decide_false, Bool.false_eq_true, if_false]
    congr 2
    have e3 : (((n : Int)) - 1).toNat = n - 1 := by omega
    have := arcPoints_eq rn h01 h02 h12 hp0 hp1 hp2 (center p0 - start p0) (center p1 - start p1)
      (start p0 + (center p0 - start p0)) (start p1 + (center p1 - start p1)) (θ / ((n : Int) : ℝ))
      ((target normal - start normal) / ((n : Int) : ℝ)) (fun a => (target a - start a) / ((n : Int) : ℝ)) start
      (n - 1) 0 start (by simp) (by simp) (by simp)
    rw [e3]
    simp only [Nat.cast_zero, zero_add] at this
    erw [this]
    apply List.map_congr_left
    intro k _
    funext a
    rw [Int.cast_natCast]
    have e4 : (1 + (k : ℝ)) * (θ / n) = θ * (((k : ℝ) + 1) / n) := by ring
    cases normal <;> simp [plane] at hp <;> obtain ⟨rfl, rfl⟩ := hp <;>
      cases a <;> simp [loopPoint, helix, rotate, perp, isLinear, handed, fromA, e4] <;> ring

theorem arcGen_angle (rn : RealNum fl) {normal p0 p1 p2 : Axis} (hp : plane normal = some (p0, p1, p2)) {cw : Bool}
    {start center target : Axes ℝ} {ps : List (Axes ℝ)} (h : arcGen fl normal cw start center target = some ps) :
    ∃ n, ArcOf normal cw start center target (arcAngle fl cw start center target p0 p1) n ps := by
    rw [arcGen_real rn hp] at h
    dsimp only at h
    split at h
    · cases h
    · injection h with h
      refine ⟨_, ?_, h.symm, ?_, Nat.floor_le (by positivity), Nat.lt_floor_add_one _⟩
      · exact (angularTravel_range rn cw _ _ _ _).1
      · intro hr
        obtain ⟨-, hc, hs⟩ := angularTravel_range rn cw (start p0 - center p0) (start p1 - center p1)
          (target p0 - center p0) (target p1 - center p1)
        have ht := arg_turn (start p0 - center p0) (start p1 - center p1) (target p0 - center p0) (target p1 - center p1)
          (by cases normal <;> simp [plane] at hp <;> obtain ⟨rfl, rfl, rfl⟩ := hp <;> simp [radiusSq] at hr <;> linarith)
        rw [← hc, ← hs] at ht
        obtain ⟨t0, t1⟩ := ht
        funext a
        unfold arcAngle
        cases normal <;> simp [plane] at hp <;> obtain ⟨rfl, rfl, rfl⟩ := hp <;>
          cases a <;> simp [helix, rotate, perp, isLinear, handed] <;> linarith

theorem arcGen_points (rn : RealNum fl) {normal : Axis} {cw : Bool} {start center target : Axes ℝ}
    {ps : List (Axes ℝ)} (h : arcGen fl normal cw start center target = some ps) :
    ∃ θ n, ArcOf normal cw start center target θ n ps := by
  rcases hp : plane normal with _ | ⟨p0, p1, p2⟩
  · rw [arcGen, hp] at h; cases h
  · exact ⟨_, arcGen_angle rn hp h⟩

/-- An arc about `normal`, clockwise or counter-clockwise as seen from the positive end of `normal`: equal parts
of a helix, the last point the target; the number of parts is the length in tenths of a millimeter. -/
def IsArc (normal : Axis) (cw : Bool) (start center target : Axes ℝ) (θ : ℝ) (ps : List (Axes ℝ)) : Prop :=
  (if cw then -(2 * pi) ≤ θ ∧ θ < 0 else 0 < θ ∧ θ ≤ 2 * pi) ∧
  (radiusSq normal center target = radiusSq normal center start → helix normal start center target θ 1 = target) ∧
  ∃ n : Nat,
    ps = (List.range (n - 1)).map (fun k : Nat =>
      helix normal start center target (θ * (((k : ℝ) + 1) / n)) (((k : ℝ) + 1) / n)) ++ [target] ∧
    (n : ℝ) ≤ 10 * sqrt (radiusSq normal center start * θ ^ 2 + (target normal - start normal) ^ 2) ∧
    10 * sqrt (radiusSq normal center start * θ ^ 2 + (target normal - start normal) ^ 2) < n + 1

/-- Arcs about X and Z are turned in the direction asked for. -/
theorem C65_arc_partial (rn : RealNum fl) {normal : Axis} (hy : normal ≠ .Y) {cw : Bool}
    {start center target : Axes ℝ} {ps : List (Axes ℝ)} (h : arcGen fl normal cw start center target = some ps) :
    ∃ θ, IsArc normal cw start center target θ ps := by
  obtain ⟨θ, n, h1, h2, h3, h4, h5⟩ := arcGen_points rn h
  have e : handed normal = 1 := by cases normal <;> first | rfl | exact absurd rfl hy
  rw [e] at h2 h3
  simp only [one_mul] at h2 h3
  exact ⟨θ, h1, h3, n, h2, h4, h5⟩

/-- Arcs about Y are turned in the other direction. -/
theorem C65_xz_plane (rn : RealNum fl) {cw : Bool}
    {start center target : Axes ℝ} {ps : List (Axes ℝ)} (h : arcGen fl .Y cw start center target = some ps) :
    ∃ θ, IsArc .Y (!cw) start center target θ ps := by
  obtain ⟨θ, n, h1, h2, h3, h4, h5⟩ := arcGen_points rn h
  simp only [handed, neg_mul, one_mul] at h2 h3
  refine ⟨-θ, ?_, h3, n, ?_, by rwa [neg_sq], by rwa [neg_sq]⟩
  · cases cw <;> simp at h1 ⊢ <;> constructor <;> linarith
  · rw [h2]
    simp only [neg_mul]

theorem radiusSq_nonneg (normal : Axis) (center p : Axes ℝ) : 0 ≤ radiusSq normal center p := by
  unfold radiusSq
  split <;> split <;> split <;> positivity

theorem IsArc.linear {normal : Axis} {fl : Num ℝ} {cw : Bool} {start center target : Axes ℝ} {ps : List (Axes ℝ)}
    (h : arcGen fl normal cw start center target = some ps) : isLinear normal = true := by
  cases normal <;> first | rfl | (unfold arcGen plane at h; cases h)

/-- All points but the last are on the circle about the center through the start. -/
theorem C65_on_circle (rn : RealNum fl) {normal : Axis} {cw : Bool} {start center target : Axes ℝ}
    {ps : List (Axes ℝ)} (h : arcGen fl normal cw start center target = some ps) :
    (∀ p ∈ ps.dropLast, radiusSq normal center p = radiusSq normal center start) ∧ ps.getLast? = some target := by
  obtain ⟨θ, n, -, h2, -⟩ := arcGen_points rn h
  subst h2
  refine ⟨?_, by simp⟩
  intro p hp
  rw [List.dropLast_concat, List.mem_map] at hp
  obtain ⟨k, -, rfl⟩ := hp
  exact helix_radius (IsArc.linear h) _ _ _ _ _

/-- If the target is on the circle, consecutive points are less than 0.2 mm apart. -/
theorem C65_spacing (rn : RealNum fl) {normal : Axis} {cw : Bool} {start center target : Axes ℝ}
    {ps : List (Axes ℝ)} (h : arcGen fl normal cw start center target = some ps)
    (hr : radiusSq normal center target = radiusSq normal center start) :
    (start :: ps).IsChain (fun p q => distanceSq p q < (1 / 5) ^ 2) := by
  have hn := IsArc.linear h
  obtain ⟨θ, n, -, h2, h3, h4, h5⟩ := arcGen_points rn h
  replace h3 := h3 hr
  set φ := handed normal * θ with hφ
  have hφ2 : φ ^ 2 = θ ^ 2 := by
    rw [hφ]; unfold handed; split <;> ring
  set T2 := radiusSq normal center start * θ ^ 2 + (target normal - start normal) ^ 2 with hT2
  have hT20 : 0 ≤ T2 := by
    have := radiusSq_nonneg normal center start
    positivity
  have hsq := Real.sq_sqrt hT20
  have hs0 := Real.sqrt_nonneg T2
  generalize hT : sqrt T2 = T at *
  subst h2
  rcases Nat.eq_zero_or_pos n with rfl | hpos
  · simp only [Nat.zero_sub, List.range_zero, List.map_nil, List.nil_append]
    rw [List.isChain_cons_cons]
    refine ⟨?_, List.isChain_singleton _⟩
    have hd := helix_distance hn start center target 0 φ 0 1
    rw [helix_zero, h3] at hd
    have e : radiusSq normal center start * (0 - φ) ^ 2 + ((0 - 1) * (target normal - start normal)) ^ 2 = T2 := by
      rw [hT2, ← hφ2]; ring
    rw [e, ← hsq] at hd
    have hlt : T < 1 / 5 := by push_cast at h5; linarith
    exact lt_of_le_of_lt hd (pow_lt_pow_left₀ hlt hs0 two_ne_zero)
  · have hn0 : (0 : ℝ) < n := by exact_mod_cast hpos
    have hn1 : (1 : ℝ) ≤ n := by exact_mod_cast hpos
    set P : Nat → Axes ℝ := fun k => helix normal start center target (φ * ((k : ℝ) / n)) ((k : ℝ) / n) with hP
    have hlist : start :: ((List.range (n - 1)).map (fun k : Nat =>
        helix normal start center target (handed normal * (θ * (((k : ℝ) + 1) / n))) (((k : ℝ) + 1) / n)) ++ [target]) =
        (List.range (n + 1)).map P := by
      obtain ⟨m, rfl⟩ : ∃ m, n = m + 1 := ⟨n - 1, by omega⟩
      rw [List.range_succ, List.map_append, List.range_succ_eq_map, List.map_cons, List.map_map, List.cons_append]
      congr 1
      · simp only [hP]; simp only [Nat.cast_zero, zero_div, mul_zero]; exact (helix_zero _ _ _ _).symm
      · congr 1
        · rw [Nat.add_sub_cancel]
          apply List.map_congr_left
          intro k _
          simp only [hP, Function.comp, hφ, Nat.succ_eq_add_one]
          push_cast
          rw [mul_assoc]
        · simp only [hP, List.map_cons, List.map_nil]
          rw [div_self (ne_of_gt hn0), mul_one, h3]
    rw [hlist, List.isChain_map, List.isChain_range]
    intro k hk
    have hd := helix_distance hn start center target (φ * ((k : ℝ) / n)) (φ * (((k + 1 : Nat) : ℝ) / n))
      ((k : ℝ) / n) (((k + 1 : Nat) : ℝ) / n)
    refine lt_of_le_of_lt hd ?_
    have e : radiusSq normal center start * (φ * ((k : ℝ) / n) - φ * (((k + 1 : Nat) : ℝ) / n)) ^ 2 +
        (((k : ℝ) / n - ((k + 1 : Nat) : ℝ) / n) * (target normal - start normal)) ^ 2 = (T / n) ^ 2 := by
      rw [div_pow, hsq, hT2, ← hφ2]
      push_cast
      field_simp
      ring
    rw [e]
    refine pow_lt_pow_left₀ ?_ (by positivity) two_ne_zero
    rw [div_lt_iff₀ hn0]
    linarith

/-- Only moves shorter than 0.01 µm are left out. -/
theorem C65_ignored (rn : RealNum fl) {normal : Axis} (hn : isLinear normal = true) {cw : Bool}
    {start center target : Axes ℝ} (h : arcGen fl normal cw start center target = none) :
    |target normal - start normal| < 1 / 100000 ∧
      (radiusSq normal center target = radiusSq normal center start → distanceSq start target < (1 / 100000) ^ 2) := by
  obtain ⟨p0, p1, p2, hp⟩ : ∃ p0 p1 p2, plane normal = some (p0, p1, p2) := by
    cases normal <;> simp [isLinear] at hn <;> exact ⟨_, _, _, rfl⟩
  rw [arcGen_real rn hp] at h
  dsimp only at h
  split at h
  · next hT =>
    set θ := arcAngle fl cw start center target p0 p1 with hθ
    have h0 := radiusSq_nonneg normal center start
    have hT20 : 0 ≤ radiusSq normal center start * θ ^ 2 + (target normal - start normal) ^ 2 := by positivity
    have hsq := Real.sq_sqrt hT20
    have hs0 := Real.sqrt_nonneg (radiusSq normal center start * θ ^ 2 + (target normal - start normal) ^ 2)
    have hlt := pow_lt_pow_left₀ hT hs0 two_ne_zero
    rw [hsq] at hlt
    constructor
    · refine abs_lt_of_sq_lt_sq ?_ (by norm_num)
      have : 0 ≤ radiusSq normal center start * θ ^ 2 := by positivity
      linarith
    · intro hr
      have hturn : helix normal start center target (handed normal * θ) 1 = target := by
        obtain ⟨-, hc, hs⟩ := angularTravel_range rn cw (start p0 - center p0) (start p1 - center p1)
          (target p0 - center p0) (target p1 - center p1)
        have ht := arg_turn (start p0 - center p0) (start p1 - center p1) (target p0 - center p0) (target p1 - center p1)
          (by cases normal <;> simp [plane] at hp <;> obtain ⟨rfl, rfl, rfl⟩ := hp <;> simp [radiusSq] at hr <;> linarith)
        rw [← hc, ← hs] at ht
        obtain ⟨t0, t1⟩ := ht
        funext a
        rw [hθ]
        unfold arcAngle
        cases normal <;> simp [plane] at hp <;> obtain ⟨rfl, rfl, rfl⟩ := hp <;>
          cases a <;> simp [helix, rotate, perp, isLinear, handed] <;> linarith
      have hd := helix_distance hn start center target 0 (handed normal * θ) 0 1
      rw [helix_zero, hturn] at hd
      have e : radiusSq normal center start * (0 - handed normal * θ) ^ 2 +
          ((0 - 1) * (target normal - start normal)) ^ 2 =
          radiusSq normal center start * θ ^ 2 + (target normal - start normal) ^ 2 := by
        have : (handed normal) ^ 2 = 1 := by unfold handed; split <;> norm_num
        linear_combination (radiusSq normal center start * θ ^ 2) * this
      rw [e] at hd
      exact lt_of_le_of_lt hd hlt
  · cases h

/-! ### The XZ plane -/

/-- From X to Z about the origin. -/
def xzStart : Axes ℝ := fun a => if a = .X then 1 else 0
/-- The end of the arc in the example. -/
def xzTarget : Axes ℝ := fun a => if a = .Z then 1 else 0

/-- G18 G2 from X to Z is a quarter of a circle when seen from the positive end of Y; the code makes three quarters
in the other direction. -/
theorem C65_xz_wrong (rn : RealNum fl) :
    ∃ ps, arcGen fl .Y true xzStart (fun _ => 0) xzTarget = some ps ∧
      ¬ ∃ θ, IsArc .Y true xzStart (fun _ => 0) xzTarget θ ps := by
  have hr : radiusSq .Y (fun _ => 0) xzTarget = radiusSq .Y (fun _ => 0) xzStart := by
    simp [radiusSq, xzStart, xzTarget]
  have hr1 : radiusSq .Y (fun _ => 0) xzStart = 1 := by simp [radiusSq, xzStart]
  have hl : xzTarget .Y - xzStart .Y = 0 := by simp [xzStart, xzTarget]
  have hp := Real.pi_pos
  have hp3 := Real.two_le_pi
  cases h : arcGen fl .Y true xzStart (fun _ => 0) xzTarget with
  | none =>
    have := (C65_ignored rn rfl h).2 hr
    have e : distanceSq xzStart xzTarget = 2 := by
      simp [distanceSq, xzStart, xzTarget]; norm_num
    rw [e] at this
    norm_num at this
  | some ps =>
    refine ⟨ps, rfl, ?_⟩
    obtain ⟨φ, hφ, hφt, n, hn, -, hn2⟩ := C65_xz_plane rn h
    rintro ⟨θ, hθ, hθt, m, hm, hm1, -⟩
    replace hφt := hφt hr
    replace hθt := hθt hr
    have hφx := congrFun hφt .X
    have hφz := congrFun hφt .Z
    have hθx := congrFun hθt .X
    have hθz := congrFun hθt .Z
    simp [helix, rotate, perp, isLinear, xzStart, xzTarget] at hφx hφz hθx hθz
    simp at hφ hθ
    have eθ : θ = -(pi / 2) := by
      have : cos (θ + pi / 2) = 1 := by rw [Real.cos_add_pi_div_two]; linarith
      rw [Real.cos_eq_one_iff_of_lt_of_lt (by linarith) (by linarith)] at this
      linarith
    have eφ : φ = 3 * pi / 2 := by
      have : cos (φ + pi / 2 - 2 * pi) = 1 := by
        rw [Real.cos_sub_two_pi, Real.cos_add_pi_div_two]; linarith
      rw [Real.cos_eq_one_iff_of_lt_of_lt (by linarith) (by linarith)] at this
      linarith
    rw [hr1, hl] at hn2 hm1
    have s1 : sqrt (1 * φ ^ 2 + 0 ^ 2) = 3 * pi / 2 := by
      rw [eφ, show (1 * (3 * pi / 2) ^ 2 + 0 ^ 2 : ℝ) = (3 * pi / 2) ^ 2 by ring, Real.sqrt_sq (by positivity)]
    have s2 : sqrt (1 * θ ^ 2 + 0 ^ 2) = pi / 2 := by
      rw [eθ, show (1 * (-(pi / 2)) ^ 2 + 0 ^ 2 : ℝ) = (pi / 2) ^ 2 by ring, Real.sqrt_sq (by positivity)]
    rw [s1] at hn2
    rw [s2] at hm1
    have hlen := congrArg List.length (hn.symm.trans hm)
    simp only [List.length_append, List.length_map, List.length_range, List.length_singleton] at hlen
    have hnm : n ≤ m + 1 := by omega
    have : (n : ℝ) ≤ m + 1 := by exact_mod_cast hnm
    linarith

/-! ### Arcs given by their radius -/

/-- The offset of the center: from the middle of the chord `h` to its right or left. -/
theorem center_form (rn : RealNum fl) {s1 s2 e1 e2 r : ℝ} {cw : Bool} {o1 o2 : ℝ} (hr : r ≠ 0)
    (h : arcRadiusToCenter fl s1 s2 e1 e2 r cw = some (o1, o2)) :
    ∃ u L σ : ℝ, 0 ≤ u ∧ 0 < L ∧ L ^ 2 = (e1 - s1) ^ 2 + (e2 - s2) ^ 2 ∧
      (if (cw = true ∧ 0 < r) ∨ (cw = false ∧ r < 0) then σ = 1 else σ = -1) ∧
      o1 = (e1 - s1) / 2 + σ * (u / L) * (e2 - s2) ∧ o2 = (e2 - s2) / 2 - σ * (u / L) * (e1 - s1) ∧
      (1 - 1 / 1000000) * |r| ≤ sqrt ((L / 2) ^ 2 + u ^ 2) ∧ sqrt ((L / 2) ^ 2 + u ^ 2) ≤ (1 + 1 / 1000000) * |r| ∧
      (L / 2 ≤ (1 - 1 / 1000000) * |r| → (L / 2) ^ 2 + u ^ 2 = r ^ 2) := by
  have hr0 : 0 < |r| := abs_pos.2 hr
  unfold arcRadiusToCenter at h
  simp only [rn.eq, rn.abs, rn.div, rn.add, rn.sub, rn.tenth, rn.hypot, rn.lt, rn.onePlus, rn.oneMinus, rn.atan2,
    rn.zero, rn.halfPi, rn.asin, rn.mul, rn.cos, rn.sin] at h
  split at h
  · cases h
  next hne =>
  split at h
  · cases h
  next hbig =>
  simp only [Option.some.injEq, Prod.mk.injEq] at h
  simp only [Bool.and_eq_true, decide_eq_true_eq, not_and] at hne
  simp only [decide_eq_true_eq, not_lt] at hbig
  set d1 := e1 - s1 with hd1
  set d2 := e2 - s2 with hd2
  have hpos : 0 < d1 ^ 2 + d2 ^ 2 := by
    rcases eq_or_ne e1 s1 with he | he
    · have : d2 ≠ 0 := sub_ne_zero.2 (hne he)
      have := pow_pos (abs_pos.2 this) 2
      rw [sq_abs] at this
      nlinarith [sq_nonneg d1]
    · have : d1 ≠ 0 := sub_ne_zero.2 he
      have := pow_pos (abs_pos.2 this) 2
      rw [sq_abs] at this
      nlinarith [sq_nonneg d2]
  set L := sqrt (d1 ^ 2 + d2 ^ 2) with hL
  have hL0 : 0 < L := Real.sqrt_pos.2 hpos
  have hL2 : L ^ 2 = d1 ^ 2 + d2 ^ 2 := Real.sq_sqrt hpos.le
  have hhalf : sqrt (((e1 + s1) / (((20 : Int) : ℝ) / 10) - e1) ^ 2 + ((e2 + s2) / (((20 : Int) : ℝ) / 10) - e2) ^ 2) = L / 2 := by
    rw [show ((e1 + s1) / (((20 : Int) : ℝ) / 10) - e1) ^ 2 + ((e2 + s2) / (((20 : Int) : ℝ) / 10) - e2) ^ 2 = (L / 2) ^ 2 by
      rw [div_pow, hL2, hd1, hd2]; push_cast; ring]
    exact Real.sqrt_sq (by positivity)
  rw [hhalf] at h hbig
  -- the cosine and sine of the direction
  have hn : ‖(⟨d1, d2⟩ : ℂ)‖ = L := by
    rw [← sq_eq_sq₀ (norm_nonneg _) hL0.le, ← Complex.normSq_eq_norm_sq, Complex.normSq_mk, hL2]; ring
  have hc := Complex.norm_mul_cos_arg ⟨d1, d2⟩
  have hs := Complex.norm_mul_sin_arg ⟨d1, d2⟩
  rw [hn] at hc hs
  dsimp only at hc hs
  have hc' : cos (Complex.arg ⟨d1, d2⟩) = d1 / L := by rw [eq_div_iff (ne_of_gt hL0), mul_comm]; exact hc
  have hs' : sin (Complex.arg ⟨d1, d2⟩) = d2 / L := by rw [eq_div_iff (ne_of_gt hL0), mul_comm]; exact hs
  rw [div_le_iff₀ hr0] at hbig
  -- the half chord
  obtain ⟨H, hH, hH0, hHr, hHc⟩ : ∃ H, (if (decide (1 - 1 / 1000000 < L / 2 / |r|)) = true then |r| else L / 2) = H ∧
      0 ≤ H ∧ H ≤ |r| ∧ (H = L / 2 ∧ L / 2 ≤ (1 - 1 / 1000000) * |r| ∨ H = |r| ∧ (1 - 1 / 1000000) * |r| < L / 2) := by
    refine ⟨_, rfl, ?_⟩
    split
    · next hx =>
      rw [decide_eq_true_eq, lt_div_iff₀ hr0] at hx
      exact ⟨hr0.le, le_refl _, Or.inr ⟨rfl, hx⟩⟩
    · next hx =>
      rw [decide_eq_true_eq, not_lt, div_le_iff₀ hr0] at hx
      exact ⟨by positivity, by linarith, Or.inl ⟨rfl, hx⟩⟩
  rw [hH, Real.cos_arcsin] at h
  set u := |r| * sqrt (1 - (H / |r|) ^ 2) with hu
  have hu0 : 0 ≤ u := by positivity
  have hu2 : u ^ 2 = r ^ 2 - H ^ 2 := by
    have : 0 ≤ 1 - (H / |r|) ^ 2 := by
      have : H / |r| ≤ 1 := (div_le_one hr0).2 hHr
      have h0 : 0 ≤ H / |r| := by positivity
      nlinarith
    rw [hu, mul_pow, Real.sq_sqrt this, sq_abs, div_pow, sq_abs]
    field_simp
  have hdist : (1 - 1 / 1000000) * |r| ≤ sqrt ((L / 2) ^ 2 + u ^ 2) ∧ sqrt ((L / 2) ^ 2 + u ^ 2) ≤ (1 + 1 / 1000000) * |r| ∧
      (L / 2 ≤ (1 - 1 / 1000000) * |r| → (L / 2) ^ 2 + u ^ 2 = r ^ 2) := by
    rw [hu2]
    rcases hHc with ⟨he, hx⟩ | ⟨he, hx⟩
    · rw [he, show (L / 2) ^ 2 + (r ^ 2 - (L / 2) ^ 2) = r ^ 2 by ring, Real.sqrt_sq_eq_abs]
      exact ⟨by linarith, by linarith, fun _ => rfl⟩
    · rw [he, sq_abs, sub_self, add_zero, Real.sqrt_sq (by positivity)]
      exact ⟨hx.le, hbig, fun hy => absurd hx (not_lt.2 hy)⟩
  refine ⟨u, L, if (cw = true ∧ 0 < r) ∨ (cw = false ∧ r < 0) then 1 else -1, hu0, hL0, hL2, ?_, ?_, ?_, hdist⟩
  · split <;> rfl
  · rw [← h.1]
    by_cases hcase : (cw = true ∧ 0 < r) ∨ (cw = false ∧ r < 0)
    · have : (cw && decide (0 < r) || !cw && decide (r < 0)) = true := by simpa using hcase
      rw [if_pos hcase, if_pos this, Real.cos_sub_pi_div_two, hs', hd1]
      push_cast; ring
    · have : ¬ (cw && decide (0 < r) || !cw && decide (r < 0)) = true := by simpa using hcase
      rw [if_neg hcase, if_neg this, Real.cos_add_pi_div_two, hs', hd1]
      push_cast; ring
  · rw [← h.2]
    by_cases hcase : (cw = true ∧ 0 < r) ∨ (cw = false ∧ r < 0)
    · have : (cw && decide (0 < r) || !cw && decide (r < 0)) = true := by simpa using hcase
      rw [if_pos hcase, if_pos this, Real.sin_sub_pi_div_two, hc', hd2]
      push_cast; ring
    · have : ¬ (cw && decide (0 < r) || !cw && decide (r < 0)) = true := by simpa using hcase
      rw [if_neg hcase, if_neg this, Real.sin_add_pi_div_two, hc', hd2]
      push_cast; ring

/-- The center of an arc given by its radius has the same distance from both ends, the radius up to a millionth;
the arc is at most a half turn for a positive radius and at least a half turn for a negative one. -/
theorem C65_radius (rn : RealNum fl) {s1 s2 e1 e2 r : ℝ} {cw : Bool} {o1 o2 : ℝ} (hr : r ≠ 0)
    (h : arcRadiusToCenter fl s1 s2 e1 e2 r cw = some (o1, o2)) :
    (e1 - (s1 + o1)) ^ 2 + (e2 - (s2 + o2)) ^ 2 = o1 ^ 2 + o2 ^ 2 ∧
    abs (sqrt (o1 ^ 2 + o2 ^ 2) - |r|) ≤ |r| / 1000000 ∧
    (0 < r → |angularTravel fl cw (-o1) (-o2) (e1 - (s1 + o1)) (e2 - (s2 + o2))| ≤ pi) ∧
    (r < 0 → pi ≤ |angularTravel fl cw (-o1) (-o2) (e1 - (s1 + o1)) (e2 - (s2 + o2))|) := by
  obtain ⟨u, L, σ, hu, hL, hL2, hσ, ho1, ho2, hd1, hd2, -⟩ := center_form rn hr h
  have hσ2 : σ ^ 2 = 1 := by split at hσ <;> rw [hσ] <;> norm_num
  have hLu : (u / L) ^ 2 * L ^ 2 = u ^ 2 := by field_simp
  have hsum : o1 ^ 2 + o2 ^ 2 = (L / 2) ^ 2 + u ^ 2 := by
    rw [ho1, ho2, ← hLu, div_pow, hL2]
    linear_combination ((u / L) ^ 2 * ((e1 - s1) ^ 2 + (e2 - s2) ^ 2)) * hσ2
  have heq : (e1 - (s1 + o1)) ^ 2 + (e2 - (s2 + o2)) ^ 2 = o1 ^ 2 + o2 ^ 2 := by
    rw [ho1, ho2]; ring
  have hcross : -o1 * (e2 - (s2 + o2)) - -o2 * (e1 - (s1 + o1)) = -(σ * (u * L)) := by
    have : u * L = (u / L) * ((e1 - s1) ^ 2 + (e2 - s2) ^ 2) := by rw [← hL2]; field_simp
    rw [ho1, ho2, this]; ring
  have hdot : -o1 * (e1 - (s1 + o1)) + -o2 * (e2 - (s2 + o2)) = u ^ 2 - (L / 2) ^ 2 := by
    have hod : o1 * (e1 - s1) + o2 * (e2 - s2) = L ^ 2 / 2 := by rw [hL2, ho1, ho2]; ring
    linear_combination hsum - hod
  refine ⟨heq, ?_, ?_⟩
  · rw [hsum, abs_le]
    constructor <;> linarith
  · unfold angularTravel
    simp only [rn.lt, rn.eq, rn.zero, rn.atan2, rn.sub, rn.mul, rn.add, rn.twoPi]
    rw [hcross, hdot]
    have hl := Complex.neg_pi_lt_arg ⟨u ^ 2 - (L / 2) ^ 2, -(σ * (u * L))⟩
    have hg := Complex.arg_le_pi ⟨u ^ 2 - (L / 2) ^ 2, -(σ * (u * L))⟩
    have hp := Real.pi_pos
    -- to the right: negative or a half turn; to the left: positive
    have hright : σ = 1 → Complex.arg ⟨u ^ 2 - (L / 2) ^ 2, -(σ * (u * L))⟩ < 0 ∨
        Complex.arg ⟨u ^ 2 - (L / 2) ^ 2, -(σ * (u * L))⟩ = pi := by
      intro hs
      rcases eq_or_lt_of_le hu with hz | hz
      · right
        rw [Complex.arg_eq_pi_iff]
        rw [← hz]
        refine ⟨?_, by simp⟩
        have := pow_pos (half_pos hL) 2
        simp only; linarith
      · left
        rw [Complex.arg_neg_iff, hs]
        have := mul_pos hz hL
        simp only; linarith
    have hleft : σ = -1 → 0 < Complex.arg ⟨u ^ 2 - (L / 2) ^ 2, -(σ * (u * L))⟩ := by
      intro hs
      refine lt_of_le_of_ne ?_ (Ne.symm ?_)
      · rw [Complex.arg_nonneg_iff, hs]
        have := mul_nonneg hu hL.le
        simp only; linarith
      · rw [ne_eq, Complex.arg_eq_zero_iff, hs]
        rintro ⟨h1, h2⟩
        simp only at h1 h2
        have hz : u = 0 := by
          have : u * L = 0 := by linarith
          rcases mul_eq_zero.1 this with hz | hz
          · exact hz
          · exact absurd hz (ne_of_gt hL)
        have := pow_pos (half_pos hL) 2
        rw [hz] at h1
        norm_num at h1
        linarith
    generalize Complex.arg ⟨u ^ 2 - (L / 2) ^ 2, -(σ * (u * L))⟩ = a at *
    constructor
    · intro hrp
      cases cw
      · rw [if_neg (by simp [hrp.le])] at hσ
        have := hleft hσ
        have e : (decide (a < 0) || decide (a = 0)) = false := by simp [this.le, ne_of_gt this]
        simp only [e, Bool.false_eq_true, if_false]
        rw [abs_of_pos this]; exact hg
      · rw [if_pos (by simp [hrp])] at hσ
        rcases hright hσ with ha | ha
        · have e : (decide (0 < a) || decide (a = 0)) = false := by simp [ha.le, ne_of_lt ha]
          simp only [e, Bool.false_eq_true, if_false, if_true]
          rw [abs_of_neg ha]; linarith
        · have e : (decide (0 < a) || decide (a = 0)) = true := by simp [ha, hp]
          simp only [e, if_true]
          rw [abs_of_neg (by linarith)]; linarith
    · intro hrn
      cases cw
      · rw [if_pos (by simp [hrn])] at hσ
        rcases hright hσ with ha | ha
        · have e : (decide (a < 0) || decide (a = 0)) = true := by simp [ha]
          simp only [e, Bool.false_eq_true, if_false, if_true]
          rw [abs_of_pos (by linarith)]; linarith
        · have e : (decide (a < 0) || decide (a = 0)) = false := by
            have : 0 < a := by linarith
            simp [this.le, ne_of_gt this]
          simp only [e, Bool.false_eq_true, if_false]
          rw [ha, abs_of_pos hp]
      · rw [if_neg (by simp [hrn.le])] at hσ
        have := hleft hσ
        have e : (decide (0 < a) || decide (a = 0)) = true := by simp [this]
        simp only [e, if_true]
        rw [abs_of_neg (by linarith)]; linarith

/-- The center that `handle_arc` uses. -/
noncomputable def arcCenter (st : State ℝ) (offset : Axes ℝ) : Axes ℝ := fun a =>
  if isLinear a then st.pos a + offset a else st.pos a

/-- An arc given by its radius is a part of a circle of this radius (up to a millionth) through both ends, at most a
half turn for a positive radius, at least a half turn for a negative one. -/
theorem C65_radius_arc (rn : RealNum fl) {st : State ℝ} {cw : Bool} {m : ArcWords ℝ} {offset : Axes ℝ}
    {ps : List (Axes ℝ)} (hm : m.haveIjk = false) (hr : m.radius ≠ 0) (ho : arcOffset fl st cw m = some offset)
    (h : arcGen fl st.arcNormal cw st.pos (arcCenter st offset) m.target = some ps) :
    radiusSq st.arcNormal (arcCenter st offset) m.target = radiusSq st.arcNormal (arcCenter st offset) st.pos ∧
    abs (sqrt (radiusSq st.arcNormal (arcCenter st offset) st.pos) - |m.radius|) ≤ |m.radius| / 1000000 ∧
    ∃ θ, IsArc st.arcNormal (if st.arcNormal = .Y then !cw else cw) st.pos (arcCenter st offset) m.target θ ps ∧
      (0 < m.radius → |θ| ≤ pi) ∧ (m.radius < 0 → pi ≤ |θ|) := by
  rcases hp : plane st.arcNormal with _ | ⟨p0, p1, p2⟩
  · rw [arcGen, hp] at h; cases h
  unfold arcOffset at ho
  rw [hp] at ho
  simp only [hm, Bool.false_eq_true, if_false] at ho
  cases hc : arcRadiusToCenter fl (st.pos p0) (st.pos p1) (m.target p0) (m.target p1) m.radius cw with
  | none => rw [hc] at ho; cases ho
  | some c =>
    obtain ⟨o0, o1⟩ := c
    rw [hc] at ho
    injection ho with ho
    obtain ⟨hon, hlen, hpos, hneg⟩ := C65_radius rn hr hc
    have c0 : arcCenter st offset p0 = st.pos p0 + o0 := by
      rw [← ho]
      cases hN : st.arcNormal <;> rw [hN] at hp <;> simp [plane] at hp <;> obtain ⟨rfl, rfl, rfl⟩ := hp <;>
        simp [arcCenter, isLinear, setAxis]
    have c1 : arcCenter st offset p1 = st.pos p1 + o1 := by
      rw [← ho]
      cases hN : st.arcNormal <;> rw [hN] at hp <;> simp [plane] at hp <;> obtain ⟨rfl, rfl, rfl⟩ := hp <;>
        simp [arcCenter, isLinear, setAxis]
    have hR : ∀ p, radiusSq st.arcNormal (arcCenter st offset) p =
        (p p0 - (st.pos p0 + o0)) ^ 2 + (p p1 - (st.pos p1 + o1)) ^ 2 := by
      intro p
      rw [← c0, ← c1]
      cases hN : st.arcNormal <;> rw [hN] at hp <;> simp [plane] at hp <;> obtain ⟨rfl, rfl, rfl⟩ := hp <;>
        simp [radiusSq]
    have hs : radiusSq st.arcNormal (arcCenter st offset) st.pos = o0 ^ 2 + o1 ^ 2 := by rw [hR]; ring
    have hang : arcAngle fl cw st.pos (arcCenter st offset) m.target p0 p1 =
        angularTravel fl cw (-o0) (-o1) (m.target p0 - (st.pos p0 + o0)) (m.target p1 - (st.pos p1 + o1)) := by
      unfold arcAngle
      rw [c0, c1]
      congr 1 <;> ring
    obtain ⟨n, h1, h2, h3, h4, h5⟩ := arcGen_angle rn hp h
    rw [← hang] at hpos hneg
    generalize arcAngle fl cw st.pos (arcCenter st offset) m.target p0 p1 = θ at *
    refine ⟨by rw [hs, hR, hon], by rw [hs]; exact hlen, ?_⟩
    by_cases hy : st.arcNormal = .Y
    · rw [if_pos hy]
      have e : handed st.arcNormal = -1 := by rw [hy]; rfl
      rw [e] at h2 h3
      simp only [neg_mul, one_mul] at h2 h3
      refine ⟨-θ, ⟨?_, h3, n, ?_, by rwa [neg_sq], by rwa [neg_sq]⟩, by rwa [abs_neg], by rwa [abs_neg]⟩
      · cases cw <;> simp at h1 ⊢ <;> constructor <;> linarith
      · rw [h2]; simp only [neg_mul]
    · rw [if_neg hy]
      have e : handed st.arcNormal = 1 := by
        cases hN : st.arcNormal <;> first | rfl | exact absurd hN hy
      rw [e] at h2 h3
      simp only [one_mul] at h2 h3
      exact ⟨θ, ⟨h1, h3, n, h2, h4, h5⟩, hpos, hneg⟩

/-- A radius is refused only for equal ends and if it is too small to reach the target. -/
theorem C65_refused (rn : RealNum fl) {s1 s2 e1 e2 r : ℝ} {cw : Bool} (hr : r ≠ 0) :
    arcRadiusToCenter fl s1 s2 e1 e2 r cw = none ↔
      (e1 = s1 ∧ e2 = s2) ∨ (1 + 1 / 1000000) * |r| < sqrt ((e1 - s1) ^ 2 + (e2 - s2) ^ 2) / 2 := by
  have hr0 : 0 < |r| := abs_pos.2 hr
  unfold arcRadiusToCenter
  simp only [rn.eq, rn.abs, rn.div, rn.add, rn.sub, rn.tenth, rn.hypot, rn.lt, rn.onePlus]
  have hhalf : sqrt (((e1 + s1) / (((20 : Int) : ℝ) / 10) - e1) ^ 2 + ((e2 + s2) / (((20 : Int) : ℝ) / 10) - e2) ^ 2) =
      sqrt ((e1 - s1) ^ 2 + (e2 - s2) ^ 2) / 2 := by
    have h0 : 0 ≤ (e1 - s1) ^ 2 + (e2 - s2) ^ 2 := by positivity
    rw [show ((e1 + s1) / (((20 : Int) : ℝ) / 10) - e1) ^ 2 + ((e2 + s2) / (((20 : Int) : ℝ) / 10) - e2) ^ 2 =
        (sqrt ((e1 - s1) ^ 2 + (e2 - s2) ^ 2) / 2) ^ 2 by rw [div_pow, Real.sq_sqrt h0]; push_cast; ring]
    exact Real.sqrt_sq (by positivity)
  rw [hhalf]
  by_cases h1 : e1 = s1 ∧ e2 = s2
  · simp [h1]
  · have : ¬ (decide (e1 = s1) && decide (e2 = s2)) = true := by simpa using h1
    rw [if_neg this]
    simp only [h1, false_or, decide_eq_true_eq, lt_div_iff₀ hr0]
    by_cases h2 : (1 + 1 / 1000000) * |r| < sqrt ((e1 - s1) ^ 2 + (e2 - s2) ^ 2) / 2
    · simp only [h2, if_true]
    · simp only [h2, if_false, reduceCtorEq]

/-- What `handle_arc` asks for after its words: the arc about `arcCenter`. -/
theorem C65_apply (rn : RealNum fl) (rc : Receiver ℝ) {st : State ℝ} {cw : Bool} {m : ArcWords ℝ} {offset : Axes ℝ}
    (hm : m.haveIjk ≠ m.haveR) (ht : m.turns = 1) (ho : arcOffset fl st cw m = some offset) :
    arcApply fl rc st cw m =
      reached (arcMove fl rc st m.feed st.arcNormal cw st.pos (arcCenter st offset) m.target) m.target := by
  unfold arcApply
  rw [if_neg hm, if_neg (by simp [ht]), ho]
  simp only [rn.add]
  rfl

/-! ### There is such an arithmetic -/

open Classical in
/-- The real numbers; what is not used for arcs and splines is arbitrary. -/
noncomputable def realNum : Num ℝ where
  zero := 0
  one := 1
  minusOne := -1
  half := 1 / 2
  minusHalf := -1 / 2
  lt a b := decide (a < b)
  eq a b := decide (a = b)
  add := (· + ·)
  sub := (· - ·)
  mul := (· * ·)
  div := (· / ·)
  fmod a _ := a
  pow a _ := a
  abs a := |a|
  floor a := ⌊a⌋
  ceil a := ⌈a⌉
  trunc a := ⌊a⌋
  exp := Real.exp
  log := Real.log
  sqrt := Real.sqrt
  sinDeg a := a
  cosDeg a := a
  tanDeg a := a
  asinDeg a := a
  acosDeg a := a
  atan2Deg a _ := a
  decimal _ := []
  strtof _ := none
  tenth n := (n : ℝ) / 10
  hundredth := 1 / 100
  toInt a := ⌊a⌋
  ofInt n := n
  neg a := -a
  hypot a b := Real.sqrt (a ^ 2 + b ^ 2)
  atan2 y x := Complex.arg ⟨x, y⟩
  cos := Real.cos
  sin := Real.sin
  asin := Real.arcsin
  twoPi := 2 * pi
  halfPi := pi / 2
  onePlus := 1 + 1 / 1000000
  oneMinus := 1 - 1 / 1000000
  tiny := 1 / 100000

theorem realNum_real : RealNum realNum := by
  constructor <;> intros <;> first | rfl | simp [realNum]

example : ∃ ps, arcGen realNum .Y true xzStart (fun _ => 0) xzTarget = some ps ∧
    ¬ ∃ θ, IsArc .Y true xzStart (fun _ => 0) xzTarget θ ps := C65_xz_wrong realNum_real

end BeagleG.Parser
