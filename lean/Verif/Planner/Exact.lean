import Verif.Planner.Lemmas
import Mathlib.Algebra.Order.Field.Basic
import Mathlib.Tactic.Linarith
import Mathlib.Tactic.Ring
import Mathlib.Tactic.Positivity
import Mathlib.Tactic.FieldSimp
import Mathlib.Tactic.LinearCombination
/-!
# Speed planning in exact arithmetic

`Exact A` says that the operations of `A` are those of an ordered field with square roots and that
conversions to integers truncate and do not overflow. The reals are an instance (`RealProps`).
Nothing is said about `acos`, and `cos` only matters where stated.
-/
set_option linter.unusedSectionVars false

namespace BeagleG.Planner

variable {F : Type} [Field F] [LinearOrder F] [IsStrictOrderedRing F]

/-- The arithmetic is that of the field; nothing is rounded but where the code rounds to steps. -/
structure Exact (A : Arith F) : Prop where
  ofInt : ∀ n : Int, A.ofInt n = (n : F)
  add : ∀ a b, A.add a b = a + b
  sub : ∀ a b, A.sub a b = a - b
  mul : ∀ a b, A.mul a b = a * b
  div : ∀ a b, A.div a b = a / b
  abs : ∀ a, A.abs a = |a|
  lt : ∀ a b, A.lt a b = decide (a < b)
  le : ∀ a b, A.le a b = decide (a ≤ b)
  eq : ∀ a b, A.eq a b = decide (a = b)
  toFloat : ∀ a, A.toFloat a = a
  sqrt_nonneg : ∀ a, 0 ≤ a → 0 ≤ A.sqrt a
  sqrt_sq : ∀ a, 0 ≤ a → A.sqrt a * A.sqrt a = a
  trunc : ∀ a, 0 ≤ a → (A.toInt a : F) ≤ a ∧ a < (A.toInt a : F) + 1
  truncU : ∀ a, 0 ≤ a → (A.toU32 a : F) ≤ a ∧ a < (A.toU32 a : F) + 1
  near : ∀ a, (A.lround a : F) - 1 / 2 ≤ a ∧ a ≤ (A.lround a : F) + 1 / 2

variable {A : Arith F}

theorem Exact.lround_zero (ex : Exact A) : A.lround 0 = 0 := by
  obtain ⟨h1, h2⟩ := ex.near 0
  have h3 : (A.lround 0 : F) < ((1 : Int) : F) := by push_cast; linarith
  have h4 : ((-1 : Int) : F) < (A.lround 0 : F) := by push_cast; linarith
  have h5 := Int.cast_lt.1 h3
  have h6 := Int.cast_lt.1 h4
  omega

theorem Exact.zero (ex : Exact A) : A.zero = 0 := by simp [Arith.zero, ex.ofInt]

theorem Exact.min (ex : Exact A) (a b : F) : A.min a b = Min.min a b := by
  unfold Arith.min
  rw [ex.lt]
  by_cases h : b < a
  · simp [h, min_eq_right h.le]
  · simp [h, min_eq_left (not_lt.1 h)]

/-- A target the planner can work with; `n` is the number of steps of its defining axis. -/
structure Good (t : AxisTarget F) (n : Nat) : Prop where
  steps : (t.deltaSteps t.definingAxis).natAbs = n
  pos : 0 < n
  small : n < 2 ^ 31
  speed : 0 < t.speed
  start : 0 ≤ t.startSpeed
  accel : 0 < t.accel

/-- A segment on which nothing moves. -/
structure Still (seg : Segment F) : Prop where
  delta : ∀ a, seg.target.deltaSteps a = 0
  speed : seg.target.speed = 0
  start : seg.target.startSpeed = 0
  acc : seg.target.accel = 0
  accel : seg.planned.accel = 0
  travel : seg.planned.travel = 0
  decel : seg.planned.decel = 0
  v0 : seg.planned.v0 = 0
  v1 : seg.planned.v1 = 0
  v2 : seg.planned.v2 = 0

/-- The state of a segment between the backward and the forward pass. -/
structure BPlanned (seg : Segment F) (n : Nat) : Prop where
  good : Good seg.target n
  accel : seg.planned.accel = 0
  sum : seg.planned.travel + seg.planned.decel = n
  v0 : 0 ≤ seg.planned.v0
  v2 : 0 ≤ seg.planned.v2
  v21 : seg.planned.v2 ≤ seg.planned.v1
  v1 : 0 < seg.planned.v1
  limit : seg.planned.v1 ≤ seg.target.speed
  full : seg.planned.v2 * seg.planned.v2 + 2 * seg.target.accel * seg.planned.decel ≤
    seg.planned.v1 * seg.planned.v1
  down : seg.planned.v1 * seg.planned.v1 ≤
      seg.planned.v2 * seg.planned.v2 + 2 * seg.target.accel * seg.planned.decel ∨
    (seg.planned.decel = 0 ∧ seg.planned.v1 * seg.planned.v1 <
      seg.planned.v2 * seg.planned.v2 + 2 * seg.target.accel)

/-- A completely planned segment: the phases partition the steps of the defining axis, speeds are
ordered and limited, and the speeds can be reached within the phases. The two reachability
statements allow for less than the speed change of one step, because the number of steps of a phase
is truncated. -/
structure Sound (seg : Segment F) (n : Nat) : Prop where
  good : Good seg.target n
  sum : seg.planned.accel + seg.planned.travel + seg.planned.decel = n
  v0 : 0 ≤ seg.planned.v0
  v01 : seg.planned.v0 ≤ seg.planned.v1
  v2 : 0 ≤ seg.planned.v2
  v21 : seg.planned.v2 ≤ seg.planned.v1
  limit : seg.planned.v1 ≤ seg.target.speed
  up : seg.planned.v1 * seg.planned.v1 <
      seg.planned.v0 * seg.planned.v0 + 2 * seg.target.accel * (seg.planned.accel + 1)
  down : seg.planned.v1 * seg.planned.v1 ≤
      seg.planned.v2 * seg.planned.v2 + 2 * seg.target.accel * seg.planned.decel ∨
    (seg.planned.decel = 0 ∧ seg.planned.v1 * seg.planned.v1 <
      seg.planned.v2 * seg.planned.v2 + 2 * seg.target.accel)

theorem Good.own_factor (ex : Exact A) {t : AxisTarget F} {n : Nat} (h : Good t n) :
    speedFactorForAxis A t t.definingAxis = 1 := by
  unfold speedFactorForAxis
  rw [if_neg (by have := h.steps; have := h.pos; omega), if_pos rfl, ex.ofInt]
  simp

theorem factor_nonneg (ex : Exact A) (t : AxisTarget F) (a : Axis) : 0 ≤ speedFactorForAxis A t a := by
  unfold speedFactorForAxis
  split
  · rw [ex.zero]
  · split
    · rw [ex.ofInt]; simp
    · rw [ex.abs]; exact abs_nonneg _

/-- The exit speed fits the entry conditions of the next segment. -/
def Fits (A : Arith F) (p : Segment F) (s : Segment F) : Prop :=
  p.planned.v2 * speedFactorForAxis A p.target s.target.definingAxis ≤ s.target.startSpeed ∧
  p.planned.v2 * speedFactorForAxis A p.target s.target.definingAxis ≤ s.planned.v1

theorem rampSpeed_sq (ex : Exact A) {s v0 a : F} (hs : 0 ≤ s) (ha : 0 ≤ a) :
    0 ≤ rampSpeed A s v0 a ∧ rampSpeed A s v0 a * rampSpeed A s v0 a = v0 * v0 + 2 * a * s := by
  unfold rampSpeed
  simp only [ex.ofInt, ex.add, ex.mul]
  have h : 0 ≤ (((2 : Int) : F)) * a * s + v0 * v0 := by
    push_cast
    have := mul_self_nonneg v0
    positivity
  refine ⟨ex.sqrt_nonneg _ h, ?_⟩
  rw [ex.sqrt_sq _ h]
  push_cast
  ring

theorem rampDistance_eq (ex : Exact A) (v0 v1 a : F) :
    rampDistance A v0 v1 a = (v1 * v1 - v0 * v0) / (2 * a) := by
  unfold rampDistance
  simp only [ex.ofInt, ex.sub, ex.mul, ex.div]
  push_cast
  rfl

theorem sq_le {a b : F} (ha : 0 ≤ a) (h : a ≤ b) : a * a ≤ b * b := mul_le_mul h h ha (ha.trans h)

theorem le_of_sq {a b : F} (hb : 0 ≤ b) (h : a * a ≤ b * b) : a ≤ b := by
  by_contra hlt
  have := mul_lt_mul'' (not_le.1 hlt) (not_le.1 hlt) hb hb
  linarith

/-- `end_speed`, lines 714-724. -/
def endSpeedOf (A : Arith F) (t : AxisTarget F) (next : Option (Segment F)) : F :=
  let nextAxis := match next with
    | none => t.definingAxis
    | some n => n.target.definingAxis
  let nextV0 := match next with
    | none => A.zero
    | some n => A.min n.planned.v1 n.target.startSpeed
  let factor := speedFactorForAxis A t nextAxis
  if A.eq factor A.zero then A.zero else A.div nextV0 factor

theorem endSpeedOf_spec (ex : Exact A) {t : AxisTarget F} (next : Option (Segment F))
    (hn : ∀ s, next = some s → 0 ≤ s.planned.v1 ∧ 0 ≤ s.target.startSpeed) :
    0 ≤ endSpeedOf A t next ∧ (next = none → endSpeedOf A t next = 0) ∧
    ∀ v s, next = some s → v ≤ endSpeedOf A t next →
      v * speedFactorForAxis A t s.target.definingAxis ≤ s.target.startSpeed ∧
      v * speedFactorForAxis A t s.target.definingAxis ≤ s.planned.v1 := by
  unfold endSpeedOf
  cases next with
  | none =>
    simp only [ex.zero, ex.eq, ex.div, zero_div, ite_self]
    exact ⟨le_refl _, fun _ => trivial, fun v s h => by simp at h⟩
  | some s =>
    obtain ⟨h1, h2⟩ := hn s rfl
    have hf := factor_nonneg ex t s.target.definingAxis
    simp only [ex.zero, ex.eq, ex.div, ex.min, decide_eq_true_eq, reduceCtorEq, false_implies,
      true_and, Option.some.injEq]
    split
    · rename_i h0
      refine ⟨le_refl _, ?_⟩
      rintro v s' rfl hv
      rw [h0]; simp [h1, h2]
    · rename_i h0
      have hf' : 0 < speedFactorForAxis A t s.target.definingAxis := lt_of_le_of_ne hf (Ne.symm h0)
      refine ⟨div_nonneg (le_min h1 h2) hf, ?_⟩
      rintro v s' rfl hv
      rw [le_div_iff₀ hf'] at hv
      exact ⟨hv.trans (min_le_right _ _), hv.trans (min_le_left _ _)⟩

theorem u32_nat (n : Nat) (h : n < 2 ^ 32) : u32 (n : Int) = n := by
  unfold u32
  omega

/-- The backward pass on one segment. -/
theorem decel_spec (ex : Exact A) {seg : Segment F} {n : Nat} (hg : Good seg.target n)
    (hv0 : 0 ≤ seg.planned.v0) (next : Option (Segment F))
    (hn : ∀ s, next = some s → 0 ≤ s.planned.v1 ∧ 0 ≤ s.target.startSpeed) :
    ((decelerationPlan A seg next).2 = false → next.isSome ∧ ∀ s, next = some s → Fits A seg s) ∧
    ((decelerationPlan A seg next).2 = true →
      BPlanned { seg with planned := (decelerationPlan A seg next).1 } n ∧
      (decelerationPlan A seg next).1.v0 = seg.planned.v0 ∧
      (next = none → (decelerationPlan A seg next).1.v2 = 0) ∧
      ∀ s, next = some s → Fits A { seg with planned := (decelerationPlan A seg next).1 } s) := by
  obtain ⟨e0, elast, efit⟩ := endSpeedOf_spec ex (t := seg.target) next hn
  have hdef : decelerationPlan A seg next =
      (if A.eq seg.target.speed A.zero then (seg.planned, true)
      else
        let deltaSteps : Int := (seg.target.deltaSteps seg.target.definingAxis).natAbs
        if A.eq seg.planned.v2 (endSpeedOf A seg.target next) && next.isSome then (seg.planned, false)
        else if A.lt (endSpeedOf A seg.target next) seg.target.speed then
          let stepsToMax := A.toInt
            (rampDistance A (endSpeedOf A seg.target next) seg.target.speed seg.target.accel)
          let decel := if stepsToMax > deltaSteps then u32 deltaSteps else u32 stepsToMax
          ({ seg.planned with
              accel := 0
              decel := decel
              v1 := if stepsToMax > 0 then
                  rampSpeed A (A.ofInt decel) (endSpeedOf A seg.target next) seg.target.accel
                else seg.target.speed
              travel := u32 (deltaSteps - decel)
              v2 := (endSpeedOf A seg.target next) }, true)
        else
          ({ seg.planned with
              accel := 0, decel := 0, travel := u32 deltaSteps, v1 := seg.target.speed
              v2 := seg.target.speed }, true)) := rfl
  rw [hdef]
  clear hdef
  generalize endSpeedOf A seg.target next = e at *
  have hsp := hg.speed
  have ha := hg.accel
  rw [if_neg (by rw [ex.eq, ex.zero]; simp; exact hsp.ne')]
  simp only [hg.steps]
  by_cases hstop : (A.eq seg.planned.v2 e && next.isSome) = true
  · rw [if_pos hstop]
    simp only [Bool.and_eq_true, ex.eq, decide_eq_true_eq] at hstop
    refine ⟨fun _ => ⟨hstop.2, fun s hs => ?_⟩, by simp⟩
    exact efit _ s hs hstop.1.le
  · rw [if_neg hstop]
    by_cases hlt : e < seg.target.speed
    · rw [if_pos (by rw [ex.lt]; simpa using hlt)]
      refine ⟨by simp, fun _ => ?_⟩
      simp only
      rw [rampDistance_eq ex]
      have hsq := sq_le e0 hlt.le
      have hd0 : 0 ≤ (seg.target.speed * seg.target.speed - e * e) / (2 * seg.target.accel) :=
        div_nonneg (by linarith) (by linarith)
      obtain ⟨t1, t2⟩ := ex.trunc _ hd0
      generalize hk : A.toInt ((seg.target.speed * seg.target.speed - e * e) / (2 * seg.target.accel)) = k at *
      rw [le_div_iff₀ (by linarith)] at t1
      rw [div_lt_iff₀ (by linarith)] at t2
      have hk0 : 0 ≤ k := by
        by_contra h
        have h' : k + 1 ≤ 0 := by omega
        have h'' : (k : F) + 1 ≤ 0 := by exact_mod_cast h'
        have := mul_nonpos_of_nonpos_of_nonneg h'' (by linarith : 0 ≤ 2 * seg.target.accel)
        linarith
      obtain ⟨k, rfl⟩ := Int.eq_ofNat_of_zero_le hk0
      have hsmall := hg.small
      have hpos := hg.pos
      -- the number of deceleration steps
      obtain ⟨d, hd, hdn, hdk, hdz⟩ : ∃ d : Nat, (if (k : Int) > n then u32 n else u32 (k : Int)) = d ∧ d ≤ n ∧
          d ≤ k ∧ (0 < k → 0 < d) := by
        by_cases hc : (k : Int) > n
        · exact ⟨n, by rw [if_pos hc, u32_nat n (by omega)], le_refl _, by omega, fun _ => hpos⟩
        · exact ⟨k, by rw [if_neg hc, u32_nat k (by omega)], by omega, le_refl _, fun h => h⟩
      rw [hd]
      have htr : u32 ((n : Int) - (d : Nat)) = n - d := by
        rw [← Nat.cast_sub hdn, u32_nat _ (by omega)]
      rw [htr]
      have hdkF : (d : F) ≤ k := by exact_mod_cast hdk
      have hdF : (0 : F) ≤ d := by exact_mod_cast Nat.zero_le d
      simp only [Int.cast_natCast] at t1 t2
      obtain ⟨r0, r1⟩ := rampSpeed_sq ex (s := A.ofInt (d : Int)) (v0 := e) (a := seg.target.accel)
        (by rw [ex.ofInt]; simp) ha.le
      rw [ex.ofInt] at r0 r1 ⊢
      simp only [Int.cast_natCast] at r0 r1 ⊢
      generalize rampSpeed A (d : F) e seg.target.accel = r at *
      have hmul : (d : F) * (2 * seg.target.accel) ≤ k * (2 * seg.target.accel) :=
        mul_le_mul_of_nonneg_right hdkF (by linarith)
      refine ⟨?_, trivial, elast, fun s hs => efit _ s hs (le_refl _)⟩
      by_cases hkz : (k : Int) > 0
      · have hd1 : (1 : F) ≤ d := by exact_mod_cast hdz (by omega)
        have h2 : 2 * seg.target.accel * 1 ≤ 2 * seg.target.accel * d :=
          mul_le_mul_of_nonneg_left hd1 (by linarith)
        have her : e ≤ r := le_of_sq r0 (by rw [r1]; linarith)
        have hrs : r ≤ seg.target.speed := le_of_sq hsp.le (by rw [r1]; linarith)
        have hr : 0 < r := by
          rcases r0.lt_or_eq with h | h
          · exact h
          · rw [← h] at r1
            have := mul_self_nonneg e
            linarith
        refine ⟨hg, rfl, by simp only; omega, hv0, e0, ?_, ?_, ?_, ?_, ?_⟩
        · simp only; rw [if_pos hkz]; exact her
        · simp only; rw [if_pos hkz]; exact hr
        · simp only; rw [if_pos hkz]; exact hrs
        · simp only; rw [if_pos hkz]; exact r1.ge
        · simp only; rw [if_pos hkz]; exact .inl r1.le
      · have hkz' : k = 0 := by omega
        subst hkz'
        have hdz' : d = 0 := by omega
        subst hdz'
        refine ⟨hg, rfl, by simp only; omega, hv0, e0, ?_, ?_, ?_, ?_, ?_⟩
        · simp only; rw [if_neg hkz]; exact hlt.le
        · simp only; rw [if_neg hkz]; exact hsp
        · simp only; rw [if_neg hkz]
        · simp only; rw [if_neg hkz]; push_cast; linarith
        · simp only; rw [if_neg hkz]; exact .inr ⟨trivial, by push_cast at t2; linarith⟩
    · rw [if_neg (by rw [ex.lt]; simpa using hlt)]
      refine ⟨by simp, fun _ => ?_⟩
      simp only
      have hle := not_lt.1 hlt
      have hsmall := hg.small
      refine ⟨⟨hg, rfl, ?_, hv0, hsp.le, le_refl _, hsp, le_refl _, ?_, .inl ?_⟩, trivial, ?_, ?_⟩
      · simp only; rw [u32_nat n (by omega)]; rfl
      · simp
      · simp
      · intro h; rw [elast h] at hle; linarith
      · intro s hs; exact efit _ s hs hle

/-- The start speed used by `AccelerationPlanSegment`, lines 776-789. -/
def startOf (previous : Option (Segment F)) (seg : Segment F) : F :=
  match previous with
  | none => seg.planned.v0
  | some p => p.planned.v2

/-- `AccelerationPlanSegment` from line 790 on. -/
def accelBody (A : Arith F) (seg : Segment F) (startSpeed : F) : Profile F × Bool :=
  let target := seg.target
  let planned := seg.planned
  if A.eq planned.v1 A.zero then ({ planned with v0 := startSpeed }, false)
  else if A.le planned.v1 startSpeed then ({ planned with v0 := planned.v1, accel := 0 }, false)
  else
    let steps := planned.total
    let stepsToVmax := A.toU32 (rampDistance A startSpeed planned.v1 target.accel)
    if stepsToVmax ≤ planned.travel then
      ({ planned with v0 := startSpeed, accel := stepsToVmax
                      travel := planned.travel - stepsToVmax }, true)
    else
      let endSpeed := rampSpeed A (A.ofInt steps) startSpeed target.accel
      if A.lt planned.v2 endSpeed then
        let accel := A.toU32 (rampsIntersection A startSpeed planned.v2 target.accel (A.ofInt steps))
        let v1 := rampSpeed A (A.ofInt accel) startSpeed target.accel
        if A.le v1 planned.v2 then
          (⟨steps, 0, 0, startSpeed, v1, v1⟩, true)
        else
          (⟨accel, 0, u32 (steps - accel), startSpeed, v1, planned.v2⟩, true)
      else (⟨steps, 0, 0, startSpeed, endSpeed, endSpeed⟩, true)

theorem accelerationPlan_eq (previous : Option (Segment F)) (seg : Segment F) :
    accelerationPlan A previous seg = accelBody A seg
      (if A.eq (speedFactorForAxis A seg.target seg.target.definingAxis) A.zero then A.zero
      else A.div (startOf previous seg)
        (speedFactorForAxis A seg.target seg.target.definingAxis)) := rfl

/-- The forward pass on one segment. -/
theorem accel_spec (ex : Exact A) {seg : Segment F} {n : Nat} (hb : BPlanned seg n)
    (previous : Option (Segment F)) (hs0 : 0 ≤ startOf previous seg) :
    Sound { seg with planned := (accelerationPlan A previous seg).1 } n ∧
    (accelerationPlan A previous seg).1.v0 ≤ startOf previous seg ∧
    (accelerationPlan A previous seg).1.v2 ≤ seg.planned.v2 ∧
    ((accelerationPlan A previous seg).1.v0 = startOf previous seg ∨
      (accelerationPlan A previous seg).1.v1 = seg.planned.v1) := by
  have hg := hb.good
  have ha := hg.accel
  have hsmall := hg.small
  have hpos := hg.pos
  have hstart : (if A.eq (speedFactorForAxis A seg.target seg.target.definingAxis) A.zero then A.zero
      else A.div (startOf previous seg) (speedFactorForAxis A seg.target seg.target.definingAxis)) =
      startOf previous seg := by
    rw [hg.own_factor ex, ex.eq, ex.zero, ex.div]
    simp only [one_ne_zero, decide_false, Bool.false_eq_true, if_false, div_one]
  rw [accelerationPlan_eq, hstart]
  unfold accelBody
  simp only
  generalize startOf previous seg = v0 at *
  have h1 := hb.v1
  have hsum := hb.sum
  rw [if_neg (by rw [ex.eq, ex.zero]; simp; exact h1.ne')]
  by_cases hle : seg.planned.v1 ≤ v0
  · rw [if_pos (by rw [ex.le]; simpa using hle)]
    refine ⟨⟨hg, ?_, h1.le, le_refl _, hb.v2, hb.v21, hb.limit, ?_, hb.down⟩, hle, le_refl _, .inr rfl⟩
    · simp only; omega
    · simp only; push_cast; linarith
  · rw [if_neg (by rw [ex.le]; simpa using hle)]
    have hlt := not_le.1 hle
    have hsq := sq_le hs0 hlt.le
    have htot : seg.planned.total = n := by
      unfold Profile.total; rw [hb.accel]; omega
    rw [htot, rampDistance_eq ex]
    have hd0 : 0 ≤ (seg.planned.v1 * seg.planned.v1 - v0 * v0) / (2 * seg.target.accel) :=
      div_nonneg (by linarith) (by linarith)
    obtain ⟨t1, t2⟩ := ex.truncU _ hd0
    generalize A.toU32 ((seg.planned.v1 * seg.planned.v1 - v0 * v0) / (2 * seg.target.accel)) = k at *
    rw [div_lt_iff₀ (by linarith)] at t2
    by_cases hk : k ≤ seg.planned.travel
    · rw [if_pos hk]
      refine ⟨⟨hg, ?_, hs0, hlt.le, hb.v2, hb.v21, hb.limit, ?_, hb.down⟩, le_refl _, le_refl _, .inl rfl⟩
      · simp only; omega
      · simp only; linarith
    · rw [if_neg hk]
      have hnF : (0 : F) ≤ n := by exact_mod_cast Nat.zero_le n
      obtain ⟨e0, e1⟩ := rampSpeed_sq ex (s := A.ofInt (n : Int)) (v0 := v0) (a := seg.target.accel)
        (by rw [ex.ofInt]; simp) ha.le
      rw [ex.ofInt] at e0 e1 ⊢
      simp only [Int.cast_natCast] at e0 e1 ⊢
      generalize rampSpeed A (n : F) v0 seg.target.accel = e at *
      -- v1² ≤ v2² + 2 a n
      have hreach : seg.planned.v1 * seg.planned.v1 ≤
          seg.planned.v2 * seg.planned.v2 + 2 * seg.target.accel * n := by
        rcases hb.down with h | ⟨hz, h⟩
        · have : (seg.planned.decel : F) ≤ n := by exact_mod_cast (by omega)
          have := mul_le_mul_of_nonneg_left this (by linarith : 0 ≤ 2 * seg.target.accel)
          linarith
        · have : (1 : F) ≤ n := by exact_mod_cast hpos
          have := mul_le_mul_of_nonneg_left this (by linarith : 0 ≤ 2 * seg.target.accel)
          linarith
      by_cases hev : seg.planned.v2 < e
      · rw [if_pos (by rw [ex.lt]; simpa using hev)]
        -- the intersection of both ramps
        have hx : ∃ x : F, rampsIntersection A v0 seg.planned.v2 seg.target.accel (n : F) = x ∧ 0 ≤ x ∧
            x ≤ n ∧ v0 * v0 + 2 * seg.target.accel * x =
              seg.planned.v2 * seg.planned.v2 + 2 * seg.target.accel * (n - x) := by
          refine ⟨_, rfl, ?_⟩
          have hsqe := sq_le hb.v2 hev.le
          have hx' : rampsIntersection A v0 seg.planned.v2 seg.target.accel (n : F) =
              (n + (seg.planned.v2 * seg.planned.v2 - v0 * v0) / (2 * seg.target.accel)) / 2 := by
            unfold rampsIntersection
            simp only [ex.le, ex.lt, ex.add, ex.mul, ex.div, ex.sub, ex.ofInt, rampDistance_eq ex,
              decide_eq_true_eq]
            rcases lt_trichotomy v0 seg.planned.v2 with h | h | h
            · rw [if_pos h.le, if_pos h.le, if_pos h]; push_cast; ring
            · rw [h]; simp
            · rw [if_neg h.not_ge, if_neg h.not_ge, if_neg h.le.not_gt]; push_cast
              field_simp; ring
          rw [hx']
          have hden : (0 : F) < 2 * seg.target.accel := by linarith
          have hq : (seg.planned.v2 * seg.planned.v2 - v0 * v0) / (2 * seg.target.accel) ≤ n := by
            rw [div_le_iff₀ hden]; linarith
          have hq' : -(n : F) ≤ (seg.planned.v2 * seg.planned.v2 - v0 * v0) / (2 * seg.target.accel) := by
            rw [le_div_iff₀ hden]; linarith
          refine ⟨by linarith, by linarith, ?_⟩
          have : 2 * seg.target.accel *
              ((seg.planned.v2 * seg.planned.v2 - v0 * v0) / (2 * seg.target.accel)) =
              seg.planned.v2 * seg.planned.v2 - v0 * v0 := by field_simp
          linear_combination this
        obtain ⟨x, hxe, x0, xn, hxx⟩ := hx
        rw [hxe]
        obtain ⟨c1, c2⟩ := ex.truncU _ x0
        generalize A.toU32 x = c at *
        have hcn : c ≤ n := by
          have : (c : F) ≤ n := c1.trans xn
          exact_mod_cast this
        have hc0 : (0 : F) ≤ c := by exact_mod_cast Nat.zero_le c
        obtain ⟨r0, r1⟩ := rampSpeed_sq ex (s := A.ofInt (c : Int)) (v0 := v0) (a := seg.target.accel)
          (by rw [ex.ofInt]; simp) ha.le
        rw [ex.ofInt] at r0 r1 ⊢
        simp only [Int.cast_natCast] at r0 r1 ⊢
        generalize rampSpeed A (c : F) v0 seg.target.accel = r at *
        have hac : 0 ≤ 2 * seg.target.accel * (c : F) := by positivity
        have hax : 2 * seg.target.accel * (c : F) ≤ 2 * seg.target.accel * x :=
          mul_le_mul_of_nonneg_left c1 (by linarith)
        have han : 2 * seg.target.accel * (c : F) ≤ 2 * seg.target.accel * n :=
          mul_le_mul_of_nonneg_left (c1.trans xn) (by linarith)
        have hv0r : v0 ≤ r := le_of_sq r0 (by rw [r1]; linarith)
        -- at most the speed planned so far
        have hkn : (seg.planned.travel : F) + 1 ≤ k := by exact_mod_cast (by omega)
        have hrlim : r ≤ seg.planned.v1 := by
          have hf := hb.full
          have t3 : (k : F) * (2 * seg.target.accel) ≤ seg.planned.v1 * seg.planned.v1 - v0 * v0 := by
            rw [le_div_iff₀ (by linarith)] at t1; exact t1
          have hnsum : (n : F) = seg.planned.travel + seg.planned.decel := by
            rw [← hsum]; push_cast; rfl
          have hkm := mul_le_mul_of_nonneg_right hkn (by linarith : 0 ≤ 2 * seg.target.accel)
          refine le_of_sq h1.le ?_
          rw [r1]
          rw [hnsum] at hxx
          linarith
        by_cases hrv : r ≤ seg.planned.v2
        · rw [if_pos (by rw [ex.le]; simpa using hrv)]
          refine ⟨⟨hg, by simp, hs0, hv0r, r0, le_refl _, hrlim.trans hb.limit, ?_, .inl (by simp)⟩,
            le_refl _, hrv, .inl rfl⟩
          simp only
          rw [r1]
          linarith
        · rw [if_neg (by rw [ex.le]; simpa using hrv)]
          have hdec : u32 ((n : Int) - (c : Nat)) = n - c := by
            rw [← Nat.cast_sub hcn, u32_nat _ (by omega)]
          rw [hdec]
          refine ⟨⟨hg, by simp only; omega, hs0, hv0r, hb.v2, (not_le.1 hrv).le, hrlim.trans hb.limit,
            ?_, .inl ?_⟩, le_refl _, le_refl _, .inl rfl⟩
          · simp only; rw [r1]; linarith
          · simp only; rw [r1, Nat.cast_sub hcn]; linarith
      · rw [if_neg (by rw [ex.lt]; simpa using hev)]
        have hev' := not_lt.1 hev
        refine ⟨⟨hg, by simp, hs0, ?_, e0, le_refl _, ?_, ?_, .inl (by simp)⟩, le_refl _, hev', .inl rfl⟩
        · exact le_of_sq e0 (by
            have : 0 ≤ 2 * seg.target.accel * (n : F) := by positivity
            rw [e1]; linarith)
        · exact (hev'.trans hb.v21).trans hb.limit
        · simp only; rw [e1]; linarith

end BeagleG.Planner
