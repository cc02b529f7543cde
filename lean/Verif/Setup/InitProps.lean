import Verif.Setup.MappingProps
/-!
# C63: the checks before the machine runs

Which configurations `Init` accepts, and what it leaves behind.
-/
namespace BeagleG.Setup

open Text Hardware
open Planner (Axis Motor Arith)

variable {F : Type} (A : Arith F)

/-! ### Specification -/

/-- Is the probe speed to be replaced? -/
def probeUnusable (h : Hw F) (c : Machine F) (a : Axis) : Bool :=
  hasProbeSwitch h a && (A.le (c.maxProbeFeedrate a) (A.ofInt 0) || A.lt (c.maxFeedrate a) (c.maxProbeFeedrate a))

/-- The configuration with the corrections of `Init`. -/
def corrected (h : Hw F) (c : Machine F) : Machine F :=
  { c with
    stepsPerMm := fun a => A.abs (c.stepsPerMm a)
    maxProbeFeedrate := fun a => if probeUnusable A h c a then c.maxFeedrate a else c.maxProbeFeedrate a }

/-- The motors that are not mapped, in order. -/
def freeMotors (h : Hw F) : List Motor := (List.finRange 8).filter fun m => h.driverFlip m = 0

/-- Does the axis need a motor? -/
def needy (h : Hw F) (c : Machine F) (a : Axis) : Bool :=
  A.lt (A.ofInt 0) (A.abs (c.stepsPerMm a)) && !hasMotorFor h a

/-- The axes that need a motor, in order. -/
def needyAxes (h : Hw F) (c : Machine F) : List Axis := axes.filter (needy A h c)

/-- The configurations to be accepted. -/
structure Acceptable (h : Hw F) (c : Machine F) : Prop where
  steps : ∀ a, A.lt (c.stepsPerMm a) (A.ofInt 0) = false
  feedrate : ∀ a, A.lt (c.maxFeedrate a) (A.ofInt 0) = false
  acceleration : ∀ a, A.lt (c.acceleration a) (A.ofInt 0) = false
  /-- The switch for homing is there, except in a dry run. -/
  home : ∀ a, c.homingTrigger a = .none ∨ (c.homingTrigger a = .min ∧ (h.initialized = true → h.minEndstop a ≠ 0)) ∨
    (c.homingTrigger a = .max ∧ (h.initialized = true → h.maxEndstop a ≠ 0))
  clamp : ∀ l ∈ c.clampToRange, letter2axis l = some 2
  motors : (needyAxes A h c).length ≤ (freeMotors h).length
  /-- An axis with a motor moves. -/
  moving : ∀ a, hasMotorFor h a = true ∨ needy A h c a = true →
    A.le (A.abs (c.stepsPerMm a)) (A.ofInt 0) = false ∧ A.le (c.maxFeedrate a) (A.ofInt 0) = false

/-! ### The first loop -/

/-- The corrections for some axes. -/
def correctedFor (h : Hw F) (c : Machine F) (as : List Axis) : Machine F :=
  { c with
    stepsPerMm := fun a => if a ∈ as then A.abs (c.stepsPerMm a) else c.stepsPerMm a
    maxProbeFeedrate := fun a => if a ∈ as ∧ probeUnusable A h c a = true then c.maxFeedrate a else c.maxProbeFeedrate a }

theorem initAxis_spec (h : Hw F) (c : Machine F) (a : Axis) :
    initAxis A h c a = if A.lt (c.stepsPerMm a) (A.ofInt 0) = false ∧ A.lt (c.maxFeedrate a) (A.ofInt 0) = false ∧
      A.lt (c.acceleration a) (A.ofInt 0) = false then some (correctedFor A h c [a]) else none := by
  unfold initAxis
  dsimp only
  cases h1 : A.lt (c.stepsPerMm a) (A.ofInt 0) with
  | true => simp
  | false =>
    cases h2 : A.lt (c.maxFeedrate a) (A.ofInt 0) with
    | true => simp
    | false =>
      simp only [Bool.false_eq_true, if_false, true_and]
      have hput : put c.stepsPerMm a (A.abs (c.stepsPerMm a)) = fun b => if b ∈ [a] then A.abs (c.stepsPerMm b) else c.stepsPerMm b := by
        funext b
        unfold put
        by_cases e : b = a
        · subst e; simp
        · simp [e]
      cases hp : probeUnusable A h c a with
      | true =>
        have hp' := hp
        unfold probeUnusable at hp'
        rw [if_pos hp']
        dsimp only
        cases h3 : A.lt (c.acceleration a) (A.ofInt 0) with
        | true => simp
        | false =>
          simp only [Bool.false_eq_true, if_false, if_true, Option.some.injEq]
          unfold correctedFor
          rw [hput]
          congr 1
          funext b
          unfold put
          by_cases e : b = a
          · subst e; simp [hp]
          · simp [e]
      | false =>
        have hp' := hp
        unfold probeUnusable at hp'
        rw [hp']
        simp only [Bool.false_eq_true, if_false]
        cases h3 : A.lt (c.acceleration a) (A.ofInt 0) with
        | true => simp
        | false =>
          simp only [Bool.false_eq_true, if_false, if_true, Option.some.injEq]
          unfold correctedFor
          rw [hput]
          congr 1
          funext b
          by_cases e : b = a
          · subst e; simp [hp]
          · simp [e]

theorem correctedFor_append (h : Hw F) (c : Machine F) (as : List Axis) (a : Axis) (ha : a ∉ as) :
    correctedFor A h (correctedFor A h c [a]) as = correctedFor A h c (a :: as) := by
  unfold correctedFor probeUnusable
  dsimp only
  congr 1
  · funext b
    by_cases e : b = a
    · subst e; simp [ha]
    · simp [e]
  · funext b
    by_cases e : b = a
    · subst e; simp [ha]
    · simp [e]

theorem initAxes_spec (h : Hw F) : ∀ (as : List Axis) (c : Machine F), as.Nodup →
    (∀ c', initAxes A h c as = some c' ↔ (∀ a ∈ as, A.lt (c.stepsPerMm a) (A.ofInt 0) = false ∧
      A.lt (c.maxFeedrate a) (A.ofInt 0) = false ∧ A.lt (c.acceleration a) (A.ofInt 0) = false) ∧ c' = correctedFor A h c as)
  | [], c, _, c' => by
    have : correctedFor A h c [] = c := by unfold correctedFor; simp
    rw [this, initAxes]
    constructor
    · intro h; exact ⟨fun a ha => absurd ha (by simp), (Option.some.inj h).symm⟩
    · rintro ⟨_, rfl⟩; rfl
  | a :: as, c, hn, c' => by
    obtain ⟨hn1, hn2⟩ := List.nodup_cons.1 hn
    rw [initAxes, initAxis_spec]
    by_cases hc : A.lt (c.stepsPerMm a) (A.ofInt 0) = false ∧ A.lt (c.maxFeedrate a) (A.ofInt 0) = false ∧
      A.lt (c.acceleration a) (A.ofInt 0) = false
    · rw [if_pos hc, Option.bind_some, initAxes_spec h as _ hn2, correctedFor_append A h c as a hn1]
      refine and_congr_left fun _ => ?_
      have hs : ∀ b ∈ as, (correctedFor A h c [a]).stepsPerMm b = c.stepsPerMm b := by
        intro b hb
        have : b ≠ a := fun e => hn1 (e ▸ hb)
        simp [correctedFor, this]
      constructor
      · intro h1 b hb
        rcases List.mem_cons.1 hb with rfl | hb
        · exact hc
        · have := h1 b hb
          rw [hs b hb] at this
          exact this
      · intro h1 b hb
        rw [hs b hb]
        exact h1 b (by simp [hb])
    · rw [if_neg hc, Option.bind_none]
      constructor
      · intro h; cases h
      · rintro ⟨h1, _⟩; exact absurd (h1 a (by simp)) hc

theorem corrected_all (h : Hw F) (c : Machine F) : correctedFor A h c axes = corrected A h c := by
  have hm : ∀ a, a ∈ axes := List.mem_finRange
  unfold correctedFor corrected
  simp [hm]

/-! ### The motors -/

theorem firstFree_cons {h : Hw F} {m : Motor} {ms : List Motor} (hf : freeMotors h = m :: ms) :
    firstFreeMotor h = (m.val : Int) + 1 ∧ h.driverFlip m = 0 ∧
    ∀ (a : Axis), freeMotors (addMotorMapping h a ((m.val : Int) + 1) false).1 = ms := by
  have h1 : (List.finRange 8).find? (fun m => h.driverFlip m = 0) = some m := by
    rw [← List.head?_filter]
    show (freeMotors h).head? = _
    rw [hf]; rfl
  have h2 : h.driverFlip m = 0 := of_decide_eq_true (List.find?_some (p := fun m => decide (h.driverFlip m = 0)) h1)
  refine ⟨by unfold firstFreeMotor; rw [h1], h2, fun a => ?_⟩
  have hk : ∀ k, (addMotorMapping h a ((m.val : Int) + 1) false).1.driverFlip k = if k = m then 1 else h.driverFlip k := by
    intro k
    have := (apply_drives cramps h (.motor m a false) h2 k).2
    exact this
  have hnd : (freeMotors h).Nodup := (List.nodup_finRange 8).filter _
  have hstep : freeMotors (addMotorMapping h a ((m.val : Int) + 1) false).1 = (freeMotors h).filter (fun k => k ≠ m) := by
    unfold freeMotors
    rw [List.filter_filter]
    refine List.filter_congr fun k _ => ?_
    rw [hk]
    by_cases e : k = m
    · subst e; simp
    · simp [e]
  rw [hstep, hf]
  rw [hf] at hnd
  obtain ⟨n1, _⟩ := List.nodup_cons.1 hnd
  rw [List.filter_cons_of_neg (by simp), List.filter_eq_self]
  intro k hk'
  simp only [ne_eq, decide_not, Bool.not_eq_true', decide_eq_false_iff_not]
  rintro rfl
  exact n1 hk'

theorem hasMotor_iff (h : Hw F) (a : Axis) : hasMotorFor h a = true ↔ ∃ m, h.drives a m = true := by
  unfold hasMotorFor Hw.drives
  generalize h.axisToDriver a = x
  constructor
  · intro hx
    have hx : x ≠ 0 := by simpa using hx
    by_contra hn
    apply hx
    apply BitVec.eq_of_getLsbD_eq
    intro i hi
    have := fun h => hn ⟨⟨i, hi⟩, h⟩
    simpa using this
  · rintro ⟨m, hm⟩
    have : x ≠ 0 := by rintro rfl; simp at hm
    simpa using this

/-- Giving out motors. -/
def giveMotors (h : Hw F) (ps : List (Axis × Motor)) : Hw F :=
  ps.foldl (fun h p => (addMotorMapping h p.1 ((p.2.val : Int) + 1) false).1) h

/-- The body of the last loop, with the two questions about an axis as parameters. -/
def motorStep (w st : Axis → Bool) (s : Hw F × Nat) (a : Axis) : Hw F × Nat :=
  let s :=
    if w a && !hasMotorFor s.1 a then
      let m := firstFreeMotor s.1
      ((addMotorMapping s.1 a m false).1, if m = 0 then s.2 + 1 else s.2)
    else s
  if !hasMotorFor s.1 a then s
  else if st a then (s.1, s.2 + 1)
  else s

theorem firstFree_nil {h : Hw F} (hf : freeMotors h = []) : firstFreeMotor h = 0 := by
  have h1 : (List.finRange 8).find? (fun m => h.driverFlip m = 0) = none := by
    rw [← List.head?_filter]
    show (freeMotors h).head? = _
    rw [hf]; rfl
  unfold firstFreeMotor; rw [h1]

theorem hasMotor_add {h : Hw F} {a : Axis} {m : Motor} (hm : h.driverFlip m = 0) (b : Axis) :
    hasMotorFor (addMotorMapping h a ((m.val : Int) + 1) false).1 b = (hasMotorFor h b || decide (b = a)) := by
  have hd : ∀ k b, (addMotorMapping h a ((m.val : Int) + 1) false).1.drives b k = true ↔
      h.drives b k = true ∨ ∃ f, Line.motor m a false = .motor k b f :=
    fun k b => (apply_drives cramps h (.motor m a false) hm k).1 b
  rw [Bool.eq_iff_iff, hasMotor_iff, Bool.or_eq_true, hasMotor_iff, decide_eq_true_eq]
  constructor
  · rintro ⟨k, hk⟩
    rcases (hd k b).1 hk with hk | ⟨f, hf⟩
    · exact .inl ⟨k, hk⟩
    · cases hf; exact .inr rfl
  · rintro (⟨k, hk⟩ | rfl)
    · exact ⟨k, (hd k b).2 (.inl hk)⟩
    · exact ⟨m, (hd m b).2 (.inr ⟨false, rfl⟩)⟩

theorem motors_spec (w st : Axis → Bool) : ∀ (as : List Axis) (h : Hw F) (n : Nat), as.Nodup →
    (as.foldl (motorStep w st) (h, n)).1 = giveMotors h ((as.filter fun a => w a && !hasMotorFor h a).zip (freeMotors h)) ∧
    ((as.foldl (motorStep w st) (h, n)).2 = 0 ↔ n = 0 ∧
      (as.filter fun a => w a && !hasMotorFor h a).length ≤ (freeMotors h).length ∧
      ∀ a ∈ as, hasMotorFor h a = true ∨ w a = true → st a = false)
  | [], h, n, _ => ⟨rfl, by simp⟩
  | a :: as, h, n, hn => by
    obtain ⟨hn1, hn2⟩ := List.nodup_cons.1 hn
    rw [List.foldl_cons]
    cases hm : hasMotorFor h a with
    | true =>
      have hs : motorStep w st (h, n) a = (h, if st a then n + 1 else n) := by
        unfold motorStep; simp only [hm, Bool.not_true, Bool.and_false, Bool.false_eq_true, if_false]
        cases st a <;> rfl
      obtain ⟨i1, i2⟩ := motors_spec w st as h (if st a then n + 1 else n) hn2
      rw [hs, i1, i2, List.filter_cons_of_neg (by simp [hm])]
      refine ⟨rfl, ?_⟩
      rw [List.forall_mem_cons, hm]
      cases st a <;> simp
    | false =>
      cases hw : w a with
      | false =>
        have hs : motorStep w st (h, n) a = (h, n) := by
          unfold motorStep; simp only [hm, hw, Bool.false_and, Bool.false_eq_true, if_false, Bool.not_false, if_true]
        obtain ⟨i1, i2⟩ := motors_spec w st as h n hn2
        rw [hs, i1, i2, List.filter_cons_of_neg (by simp [hw])]
        refine ⟨rfl, ?_⟩
        rw [List.forall_mem_cons, hm, hw]
        simp
      | true =>
        rw [List.filter_cons_of_pos (by simp [hm, hw])]
        cases hf : freeMotors h with
        | nil =>
          have hs : motorStep w st (h, n) a = (h, n + 1) := by
            have h0 : addMotorMapping h a 0 false = (h, true) := rfl
            unfold motorStep
            simp only [hm, hw, Bool.not_false, Bool.and_self, if_true, firstFree_nil hf, h0]
          obtain ⟨i1, i2⟩ := motors_spec w st as h (n + 1) hn2
          rw [hs, i1, i2, hf]
          simp
        | cons m ms =>
          obtain ⟨f1, f2, f3⟩ := firstFree_cons hf
          have hma := hasMotor_add (a := a) f2
          have hs : motorStep w st (h, n) a =
              ((addMotorMapping h a ((m.val : Int) + 1) false).1, if st a then n + 1 else n) := by
            have h0 : ¬ ((m.val : Int) + 1 = 0) := by omega
            unfold motorStep
            simp only [hm, hw, Bool.not_false, Bool.and_self, if_true, f1, hma, decide_true, Bool.or_true, Bool.not_true,
              Bool.false_eq_true, if_false, if_neg h0]
            cases st a <;> rfl
          obtain ⟨i1, i2⟩ := motors_spec w st as (addMotorMapping h a ((m.val : Int) + 1) false).1 (if st a then n + 1 else n) hn2
          have hb : ∀ b ∈ as, hasMotorFor (addMotorMapping h a ((m.val : Int) + 1) false).1 b = hasMotorFor h b := by
            intro b hb
            have : b ≠ a := fun e => hn1 (e ▸ hb)
            rw [hma, decide_eq_false this, Bool.or_false]
          have hfil : (as.filter fun b => w b && !hasMotorFor (addMotorMapping h a ((m.val : Int) + 1) false).1 b) =
              as.filter fun b => w b && !hasMotorFor h b := by
            refine List.filter_congr fun b h' => ?_
            rw [hb b h']
          rw [hfil, f3] at i1 i2
          rw [hs, i1, i2]
          refine ⟨rfl, ?_⟩
          have hall : (∀ b ∈ as, hasMotorFor (addMotorMapping h a ((m.val : Int) + 1) false).1 b = true ∨ w b = true → st b = false) ↔
              ∀ b ∈ as, hasMotorFor h b = true ∨ w b = true → st b = false :=
            forall₂_congr fun b h' => by rw [hb b h']
          rw [hall, List.forall_mem_cons, hm, hw, List.length_cons, List.length_cons]
          cases st a <;> simp

/-! ### `Init` -/

theorem length_filter_zero {α : Type} (p : α → Bool) (l : List α) : (l.filter p).length = 0 ↔ ∀ x ∈ l, p x = false := by
  rw [List.length_eq_zero_iff, List.filter_eq_nil_iff]
  simp

theorem homeError_iff (h : Hw F) (c : Machine F) (a : Axis) : homeError h c a = false ↔
    c.homingTrigger a = .none ∨ (c.homingTrigger a = .min ∧ (h.initialized = true → h.minEndstop a ≠ 0)) ∨
    (c.homingTrigger a = .max ∧ (h.initialized = true → h.maxEndstop a ≠ 0)) := by
  unfold homeError
  cases c.homingTrigger a <;> simp only [hasSwitch] <;> cases h.initialized <;> simp

theorem clampError_iff (l : Byte) : clampError l = false ↔ letter2axis l = some 2 := by
  unfold clampError
  cases letter2axis l <;> simp

theorem init_eq (c : Machine F) (h : Hw F) (r : Ready F) : init A c h = some r ↔ Acceptable A h c ∧
    r = { config := corrected A h c, hw := giveMotors h ((needyAxes A h c).zip (freeMotors h)),
          g0 := g0Feedrate A c, clamped := clampedAxes c.clampToRange } := by
  have hmem : ∀ a, a ∈ axes := List.mem_finRange
  have hax := initAxes_spec A h axes c (List.nodup_finRange 10)
  obtain ⟨m1, m2⟩ := motors_spec (F := F) (fun a => A.lt (A.ofInt 0) (A.abs (c.stepsPerMm a)))
    (fun a => A.le (A.abs (c.stepsPerMm a)) (A.ofInt 0) || A.le (c.maxFeedrate a) (A.ofInt 0)) axes h
    ((axes.filter (homeError h (corrected A h c))).length + ((corrected A h c).clampToRange.filter clampError).length)
    (List.nodup_finRange 10)
  have hstep : initMotor A (corrected A h c) = motorStep (fun a => A.lt (A.ofInt 0) (A.abs (c.stepsPerMm a)))
    (fun a => A.le (A.abs (c.stepsPerMm a)) (A.ofInt 0) || A.le (c.maxFeedrate a) (A.ofInt 0)) := rfl
  rw [← hstep] at m1 m2
  have hacc : Acceptable A h c ↔ (∀ a ∈ axes, A.lt (c.stepsPerMm a) (A.ofInt 0) = false ∧
      A.lt (c.maxFeedrate a) (A.ofInt 0) = false ∧ A.lt (c.acceleration a) (A.ofInt 0) = false) ∧
      (axes.foldl (initMotor A (corrected A h c)) (h, (axes.filter (homeError h (corrected A h c))).length +
        ((corrected A h c).clampToRange.filter clampError).length)).2 = 0 := by
    rw [m2, Nat.add_eq_zero_iff, length_filter_zero, length_filter_zero]
    have hcl : (corrected A h c).clampToRange = c.clampToRange := rfl
    have hmov : ∀ a, (hasMotorFor h a = true ∨ A.lt (A.ofInt 0) (A.abs (c.stepsPerMm a)) = true) ↔
        (hasMotorFor h a = true ∨ needy A h c a = true) := by
      intro a
      unfold needy
      cases hasMotorFor h a <;> simp
    constructor
    · intro k
      refine ⟨fun a _ => ⟨k.steps a, k.feedrate a, k.acceleration a⟩, ⟨fun a _ => (homeError_iff h _ a).2 (k.home a),
        fun l hl => (clampError_iff l).2 (k.clamp l hl)⟩, k.motors, fun a _ ha => ?_⟩
      obtain ⟨k1, k2⟩ := k.moving a ((hmov a).1 ha)
      rw [k1, k2]; rfl
    · rintro ⟨k1, ⟨k2, k3⟩, k4, k5⟩
      refine ⟨fun a => (k1 a (hmem a)).1, fun a => (k1 a (hmem a)).2.1, fun a => (k1 a (hmem a)).2.2,
        fun a => (homeError_iff h _ a).1 (k2 a (hmem a)), fun l hl => (clampError_iff l).1 (k3 l hl), k4, fun a ha => ?_⟩
      have := k5 a (hmem a) ((hmov a).2 ha)
      rwa [Bool.or_eq_false_iff] at this
  rw [hacc]
  unfold init
  cases hi : initAxes A h c axes with
  | none =>
    constructor
    · intro h; cases h
    · rintro ⟨⟨k, _⟩, _⟩
      have := (hax _).2 ⟨k, rfl⟩
      rw [hi] at this; cases this
  | some c' =>
    obtain ⟨k, rfl⟩ := (hax c').1 hi
    rw [corrected_all]
    dsimp only
    by_cases h0 : (axes.foldl (initMotor A (corrected A h c)) (h, (axes.filter (homeError h (corrected A h c))).length +
        ((corrected A h c).clampToRange.filter clampError).length)).2 = 0
    · rw [if_neg (fun hn => hn h0), m1]
      constructor
      · intro hr; exact ⟨⟨k, h0⟩, (Option.some.inj hr).symm⟩
      · rintro ⟨_, rfl⟩; rfl
    · rw [if_pos h0]
      constructor
      · intro h; cases h
      · rintro ⟨⟨_, h⟩, _⟩; exact absurd h h0

/-- **C63, acceptance**: `Init` accepts exactly the acceptable configurations. -/
theorem C63_accepted (c : Machine F) (h : Hw F) : (init A c h).isSome = true ↔ Acceptable A h c := by
  rw [Option.isSome_iff_exists]
  constructor
  · rintro ⟨r, hr⟩; exact ((init_eq A c h r).1 hr).1
  · intro k; exact ⟨_, (init_eq A c h _).2 ⟨k, rfl⟩⟩

/-- Motors are given out as a relation. -/
theorem giveMotors_spec : ∀ (ps : List (Axis × Motor)) (h : Hw F), (ps.map Prod.snd).Nodup → (∀ p ∈ ps, h.driverFlip p.2 = 0) →
    (∀ a m, (giveMotors h ps).drives a m = true ↔ h.drives a m = true ∨ (a, m) ∈ ps) ∧
    (∀ m, (giveMotors h ps).driverFlip m = if m ∈ ps.map Prod.snd then 1 else h.driverFlip m) ∧
    ∃ f g, giveMotors h ps = { h with axisToDriver := f, driverFlip := g }
  | [], h, _, _ => ⟨fun _ _ => by simp [giveMotors], fun _ => by simp [giveMotors], h.axisToDriver, h.driverFlip, rfl⟩
  | (a, m) :: ps, h, hn, hp => by
    rw [List.map_cons, List.nodup_cons] at hn
    have hm : h.driverFlip m = 0 := hp (a, m) (by simp)
    have had := fun k => apply_drives cramps h (.motor m a false) hm k
    have hfl : ∀ k, (addMotorMapping h a ((m.val : Int) + 1) false).1.driverFlip k = if k = m then 1 else h.driverFlip k :=
      fun k => (had k).2
    have hdr : ∀ k b, (addMotorMapping h a ((m.val : Int) + 1) false).1.drives b k = true ↔
        h.drives b k = true ∨ ∃ f, Line.motor m a false = .motor k b f := fun k b => (had k).1 b
    obtain ⟨i1, i2, f, g, i3⟩ := giveMotors_spec ps (addMotorMapping h a ((m.val : Int) + 1) false).1 hn.2 (by
      intro p hp'
      have hne : p.2 ≠ m := by
        intro e
        apply hn.1
        show m ∈ ps.map Prod.snd
        rw [← e]
        exact List.mem_map_of_mem hp'
      rw [hfl, if_neg hne]
      exact hp p (by simp [hp']))
    have hcons : giveMotors h ((a, m) :: ps) = giveMotors (addMotorMapping h a ((m.val : Int) + 1) false).1 ps := rfl
    rw [hcons]
    refine ⟨fun b k => ?_, fun k => ?_, ?_⟩
    · rw [i1, hdr, or_assoc, List.mem_cons]
      refine or_congr Iff.rfl (or_congr ⟨?_, ?_⟩ Iff.rfl)
      · rintro ⟨f, hf⟩; cases hf; rfl
      · intro he; cases he; exact ⟨false, rfl⟩
    · rw [i2, hfl]
      by_cases e : k = m
      · subst e; simp
      · simp [e]
    · obtain ⟨f', g', hf⟩ := addMotor_fields h a ((m.val : Int) + 1) false
      exact ⟨f, g, by rw [i3, hf]⟩

theorem map_snd_zip_take {α β : Type} : ∀ (as : List α) (bs : List β), (as.zip bs).map Prod.snd = bs.take as.length
  | [], _ => by simp
  | _ :: _, [] => by simp
  | a :: as, b :: bs => by simp [map_snd_zip_take as bs]

theorem zip_ok (h : Hw F) (as : List Axis) : ((as.zip (freeMotors h)).map Prod.snd).Nodup ∧
    ∀ p ∈ as.zip (freeMotors h), h.driverFlip p.2 = 0 := by
  constructor
  · rw [map_snd_zip_take]
    exact ((List.nodup_finRange 8).filter _).sublist (List.take_sublist _ _)
  · rintro ⟨a, m⟩ hp
    have := (List.of_mem_zip hp).2
    exact of_decide_eq_true (List.mem_filter.1 this).2

/-- **C63, result**: the machine runs with the configuration of the file, with the steps per mm and the probe speed as
described; the motors are those mapped, and axes without a motor have got the free ones in order. -/
theorem C63_result {c : Machine F} {h : Hw F} {r : Ready F} (hr : init A c h = some r) :
    r.config = corrected A h c ∧
    (∀ a m, r.hw.drives a m = true ↔ h.drives a m = true ∨ (a, m) ∈ (needyAxes A h c).zip (freeMotors h)) ∧
    (∀ m, r.hw.driverFlip m = if m ∈ (freeMotors h).take (needyAxes A h c).length then 1 else h.driverFlip m) ∧
    (∃ f g, r.hw = { h with axisToDriver := f, driverFlip := g }) ∧
    (∀ a, r.clamped a = true ↔ a = 2 ∧ c.clampToRange ≠ []) := by
  obtain ⟨k, rfl⟩ := (init_eq A c h r).1 hr
  obtain ⟨z1, z2⟩ := zip_ok h (needyAxes A h c)
  obtain ⟨g1, g2, g3⟩ := giveMotors_spec _ h z1 z2
  refine ⟨rfl, g1, fun m => ?_, g3, fun a => ?_⟩
  · rw [← map_snd_zip_take]; exact g2 m
  · show clampedAxes c.clampToRange a = true ↔ _
    unfold clampedAxes
    rw [List.any_eq_true]
    constructor
    · rintro ⟨l, hl, hh⟩
      rw [Bool.and_eq_true, decide_eq_true_eq, decide_eq_true_eq] at hh
      exact ⟨hh.2, List.ne_nil_of_mem hl⟩
    · rintro ⟨rfl, hne⟩
      obtain ⟨l, hl⟩ := List.exists_mem_of_ne_nil _ hne
      exact ⟨l, hl, by rw [k.clamp l hl]; rfl⟩

end BeagleG.Setup
