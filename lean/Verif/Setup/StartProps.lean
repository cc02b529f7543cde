import Verif.Setup.InitProps
import Verif.Setup.MachineProps
import Verif.Setup.Example
import Verif.Machine.HomingProps
import Verif.Machine.StopProps
import Verif.Planner.Exact
import Mathlib.Tactic.Linarith
/-!
# C63: starting up

What is known about the machine when the program has started.
-/
namespace BeagleG.Setup

open Text Hardware
open Config (Numbers)
open Planner (Axis Motor Arith Exact intArith)

variable {D F : Type}

/-! ### `main` -/

/-- The steps of the start, one after the other. -/
theorem startUp_eq (A : Arith F) (N : Numbers D F) (cape : Cape) (o : Options F) (content : List Byte) (h : Hw F)
    (both : Hw F → Bool) (r : Ready F) : startUp A N cape o content h both = some r ↔
      ∃ c0 c h1, o.machine A = some c0 ∧ configureMachine N c0 content = (true, c) ∧ configureHw cape h content = (true, h1) ∧
        (o.dryRun = false → both (initializeHardware cape h1) = false) ∧
        init A (o.override c) (if o.dryRun then h1 else initializeHardware cape h1) = some r := by
  unfold startUp
  cases ho : o.machine A with
  | none =>
    constructor
    · intro h; cases h
    · rintro ⟨_, _, _, h, _⟩; cases h
  | some c0 =>
    dsimp only
    rcases hc : configureMachine N c0 content with ⟨b, c⟩
    cases b with
    | false =>
      constructor
      · intro h; cases h
      · rintro ⟨_, _, _, h, h', _⟩
        cases h; rw [hc] at h'; cases h'
    | true =>
      rcases hh : configureHw cape h content with ⟨b, h1⟩
      cases b with
      | false =>
        constructor
        · intro h; cases h
        · rintro ⟨_, _, _, _, _, h', _⟩
          cases h'
      | true =>
        simp only [Bool.not_true, Bool.false_eq_true, if_false]
        cases hd : o.dryRun with
        | true =>
          simp only [if_true]
          constructor
          · intro hr; exact ⟨c0, c, h1, rfl, hc, rfl, fun h => (by cases h), hr⟩
          · rintro ⟨c0', c', h1', e1, e2, e3, _, hr⟩
            cases e1; rw [hc] at e2; cases e2; cases e3; exact hr
        | false =>
          simp only [Bool.false_eq_true, if_false]
          constructor
          · intro hr
            split at hr
            · cases hr
            · rename_i hb
              exact ⟨c0, c, h1, rfl, hc, rfl, fun _ => (by simpa using hb), hr⟩
          · rintro ⟨c0', c', h1', e1, e2, e3, hb, hr⟩
            cases e1; rw [hc] at e2; cases e2; cases e3
            rw [hb trivial]
            exact hr

/-- **C63, options**: what was asked for on the command line is what the machine runs with, whatever the file says;
contradictory homing options, a speed factor that is not positive and angles of 90 degrees or more are refused. -/
theorem C63_options (A : Arith F) (N : Numbers D F) {cape : Cape} {o : Options F} {content : List Byte} {h : Hw F}
    {both : Hw F → Bool} {r : Ready F} (hr : startUp A N cape o content h both = some r) :
    (o.requireHoming = true → r.config.requireHoming = true) ∧
    (o.dontRequireHoming = true → r.config.requireHoming = false) ∧
    ¬(o.requireHoming = true ∧ o.dontRequireHoming = true) ∧
    (o.disableRangeCheck = true → r.config.rangeCheck = false) ∧
    r.config.speedFactor = o.speedFactor.getD (A.ofInt 1) ∧
    (∀ f, o.speedFactor = some f → A.le f (A.ofInt 0) = false) ∧
    r.config.thresholdAngle = o.thresholdAngle.getD (A.ofInt 10) ∧
    r.config.speedTuneAngle = o.speedTuneAngle.getD (A.ofInt 60) ∧
    A.le (A.ofInt 90) (A.add r.config.thresholdAngle r.config.speedTuneAngle) = false := by
  obtain ⟨c0, c, h1, e1, e2, e3, _, hi⟩ := (startUp_eq A N cape o content h both r).1 hr
  obtain ⟨u1, u2, u3⟩ := C61_untouched N e2
  have hcfg := (C63_result A hi).1
  unfold Options.machine at e1
  dsimp only at e1
  split at e1
  · cases e1
  · rename_i k1
    split at e1
    · cases e1
    · rename_i k2
      split at e1
      · cases e1
      · rename_i k3
        cases e1
        have o1 : (o.override c).speedFactor = c.speedFactor ∧ (o.override c).thresholdAngle = c.thresholdAngle ∧
            (o.override c).speedTuneAngle = c.speedTuneAngle := by
          unfold Options.override
          cases o.requireHoming <;> cases o.dontRequireHoming <;> cases o.disableRangeCheck <;> exact ⟨rfl, rfl, rfl⟩
        have k3' : ¬(o.requireHoming = true ∧ o.dontRequireHoming = true) := by
          rw [← Bool.and_eq_true]; exact k3
        rw [hcfg]
        refine ⟨fun h => ?_, fun h => ?_, k3', fun h => ?_, ?_, fun f hf => ?_, ?_, ?_, ?_⟩
        · have : o.dontRequireHoming = false := by
            cases hd : o.dontRequireHoming with
            | false => rfl
            | true => exact absurd ⟨h, hd⟩ k3'
          show (o.override c).requireHoming = true
          unfold Options.override
          rw [h, this]
          cases o.disableRangeCheck <;> rfl
        · show (o.override c).requireHoming = false
          unfold Options.override
          rw [h]
          cases o.requireHoming <;> cases o.disableRangeCheck <;> rfl
        · show (o.override c).rangeCheck = false
          unfold Options.override
          rw [h]; rfl
        · exact o1.1.trans u1
        · rw [hf] at k1
          simpa using k1
        · exact o1.2.1.trans u2
        · exact o1.2.2.trans u3
        · show A.le _ (A.add (o.override c).thresholdAngle (o.override c).speedTuneAngle) = false
          rw [o1.2.1, o1.2.2, u2, u3]
          simpa using k2

/-! ### Initialised hardware -/

theorem pwmStop_fields (c : Cape) : ∀ (l : List (Fin 4)) (h : Hw F), ∃ f,
    l.foldl (fun h i => pwmStart h (c.pwm i) false) h = { h with pwmOn := f } ∧
    (∀ p, f p = true → h.pwmOn p = true) ∧ ∀ i ∈ l, c.pwm i ≠ 0 → f (c.pwm i) = false
  | [], h => ⟨h.pwmOn, rfl, fun _ h => h, fun i hi => absurd hi (by simp)⟩
  | i :: l, h => by
    rw [List.foldl_cons]
    obtain ⟨f, h1, h2, h3⟩ := pwmStop_fields c l (pwmStart h (c.pwm i) false)
    by_cases h0 : c.pwm i = 0
    · have hs : pwmStart h (c.pwm i) false = h := by unfold pwmStart; rw [if_pos h0]
      rw [hs] at h1 h2 ⊢
      refine ⟨f, h1, h2, fun j hj hn => ?_⟩
      rcases List.mem_cons.1 hj with rfl | hj
      · exact absurd h0 hn
      · exact h3 j hj hn
    · have hs : pwmStart h (c.pwm i) false = { h with pwmOn := fun p => if p = c.pwm i then false else h.pwmOn p } := by
        unfold pwmStart; rw [if_neg h0]
      rw [hs] at h1 h2 ⊢
      refine ⟨f, h1, fun p hp => ?_, fun j hj hn => ?_⟩
      · have := h2 p hp
        dsimp only at this
        split at this
        · cases this
        · exact this
      · rcases List.mem_cons.1 hj with rfl | hj
        · cases hf : f (c.pwm j) with
          | false => rfl
          | true => have := h2 _ hf; simp at this
        · exact h3 j hj hn

theorem write_fields (h : Hw F) (p : Nat) (v : Bool) : ∃ f, h.write p v = { h with level := f } := by
  unfold Hw.write
  split
  · exact ⟨h.level, rfl⟩
  · exact ⟨_, rfl⟩

theorem writes_fields (pin : Fin 16 → Nat) (v : Fin 16 → Bool) : ∀ (l : List (Fin 16)) (h : Hw F), ∃ f,
    l.foldl (fun h i => h.write (pin i) (v i)) h = { h with level := f }
  | [], h => ⟨h.level, rfl⟩
  | i :: l, h => by
    rw [List.foldl_cons]
    obtain ⟨f, hf⟩ := write_fields h (pin i) (v i)
    obtain ⟨g, hg⟩ := writes_fields pin v l (h.write (pin i) (v i))
    exact ⟨g, by rw [hg, hf]⟩

/-- Initialising changes the outputs only. -/
theorem initHw_fields (c : Cape) (h : Hw F) : ∃ lv pw, initializeHardware c h =
    { h with estop := true, initialized := true, motorsEnabled := false, auxBits := 0, level := lv, pwmOn := pw } ∧
    ∀ i, c.pwm i ≠ 0 → pw (c.pwm i) = false := by
  unfold initializeHardware resetHardware
  simp only [Bool.not_true, Bool.false_eq_true, if_false]
  obtain ⟨pw, h1, _, h3⟩ := pwmStop_fields c (List.finRange 4)
    (enableMotors c (setAuxOutputs c { h with estop := true, initialized := true, auxBits := 0 }) false)
  rw [h1]
  obtain ⟨l1, g1⟩ : ∃ f, setAuxOutputs c { h with estop := true, initialized := true, auxBits := 0 } =
      { h with estop := true, initialized := true, auxBits := 0, level := f } := by
    unfold setAuxOutputs
    simp only [Bool.not_true, Bool.false_eq_true, if_false]
    obtain ⟨f, hf⟩ := writes_fields c.aux (fun i => (0#16 : BitVec 16).getLsbD i.val) (List.finRange 16)
      { h with estop := true, initialized := true, auxBits := 0 }
    exact ⟨f, hf⟩
  rw [g1]
  unfold enableMotors
  simp only [Bool.not_true, Bool.false_eq_true, if_false, Bool.false_and]
  obtain ⟨l2, g2⟩ := write_fields { h with estop := true, initialized := true, auxBits := 0, level := l1 } c.motorEnable
    (!(false ^^ c.activeHigh))
  rw [g2]
  exact ⟨l2, pw, rfl, fun i hi => h3 i (List.mem_finRange i) hi⟩

/-- Fields of the mapping. -/
theorem initHw_map (c : Cape) (h : Hw F) : (initializeHardware c h).axisToDriver = h.axisToDriver ∧
    (initializeHardware c h).driverFlip = h.driverFlip ∧ (initializeHardware c h).minEndstop = h.minEndstop ∧
    (initializeHardware c h).maxEndstop = h.maxEndstop ∧ (initializeHardware c h).initialized = true := by
  obtain ⟨lv, pw, h1, _⟩ := initHw_fields c h
  rw [h1]
  exact ⟨rfl, rfl, rfl, rfl, rfl⟩

theorem mapOk_give {h : Hw F} (ok : h.MapOk) (ps : List (Axis × Motor)) : (giveMotors h ps).MapOk := by
  induction ps generalizing h with
  | nil => exact ok
  | cons p ps ih => exact ih (mapOk_add ok ⟨p.1, (p.2.val : Int) + 1, false⟩)

/-- **C63, mapping**: when the program has started, no motor belongs to two axes, and a motor belongs to an axis exactly
if it is in use. -/
theorem C63_one_axis (A : Arith F) (N : Numbers D F) {cape : Cape} {o : Options F} {content : List Byte} {h : Hw F}
    {both : Hw F → Bool} {r : Ready F} (ok : h.MapOk) (hr : startUp A N cape o content h both = some r) : r.hw.MapOk := by
  obtain ⟨c0, c, h1, e1, e2, e3, _, hi⟩ := (startUp_eq A N cape o content h both r).1 hr
  have m1 := C62_one_axis e3 ok
  obtain ⟨_, rfl⟩ := (init_eq A _ _ r).1 hi
  refine mapOk_give ?_ _
  split
  · exact m1
  · obtain ⟨a1, a2, _⟩ := initHw_map cape h1
    unfold Hw.MapOk Hw.drives
    rw [a1, a2]
    exact m1

/-- **C63, safe**: when the program has started (and not as a dry run), the machine is in emergency stop, the motors are
off and no timer of an output is running. -/
theorem C63_safe (A : Arith F) (N : Numbers D F) {cape : Cape} (hc : Machine.Sane cape) {o : Options F} {content : List Byte}
    {h : Hw F} {both : Hw F → Bool} {r : Ready F} (hd : o.dryRun = false) (hr : startUp A N cape o content h both = some r) :
    Machine.Stopped cape r.hw ∧ r.hw.auxBits = 0 ∧ ∀ i, cape.pwm i ≠ 0 → r.hw.pwmOn (cape.pwm i) = false := by
  obtain ⟨c0, c, h1, e1, e2, e3, _, hi⟩ := (startUp_eq A N cape o content h both r).1 hr
  obtain ⟨_, _, _, ⟨f, g, hf⟩, _⟩ := C63_result A hi
  rw [hd] at hf
  simp only [Bool.false_eq_true, if_false] at hf
  have hs := Machine.C35_initial cape hc h1
  obtain ⟨lv, pw, k1, k2⟩ := initHw_fields cape h1
  rw [hf]
  refine ⟨⟨hs.initialized, hs.estop, hs.off⟩, ?_, fun i h0 => ?_⟩
  · show (initializeHardware cape h1).auxBits = 0
    rw [k1]
  · show (initializeHardware cape h1).pwmOn (cape.pwm i) = false
    rw [k1]; exact k2 i h0

/-- **C63, homing**: when the program has started (and not as a dry run), the switch of every axis with a home position is
configured and connected: this is what C60 needs. -/
theorem C63_wired {β σ : Type} (A : Arith F) (N : Numbers D F) {cape : Cape} {o : Options F} {content : List Byte} {h : Hw F}
    {both : Hw F → Bool} {r : Ready F} (hcon : Connected cape h) (hd : o.dryRun = false)
    (hr : startUp A N cape o content h both = some r) (e : Machine.Env F β σ) (hcfg : e.cfg = r.machine) (hcape : e.cape = cape) :
    Machine.Wired e r.hw := by
  obtain ⟨c0, c, h1, e1, e2, e3, _, hi⟩ := (startUp_eq A N cape o content h both r).1 hr
  have hk := ((init_eq A _ _ r).1 hi).1.home
  obtain ⟨rc, _, _, ⟨f, g, hf⟩, _⟩ := C63_result A hi
  rw [hd] at hf hk
  simp only [Bool.false_eq_true, if_false] at hf hk
  obtain ⟨_, _, a3, a4, a5⟩ := initHw_map cape h1
  have con := C62_connected e3 hcon
  have m1 : r.hw.minEndstop = h1.minEndstop := by rw [hf]; exact a3
  have m2 : r.hw.maxEndstop = h1.maxEndstop := by rw [hf]; exact a4
  have m3 : r.hw.initialized = true := by rw [hf]; exact a5
  rw [a3, a4, a5] at hk
  refine ⟨m3, fun a ha => ?_⟩
  have ht : e.cfg.homingTrigger a = ((o.override c).homingTrigger a).trigger := by
    rw [hcfg]
    show (r.config.homingTrigger a).trigger = _
    rw [rc]; rfl
  rw [ht] at ha
  rw [hcape, ht]
  rcases hk a with k | ⟨k, k'⟩ | ⟨k, k'⟩
  · rw [k] at ha; exact absurd rfl ha
  · rw [k]
    show cape.switchPin (r.hw.minEndstop a) ≠ 0
    rw [m1]
    exact ((con a).1).resolve_left (k' rfl)
  · rw [k]
    show cape.switchPin (r.hw.maxEndstop a) ≠ 0
    rw [m2]
    exact ((con a).2).resolve_left (k' rfl)

/-- The mapping as constructed. -/
theorem blank_ok [Inhabited F] (c : Cape) : Connected c (Hw.blank F) ∧ (Hw.blank F).MapOk :=
  ⟨fun _ => ⟨.inl rfl, .inl rfl⟩, fun a b m h => by simp [Hw.drives, Hw.blank] at h, fun m => by simp [Hw.drives, Hw.blank]⟩

/-! ### Numbers -/

section
variable [Field F] [LinearOrder F] [IsStrictOrderedRing F] {A : Arith F}

omit [IsStrictOrderedRing F] in
theorem g0_max (ex : Exact A) (v : Axis → F) : ∀ (as : List Axis) (g : F),
    let r := as.foldl (fun g a => if A.lt (v a) g then g else v a) g
    g ≤ r ∧ (∀ a ∈ as, v a ≤ r) ∧ (r = g ∨ ∃ a ∈ as, r = v a)
  | [], g => ⟨le_refl _, fun _ h => absurd h (by simp), .inl rfl⟩
  | a :: as, g => by
    intro r
    obtain ⟨i1, i2, i3⟩ := g0_max ex v as (if A.lt (v a) g then g else v a)
    have hr : r = as.foldl (fun g a => if A.lt (v a) g then g else v a) (if A.lt (v a) g then g else v a) := rfl
    rw [← hr] at i1 i2 i3
    rw [ex.lt] at i1 i3
    by_cases hl : v a < g
    · rw [decide_eq_true hl, if_pos rfl] at i1 i3
      refine ⟨i1, fun b hb => ?_, ?_⟩
      · rcases List.mem_cons.1 hb with rfl | hb
        · exact (le_of_lt hl).trans i1
        · exact i2 b hb
      · rcases i3 with i3 | ⟨b, hb, i3⟩
        · exact .inl i3
        · exact .inr ⟨b, by simp [hb], i3⟩
    · rw [decide_eq_false hl, if_neg (by decide)] at i1 i3
      refine ⟨(not_lt.1 hl).trans i1, fun b hb => ?_, ?_⟩
      · rcases List.mem_cons.1 hb with rfl | hb
        · exact i1
        · exact i2 b hb
      · rcases i3 with i3 | ⟨b, hb, i3⟩
        · exact .inr ⟨a, by simp, i3⟩
        · exact .inr ⟨b, by simp [hb], i3⟩

/-- **C63, numbers**: in exact arithmetic, the speed of rapid moves is the highest of the axes; nothing is negative; axes
with a motor have a positive resolution and speed, and an axis with a resolution has a motor; the probe is not moved faster
than its axis allows. The settings are those of the file. -/
theorem C63_numbers_partial (ex : Exact A) {c : Machine F} {h : Hw F} {r : Ready F} (hr : init A c h = some r) :
    (∀ a, r.config.maxFeedrate a ≤ r.g0) ∧ (∃ a, r.g0 = r.config.maxFeedrate a) ∧
    (∀ a, 0 ≤ r.config.stepsPerMm a ∧ 0 ≤ r.config.maxFeedrate a ∧ 0 ≤ r.config.acceleration a) ∧
    (∀ a, hasMotorFor r.hw a = true → 0 < r.config.stepsPerMm a ∧ 0 < r.config.maxFeedrate a) ∧
    (∀ a, 0 < r.config.stepsPerMm a → hasMotorFor r.hw a = true) ∧
    (h.probeInput ≠ 0 → r.config.maxProbeFeedrate 2 ≤ r.config.maxFeedrate 2 ∧
      (0 < r.config.maxFeedrate 2 → 0 < r.config.maxProbeFeedrate 2)) ∧
    r.config.stepsPerMm = c.stepsPerMm ∧ r.config.maxFeedrate = c.maxFeedrate ∧ r.config.acceleration = c.acceleration := by
  obtain ⟨k, rfl⟩ := (init_eq A c h r).1 hr
  have z : A.ofInt 0 = 0 := by rw [ex.ofInt]; simp
  have k1 : ∀ a, 0 ≤ c.stepsPerMm a := fun a => by have := k.steps a; rw [z, ex.lt] at this; simpa using this
  have k2 : ∀ a, 0 ≤ c.maxFeedrate a := fun a => by have := k.feedrate a; rw [z, ex.lt] at this; simpa using this
  have k3 : ∀ a, 0 ≤ c.acceleration a := fun a => by have := k.acceleration a; rw [z, ex.lt] at this; simpa using this
  have kabs : ∀ a, A.abs (c.stepsPerMm a) = c.stepsPerMm a := fun a => by rw [ex.abs, abs_of_nonneg (k1 a)]
  have hsteps : (corrected A h c).stepsPerMm = c.stepsPerMm := funext kabs
  obtain ⟨g1, g2, g3⟩ := g0_max ex c.maxFeedrate axes (A.ofInt (-1))
  obtain ⟨z1, z2⟩ := zip_ok h (needyAxes A h c)
  obtain ⟨d1, _, _⟩ := giveMotors_spec _ h z1 z2
  have hneedy : ∀ a, needy A h c a = true ↔ 0 < c.stepsPerMm a ∧ hasMotorFor h a = false := by
    intro a
    unfold needy
    rw [z, kabs, ex.lt, Bool.and_eq_true, decide_eq_true_eq, Bool.not_eq_true']
  have hmotor : ∀ a, hasMotorFor (giveMotors h ((needyAxes A h c).zip (freeMotors h))) a = true ↔
      hasMotorFor h a = true ∨ needy A h c a = true := by
    intro a
    rw [hasMotor_iff, hasMotor_iff]
    constructor
    · rintro ⟨m, hm⟩
      rcases (d1 a m).1 hm with hm | hm
      · exact .inl ⟨m, hm⟩
      · exact .inr (List.mem_filter.1 (List.of_mem_zip hm).1).2
    · rintro (⟨m, hm⟩ | hn)
      · exact ⟨m, (d1 a m).2 (.inl hm)⟩
      · have ha : a ∈ needyAxes A h c := List.mem_filter.2 ⟨List.mem_finRange a, hn⟩
        obtain ⟨i, hi, rfl⟩ := List.getElem_of_mem ha
        have hi' : i < (freeMotors h).length := lt_of_lt_of_le hi k.motors
        refine ⟨(freeMotors h)[i], (d1 _ _).2 (.inr ?_)⟩
        rw [List.mem_iff_getElem]
        exact ⟨i, by rw [List.length_zip]; omega, by rw [List.getElem_zip]⟩
  refine ⟨fun a => g2 a (List.mem_finRange a), ?_, fun a => ⟨?_, k2 a, k3 a⟩, fun a ha => ?_, fun a ha => ?_, fun hp => ?_,
    hsteps, rfl, rfl⟩
  · rcases g3 with g3 | ⟨a, _, g3⟩
    · have h1 := g2 0 (List.mem_finRange 0)
      rw [g3, ex.ofInt] at h1
      have h2 := k2 0
      push_cast at h1
      linarith
    · exact ⟨a, g3⟩
  · show 0 ≤ (corrected A h c).stepsPerMm a
    rw [hsteps]; exact k1 a
  · obtain ⟨h1, h2⟩ := k.moving a ((hmotor a).1 ha)
    rw [z, ex.le] at h1 h2
    rw [kabs] at h1
    show 0 < (corrected A h c).stepsPerMm a ∧ 0 < c.maxFeedrate a
    rw [hsteps]
    exact ⟨by simpa using h1, by simpa using h2⟩
  · have ha : 0 < (corrected A h c).stepsPerMm a := ha
    rw [hsteps] at ha
    refine (hmotor a).2 ?_
    cases hm : hasMotorFor h a with
    | true => exact .inl rfl
    | false => exact .inr ((hneedy a).2 ⟨ha, hm⟩)
  · have ha : hasProbeSwitch h 2 = true := by simp [hasProbeSwitch, hp]
    generalize (2 : Axis) = a at ha ⊢
    show (if probeUnusable A h c a then c.maxFeedrate a else c.maxProbeFeedrate a) ≤ c.maxFeedrate a ∧
      (0 < c.maxFeedrate a → 0 < if probeUnusable A h c a then c.maxFeedrate a else c.maxProbeFeedrate a)
    unfold probeUnusable
    rw [ha, z, ex.le, ex.lt, Bool.true_and]
    by_cases h1 : c.maxProbeFeedrate a ≤ 0
    · simp [h1]
    · by_cases h2 : c.maxFeedrate a < c.maxProbeFeedrate a
      · simp [h2]
      · have h1' := not_le.1 h1
        simp [h1, h2, not_lt.1 h2, h1']

end

/-! ### What is accepted although it should not -/

/-- No options. -/
def noOptions : Options Int := ⟨none, none, none, false, false, false, false, false⟩

/-- A machine as it should be, as an example: the motor is found, the switch is connected. -/
example : (startUp intArith exNum cramps noOptions
      (ascii "[x-axis]\nsteps-per-mm=9\nmax-feedrate=8\nmax-acceleration=7\nhome-pos=min\n[switch-mapping]\nswitch_1=min_x")
      (Hw.blank Int) (fun _ => false)).map (fun r => (r.config.stepsPerMm 0, r.hw.axisToDriver 0, r.g0, r.hw.estop)) =
    some (9, 1#8, 8, true) := by decide +kernel

/-- **Without acceleration**: an axis with a motor whose acceleration is not given is accepted. The planner divides by the
acceleration of the axis (planner.cc 176), so the number of steps it converts to an integer is not finite. -/
theorem C63_no_acceleration :
    (startUp intArith exNum cramps noOptions (ascii "[x-axis]\nsteps-per-mm=9\nmax-feedrate=8") (Hw.blank Int) (fun _ => false)).map
      (fun r => (hasMotorFor r.hw 0, r.config.acceleration 0)) = some (true, 0) := by decide +kernel

/-- A home position without a switch is refused, and so is a motor without a speed. -/
example : (startUp intArith exNum cramps noOptions (ascii "[x-axis]\nsteps-per-mm=9\nmax-feedrate=8\nhome-pos=min")
      (Hw.blank Int) (fun _ => false)).isSome = false ∧
    (startUp intArith exNum cramps noOptions (ascii "[x-axis]\nsteps-per-mm=9") (Hw.blank Int) (fun _ => false)).isSome = false := by
  constructor <;> decide +kernel

end BeagleG.Setup
