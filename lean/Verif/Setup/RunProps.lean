import Verif.Setup.StartProps
import Verif.Planner.RealProps
import Verif.Planner.Spec
/-!
# C63: from the configuration file to the limits of the moves

The settings with which the planner and the machine control run are those of the file and the command line, and the planner
keeps to the limits in the file.
-/
namespace BeagleG.Setup

open Text Hardware
open Config (Numbers Shape)
open Planner (Axis Motor Arith Exact)

variable {D F : Type}

/-- The number the file gives: that of the last line which names it, or 0. -/
def fileNumber (A : Arith F) (N : Numbers D F) (shapes : List Shape) (q : Quantity) (a : Axis) : F :=
  (((machineEntries shapes).filter (·.gives q a)).getLast?.bind fun e => number N e.value).getD (A.ofInt 0)

/-- The setting the file gives, or the default. -/
def fileSetting (shapes : List Shape) (s : Setting) (default : Val) : Val :=
  (((machineEntries shapes).filter (·.sets s)).getLast?.bind fun e => s.parse e.value).getD default

/-- The home position the file gives. -/
def fileHome (shapes : List Shape) (a : Axis) : AxisTrigger :=
  (((machineEntries shapes).filter (·.homes a)).getLast?.bind fun e => homeValue e.value).getD .none

/-- The file can be split into lines and sections. -/
theorem startUp_shapes (A : Arith F) (N : Numbers D F) {cape : Cape} {o : Options F} {content : List Byte} {h : Hw F}
    {both : Hw F → Bool} {r : Ready F} (hr : startUp A N cape o content h both = some r) : ∃ shapes, Shapes content shapes := by
  obtain ⟨c0, c, h1, e1, e2, e3, _, hi⟩ := (startUp_eq A N cape o content h both r).1 hr
  exact emit_wellformed (R := machineReader N) ⟨c0, [], none⟩ content (congrArg Prod.fst e2)

/-- **C63, switches**: unless it is a dry run, the program has not started with two switches of an axis active. -/
theorem C63_switches (A : Arith F) (N : Numbers D F) {cape : Cape} {o : Options F} {content : List Byte} {h : Hw F}
    {both : Hw F → Bool} {r : Ready F} (hd : o.dryRun = false) (hr : startUp A N cape o content h both = some r) :
    ∃ h1, configureHw cape h content = (true, h1) ∧ both (initializeHardware cape h1) = false := by
  obtain ⟨c0, c, h1, e1, e2, e3, hb, hi⟩ := (startUp_eq A N cape o content h both r).1 hr
  exact ⟨h1, e3, hb hd⟩

/-- **C63, planner**: the planner runs with the numbers of the file, the angles of the command line and the motors of the
mapping. -/
theorem C63_planner (A : Arith F) (N : Numbers D F) {cape : Cape} {o : Options F} {content : List Byte} {h : Hw F}
    {both : Hw F → Bool} {r : Ready F} (hr : startUp A N cape o content h both = some r) {shapes : List Shape}
    (hs : Shapes content shapes) :
    (∀ a, r.planner.stepsPerMm a = A.abs (fileNumber A N shapes .steps a)) ∧
    r.planner.maxFeedrate = fileNumber A N shapes .feedrate ∧
    r.planner.acceleration = fileNumber A N shapes .acceleration ∧
    r.planner.thresholdAngle = o.thresholdAngle.getD (A.ofInt 10) ∧
    r.planner.speedTuneAngle = o.speedTuneAngle.getD (A.ofInt 60) ∧
    Val.flag r.planner.synchronous = fileSetting shapes .synchronous (.flag o.synchronous) ∧
    ∀ a m, r.planner.motorMap a m = r.hw.drives a m := by
  obtain ⟨_, _, _, _, _, _, o1, o2, _⟩ := C63_options A N hr
  obtain ⟨c0, c, h1, e1, e2, e3, _, hi⟩ := (startUp_eq A N cape o content h both r).1 hr
  have hcfg := (C63_result A hi).1
  have n := C61_numbers N hs e2
  have st := C61_settings N hs e2
  have d0 : ∀ q a, c0.get q a = A.ofInt 0 := by
    intro q a
    unfold Options.machine at e1
    dsimp only at e1
    repeat' split at e1
    all_goals cases e1
    cases q <;> rfl
  have d1 : c0.synchronous = o.synchronous := by
    unfold Options.machine at e1
    dsimp only at e1
    repeat' split at e1
    all_goals cases e1
    rfl
  have ov : ∀ q a, (o.override c).get q a = c.get q a := by
    intro q a
    unfold Options.override
    cases o.requireHoming <;> cases o.dontRequireHoming <;> cases o.disableRangeCheck <;> cases q <;> rfl
  have os : (o.override c).synchronous = c.synchronous := by
    unfold Options.override
    cases o.requireHoming <;> cases o.dontRequireHoming <;> cases o.disableRangeCheck <;> rfl
  have fn : ∀ q a, (o.override c).get q a = fileNumber A N shapes q a := by
    intro q a
    rw [ov, n, d0]; rfl
  refine ⟨fun a => ?_, funext fun a => ?_, funext fun a => ?_, o1, o2, ?_, fun a m => rfl⟩
  · show r.config.stepsPerMm a = _
    rw [hcfg, ← fn]; rfl
  · show r.config.maxFeedrate a = _
    rw [hcfg, ← fn]; rfl
  · show r.config.acceleration a = _
    rw [hcfg, ← fn]; rfl
  · show Val.flag r.config.synchronous = _
    rw [hcfg]
    show Val.flag (o.override c).synchronous = _
    rw [os]
    have := st .synchronous
    unfold fileSetting
    rw [← d1]
    exact this

/-- **C63, machine control**: the machine control runs with the settings of the file and the command line. -/
theorem C63_machine (A : Arith F) (N : Numbers D F) {cape : Cape} {o : Options F} {content : List Byte} {h : Hw F}
    {both : Hw F → Bool} {r : Ready F} (hr : startUp A N cape o content h both = some r) {shapes : List Shape}
    (hs : Shapes content shapes) :
    r.machine.speedFactor = o.speedFactor.getD (A.ofInt 1) ∧
    r.machine.moveRange = fileNumber A N shapes .range ∧
    r.machine.homeFeedrate = fileNumber A N shapes .home ∧
    (∀ a, r.machine.maxProbeFeedrate a = fileNumber A N shapes .probe a ∨
      r.machine.maxProbeFeedrate a = fileNumber A N shapes .feedrate a) ∧
    (∀ a, r.machine.homingTrigger a = (fileHome shapes a).trigger) ∧
    (Val.flag r.machine.rangeCheck = if o.disableRangeCheck then .flag false else fileSetting shapes .rangeCheck (.flag true)) ∧
    (Val.flag r.machine.requireHoming = if o.dontRequireHoming then .flag false else if o.requireHoming then .flag true
      else fileSetting shapes .requireHoming (.flag true)) ∧
    Val.flag r.machine.enablePause = fileSetting shapes .enablePause (.flag false) ∧
    (∃ order, Val.text order = fileSetting shapes .homeOrder (.text (ascii "ZXY")) ∧ r.machine.homeOrder = order.map letter2axis) ∧
    (∃ clamp, Val.text clamp = fileSetting shapes .clampToRange (.text []) ∧
      ∀ a, r.machine.clamped a = true ↔ a = 2 ∧ clamp ≠ []) ∧
    Val.int r.machine.autoMotorDisable = fileSetting shapes .autoMotorDisable (.int (-1)) ∧
    Val.int r.machine.autoFanDisable = fileSetting shapes .autoFanDisable (.int (-1)) ∧
    Val.int r.machine.autoFanPwm = fileSetting shapes .autoFanPwm (.int 0) ∧
    r.machine.g0Feedrate = r.g0 := by
  obtain ⟨_, _, _, _, o0, _, _, _, _⟩ := C63_options A N hr
  obtain ⟨c0, c, h1, e1, e2, e3, _, hi⟩ := (startUp_eq A N cape o content h both r).1 hr
  obtain ⟨hcfg, _, _, _, hcl⟩ := C63_result A hi
  have n := C61_numbers N hs e2
  have st := C61_settings N hs e2
  have d0 : ∀ q a, c0.get q a = A.ofInt 0 := by
    intro q a
    unfold Options.machine at e1
    dsimp only at e1
    repeat' split at e1
    all_goals cases e1
    cases q <;> rfl
  have d1 : ∀ s, s ≠ .synchronous → c0.setting s = (Machine.default A).setting s := by
    intro s hs
    unfold Options.machine at e1
    dsimp only at e1
    repeat' split at e1
    all_goals cases e1
    cases s <;> first | rfl | exact absurd rfl hs
  have d2 : ∀ a, c0.homingTrigger a = .none := by
    intro a
    unfold Options.machine at e1
    dsimp only at e1
    repeat' split at e1
    all_goals cases e1
    rfl
  have ov : ∀ q a, (o.override c).get q a = c.get q a := by
    intro q a
    unfold Options.override
    cases o.requireHoming <;> cases o.dontRequireHoming <;> cases o.disableRangeCheck <;> cases q <;> rfl
  have fn : ∀ q a, (o.override c).get q a = fileNumber A N shapes q a := by
    intro q a
    rw [ov, n, d0]; rfl
  have fs : ∀ s, s ≠ .synchronous → c.setting s = fileSetting shapes s ((Machine.default A).setting s) := by
    intro s hs
    rw [st, d1 s hs]; rfl
  have os : ∀ s, s ≠ .requireHoming → s ≠ .rangeCheck → (o.override c).setting s = c.setting s := by
    intro s h1 h2
    unfold Options.override
    cases s <;> first | exact absurd rfl h1 | exact absurd rfl h2 |
      (cases o.requireHoming <;> cases o.dontRequireHoming <;> cases o.disableRangeCheck <;> rfl)
  have ofs : ∀ s, s ≠ .synchronous → s ≠ .requireHoming → s ≠ .rangeCheck →
      (o.override c).setting s = fileSetting shapes s ((Machine.default A).setting s) :=
    fun s h1 h2 h3 => (os s h2 h3).trans (fs s h1)
  refine ⟨o0, funext fun a => ?_, funext fun a => ?_, fun a => ?_, fun a => ?_, ?_, ?_, ?_, ?_, ?_, ?_, ?_, ?_, rfl⟩
  · show r.config.moveRange a = _
    rw [hcfg, ← fn]; rfl
  · show r.config.homeFeedrate a = _
    rw [hcfg, ← fn]; rfl
  · show r.config.maxProbeFeedrate a = _ ∨ r.config.maxProbeFeedrate a = _
    rw [hcfg, ← fn, ← fn]
    show (if probeUnusable A _ (o.override c) a = true then (o.override c).maxFeedrate a
      else (o.override c).maxProbeFeedrate a) = _ ∨ (if probeUnusable A _ (o.override c) a = true then
        (o.override c).maxFeedrate a else (o.override c).maxProbeFeedrate a) = _
    by_cases hp : probeUnusable A (if o.dryRun then h1 else initializeHardware cape h1) (o.override c) a = true
    · rw [if_pos hp]; exact .inr rfl
    · rw [if_neg hp]; exact .inl rfl
  · show (r.config.homingTrigger a).trigger = _
    rw [hcfg]
    have : (corrected A (if o.dryRun then h1 else initializeHardware cape h1) (o.override c)).homingTrigger a =
        c.homingTrigger a := by
      unfold corrected Options.override
      cases o.requireHoming <;> cases o.dontRequireHoming <;> cases o.disableRangeCheck <;> rfl
    rw [this]
    unfold fileHome
    rcases C61_home N hs e2 a (d2 a) with ⟨k1, k2⟩ | ⟨e, t, k1, k2, k3⟩
    · rw [k1, k2]; rfl
    · rw [k1, k3]
      show _ = ((homeValue e.value).getD AxisTrigger.none).trigger
      rw [k2]; rfl
  · show Val.flag r.config.rangeCheck = _
    rw [hcfg]
    have := fs .rangeCheck (by decide)
    cases hd : o.disableRangeCheck with
    | true =>
      show Val.flag (o.override c).rangeCheck = _
      unfold Options.override
      rw [hd]; rfl
    | false =>
      show Val.flag (o.override c).rangeCheck = _
      unfold Options.override
      rw [hd]
      cases o.requireHoming <;> cases o.dontRequireHoming <;> exact this
  · show Val.flag r.config.requireHoming = _
    rw [hcfg]
    have := fs .requireHoming (by decide)
    show Val.flag (o.override c).requireHoming = _
    unfold Options.override
    cases o.requireHoming <;> cases o.dontRequireHoming <;> cases o.disableRangeCheck <;> first | rfl | exact this
  · show Val.flag r.config.enablePause = _
    rw [hcfg]
    exact ofs .enablePause (by decide) (by decide) (by decide)
  · refine ⟨r.config.homeOrder, ?_, rfl⟩
    rw [hcfg]
    exact ofs .homeOrder (by decide) (by decide) (by decide)
  · refine ⟨r.config.clampToRange, ?_, fun a => ?_⟩
    · rw [hcfg]
      exact ofs .clampToRange (by decide) (by decide) (by decide)
    · rw [hcfg]; exact hcl a
  · show Val.int r.config.autoMotorDisable = _
    rw [hcfg]
    exact ofs .autoMotorDisable (by decide) (by decide) (by decide)
  · show Val.int r.config.autoFanDisable = _
    rw [hcfg]
    exact ofs .autoFanDisable (by decide) (by decide) (by decide)
  · show Val.int r.config.autoFanPwm = _
    rw [hcfg]
    exact ofs .autoFanPwm (by decide) (by decide) (by decide)

/-- The motors of the planner: none belongs to two axes. This is what C29 and C46 need. -/
theorem C63_disjoint (A : Arith F) (N : Numbers D F) {cape : Cape} {o : Options F} {content : List Byte} {h : Hw F}
    {both : Hw F → Bool} {r : Ready F} (ok : h.MapOk) (hr : startUp A N cape o content h both = some r) :
    r.planner.Disjoint := fun a b m h1 h2 => (C63_one_axis A N ok hr).1 a b m h1 h2

section
variable [Field F] [LinearOrder F] [IsStrictOrderedRing F] {A : Arith F}

/-- The numbers of the planner make sense, except that the acceleration must be given for each axis with steps. -/
theorem C63_positive (ex : Exact A) (N : Numbers D F) {cape : Cape} {o : Options F} {content : List Byte} {h : Hw F}
    {both : Hw F → Bool} {r : Ready F} (hr : startUp A N cape o content h both = some r)
    (hacc : ∀ a, 0 < r.planner.stepsPerMm a → r.planner.acceleration a ≠ 0) : r.planner.Positive := by
  obtain ⟨c0, c, h1, e1, e2, e3, _, hi⟩ := (startUp_eq A N cape o content h both r).1 hr
  obtain ⟨_, _, k1, k2, k3, _⟩ := C63_numbers_partial ex hi
  exact ⟨fun a => (k1 a).1, fun a ha => (k2 a (k3 a ha)).2, fun a ha => (k1 a).2.2.lt_of_ne (hacc a ha).symm⟩

end

open Planner in
/-- **C63, limits**: over the reals, whatever moves the planner is given after the start of the program, each segment is
divided into its phases, and no axis is planned faster or with more acceleration than the file allows. Needed: the file gives
an acceleration for each axis with steps, and the tuning angle is not below -90 degrees; neither is checked (`C63_no_acceleration`,
`C63_tune_angle`). -/
theorem C63_limits_partial {β : Type} (N : Numbers D ℝ) {cape : Cape} {o : Options ℝ} {content : List Byte} {h : Hw ℝ}
    {both : Hw ℝ → Bool} {r : Ready ℝ} (hr : startUp realArith N cape o content h both = some r) {shapes : List Shape}
    (hs : Shapes content shapes)
    (hacc : ∀ a, fileNumber realArith N shapes .steps a ≠ 0 → fileNumber realArith N shapes .acceleration a ≠ 0)
    (htune : -90 ≤ o.speedTuneAngle.getD 60)
    (B : Backend ℝ β) (b : β) (home : Axis → ℝ) (hh : ∀ a, SaneOp realArith r.planner (.external a (home a)))
    (ops : List (Op ℝ)) (hops : ∀ op ∈ ops, SaneOp realArith r.planner op) (s0 s : State ℝ β)
    (hi : Planner.init realArith r.planner B b home = some s0) (hrun : Planner.run realArith r.planner B s0 ops = some s)
    (op : Op ℝ) (hop : SaneOp realArith r.planner op) (seg : Segment ℝ) (hseg : seg ∈ queueOf realArith r.planner s op) :
    seg.planned.accel + seg.planned.travel + seg.planned.decel = (seg.target.deltaSteps seg.target.definingAxis).natAbs ∧
    0 ≤ seg.planned.v0 ∧ 0 ≤ seg.planned.v2 ∧ seg.planned.v0 ≤ seg.planned.v1 ∧ seg.planned.v2 ≤ seg.planned.v1 ∧
    ∀ a, seg.planned.v1 * (|(seg.target.deltaSteps a : ℝ)| / |(seg.target.deltaSteps seg.target.definingAxis : ℝ)|) ≤
        fileNumber realArith N shapes .feedrate a * |fileNumber realArith N shapes .steps a| ∧
      seg.target.accel * (|(seg.target.deltaSteps a : ℝ)| / |(seg.target.deltaSteps seg.target.definingAxis : ℝ)|) ≤
        fileNumber realArith N shapes .acceleration a * |fileNumber realArith N shapes .steps a| := by
  obtain ⟨p1, p2, p3, p4, p5, _, _⟩ := C63_planner realArith N hr hs
  obtain ⟨_, _, _, _, _, _, o1, o2, o3⟩ := C63_options realArith N hr
  have hpos : r.planner.Positive := by
    refine C63_positive real_exact N hr fun a ha => ?_
    rw [p1] at ha
    rw [p3]
    refine hacc a fun h0 => ?_
    rw [h0, real_exact.abs, abs_zero] at ha
    exact lt_irrefl _ ha
  have hcos : CosOk realArith r.planner := by
    refine real_cosOk _ ?_ ?_
    · rw [p5]
      refine htune.trans (le_of_eq ?_)
      cases o.speedTuneAngle with
      | some x => rfl
      | none =>
        show (60 : ℝ) = ((60 : Int) : ℝ)
        norm_num
    · have h1 : decide (((90 : Int) : ℝ) ≤ r.config.thresholdAngle + r.config.speedTuneAngle) = false := o3
      have h2 := le_of_lt (not_le.1 (of_decide_eq_false h1))
      push_cast at h2
      exact h2
  have hinv := planInv_init (B := B) real_exact b home hh hpos hcos hi
  have c31 := C31_phases_partition real_exact hpos hcos hinv ops hops hrun op hop seg hseg
  have c32 := (C32_speeds_partial real_exact hpos hcos hinv ops hops hrun op hop).1 seg hseg
  have c53 := C53_axis_limits real_exact hpos hcos hinv ops hops hrun op hop seg hseg
  refine ⟨c31, c32.1, c32.2.1, c32.2.2.1, c32.2.2.2.1, fun a => ?_⟩
  have := c53 a
  rw [p1, p2, p3, real_exact.abs] at this
  exact this

/-- **Tuning angle**: `main` checks the sum of the angles only, so a tuning angle of -180 degrees is accepted. -/
theorem C63_tune_angle :
    (startUp Planner.intArith exNum cramps { noOptions with thresholdAngle := some 45, speedTuneAngle := some (-180) }
      (ascii "[x-axis]\nsteps-per-mm=9\nmax-feedrate=8\nmax-acceleration=7") (Hw.blank Int) (fun _ => false)).map
      (fun r => (r.planner.thresholdAngle, r.planner.speedTuneAngle)) = some (45, -180) := by decide +kernel

open Planner in
/-- With these angles the speed between two segments is negative, even with exact arithmetic. -/
theorem C63_tune_angle_negative (cfg : Config ℝ) (h1 : cfg.thresholdAngle = 45) (h2 : cfg.speedTuneAngle = -180) :
    determineJoiningSpeed realArith cfg { AxisTarget.zero realArith with dx := 1, len := 1, speed := 1 }
      { AxisTarget.zero realArith with dx := 4 / 5, dy := 3 / 5, len := 1, speed := 1 } = -(4 / 5) := by
  have hpi := Real.pi_pos
  have z : realArith.zero = 0 := real_exact.zero
  have hz : (AxisTarget.zero realArith).dz = 0 ∧ (AxisTarget.zero realArith).dy = 0 := ⟨z, z⟩
  have hang : Real.arccos (4 / 5) < Real.pi / 4 := by
    have h := Real.arccos_cos (x := Real.pi / 4) (by linarith) (by linarith)
    rw [← h]
    refine Real.strictAntiOn_arccos ⟨?_, ?_⟩ ⟨by norm_num, by norm_num⟩ ?_
    · exact Real.neg_one_le_cos _
    · exact Real.cos_le_one _
    · rw [Real.cos_pi_div_four]
      have h2 : √2 < 8 / 5 := by
        rw [Real.sqrt_lt' (by norm_num)]; norm_num
      linarith
  have hnn := Real.arccos_nonneg (4 / 5)
  have hfac : |Real.arccos (4 / 5) * (180 / Real.pi)| = Real.arccos (4 / 5) * (180 / Real.pi) := abs_of_nonneg (by positivity)
  have hlt : Real.arccos (4 / 5) * (180 / Real.pi) < 45 := by
    rw [mul_div_assoc', div_lt_iff₀ hpi]
    linarith
  have hcos : Real.cos ((Real.arccos (4 / 5) * (180 / Real.pi) + -180) * (Real.pi / 180)) = -(4 / 5) := by
    have : (Real.arccos (4 / 5) * (180 / Real.pi) + -180) * (Real.pi / 180) = Real.arccos (4 / 5) - Real.pi := by
      field_simp
      ring
    rw [this, Real.cos_sub_pi, Real.cos_arccos (by norm_num) (by norm_num)]
  have e : realArith.eps = 1 / 100000 := rfl
  unfold determineJoiningSpeed withinAcceptableRange
  simp only [real_exact.add, real_exact.mul, real_exact.div, real_exact.sub, real_exact.abs, real_exact.lt, real_exact.le,
    real_exact.eq, real_exact.ofInt, z, hz.1, hz.2, h1, h2, e]
  have ea : realArith.acos = Real.arccos := rfl
  have ec : realArith.cos = Real.cos := rfl
  have ep : realArith.pi = Real.pi := rfl
  rw [ea, ec, ep]
  have d : (1 * (4 / 5) + 0 * (3 / 5) + 0 * 0 : ℝ) = 4 / 5 := by norm_num
  have d' : ((4 / 5 : ℝ) / (1 * 1)) = 4 / 5 := by norm_num
  rw [d, d']
  push_cast
  rw [hfac, hcos]
  norm_num
  rw [if_neg (by linarith), if_pos (by linarith)]

end BeagleG.Setup
