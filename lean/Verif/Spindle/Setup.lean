import Verif.Setup.FileProps
import Verif.Setup.MachineProps
import Verif.Spindle.Model
import Verif.Machine.Model

/-!
# C74: the spindle of the configuration

`SpindleConfig` and its reader (`/repo/src/spindle-control.cc` 75-109, 607-610) and `Spindle::CreateFromConfig` (612-641) with
the tests of both kinds of spindle (145-162, 353-367).
-/
namespace BeagleG.Setup

open Text Config
open Hardware (Hw Output hasAuxMapping)

variable {F : Type}

/-- `SpindleConfig`, spindle-control.h 29-44. -/
structure SpindleCfg where
  type : List Byte
  port : List Byte
  maxRpm : Int
  maxAccel : Int
  maxDecel : Int
  pwrDelay : Int
  onDelay : Int
  offDelay : Int
  allowCcw : Bool
deriving DecidableEq

/-- The constructor, line 75, and spindle-control.h 35-43. -/
def SpindleCfg.default : SpindleCfg :=
  { type := ascii "simple-pwm", port := ascii "/dev/ttyACM0", maxRpm := 3000, maxAccel := 0, maxDecel := 0, pwrDelay := 0,
    onDelay := 0, offDelay := 0, allowCcw := false }

/-- `return ParseInt(value, result)`. spindle-control.cc 88. -/
def spindleInt (c : SpindleCfg) (value : List Byte) (store : Int → SpindleCfg) : Bool × SpindleCfg :=
  match parseInt value with
  | none => (false, c)
  | some b => (true, store b)

/-- `SeenNameValue`, lines 85-105. -/
def spindleOption (c : SpindleCfg) (name value : List Byte) : Bool × SpindleCfg :=
  if name = ascii "type" then (true, { c with type := value })
  else if name = ascii "port" then (true, { c with port := value })
  else if name = ascii "max-rpm" then spindleInt c value fun v => { c with maxRpm := v }
  else if name = ascii "max-accel" then spindleInt c value fun v => { c with maxAccel := v }
  else if name = ascii "max-decel" then spindleInt c value fun v => { c with maxDecel := v }
  else if name = ascii "pwr-delay-msec" then spindleInt c value fun v => { c with pwrDelay := v }
  else if name = ascii "on-delay-msec" then spindleInt c value fun v => { c with onDelay := v }
  else if name = ascii "off-delay-msec" then spindleInt c value fun v => { c with offDelay := v }
  else if name = ascii "allow-ccw" then
    match parseBool value with
    | none => (false, c)
    | some b => (true, { c with allowCcw := b })
  else (false, c)

/-- `SpindleConfigReader`, lines 77-109. -/
def spindleReader : Reader SpindleCfg where
  seenSection r _ name := (decide (name = ascii "spindle"), r)
  seenNameValue r _ name value := spindleOption r name value
  reportError r _ _ := r

/-- `SpindleConfig::ConfigureFromFile`, lines 604-607. -/
def configureSpindle (c : SpindleCfg) (content : List Byte) : Bool × SpindleCfg := emitConfigValues spindleReader c content

/-! ### Settings -/

/-- The settings of the section `spindle`. spindle-control.cc 85-110. -/
inductive SpindleSetting where
  | type | port | maxRpm | maxAccel | maxDecel | pwrDelay | onDelay | offDelay | allowCcw
deriving DecidableEq

/-- The names in the file. spindle-control.cc 85-110. -/
def SpindleSetting.name : SpindleSetting → List Byte
  | .type => ascii "type"
  | .port => ascii "port"
  | .maxRpm => ascii "max-rpm"
  | .maxAccel => ascii "max-accel"
  | .maxDecel => ascii "max-decel"
  | .pwrDelay => ascii "pwr-delay-msec"
  | .onDelay => ascii "on-delay-msec"
  | .offDelay => ascii "off-delay-msec"
  | .allowCcw => ascii "allow-ccw"

/-- The values that may be written. spindle-control.cc 85-110; config-parser.cc 73-110. -/
def SpindleSetting.parse : SpindleSetting → List Byte → Option Val
  | .type, s | .port, s => some (.text s)
  | .allowCcw, s => (parseBool s).map .flag
  | .maxRpm, s | .maxAccel, s | .maxDecel, s | .pwrDelay, s | .onDelay, s | .offDelay, s => (parseInt s).map .int

/-- The setting in the configuration. spindle-control.h 27-43. -/
def SpindleCfg.setting (c : SpindleCfg) : SpindleSetting → Val
  | .type => .text c.type
  | .port => .text c.port
  | .maxRpm => .int c.maxRpm
  | .maxAccel => .int c.maxAccel
  | .maxDecel => .int c.maxDecel
  | .pwrDelay => .int c.pwrDelay
  | .onDelay => .int c.onDelay
  | .offDelay => .int c.offDelay
  | .allowCcw => .flag c.allowCcw

/-- The lines of the section. -/
def spindleEntries (shapes : List Shape) : List Entry := entries (fun s => decide (s = ascii "spindle")) none shapes

/-- A line that may be written. -/
def SpindleLine (e : Entry) : Prop := ∃ s : SpindleSetting, e.name = s.name ∧ (s.parse e.value).isSome

theorem spindle_uniform : Uniform spindleReader id (fun s => decide (s = ascii "spindle"))
    (fun c e => spindleOption c e.name e.value) (fun _ _ => True) where
  answer _ _ _ := rfl
  view_section _ _ _ := rfl
  good_section _ _ _ _ := trivial
  pair _ _ _ _ _ _ := ⟨rfl, rfl, trivial⟩

theorem spindleSetting_inj (s t : SpindleSetting) (h : s.name = t.name) : s = t := by
  revert h
  cases s <;> cases t <;> decide

/-- What the reader does with a line that names a setting. -/
theorem spindleOption_named (s : SpindleSetting) (c : SpindleCfg) (value : List Byte) :
    match s.parse value with
    | none => spindleOption c s.name value = (false, c)
    | some x => (spindleOption c s.name value).1 = true ∧
        ∀ t, (spindleOption c s.name value).2.setting t = if t = s then x else c.setting t := by
  cases s with
  | type => exact ⟨rfl, fun t => by cases t <;> rfl⟩
  | port => exact ⟨rfl, fun t => by cases t <;> rfl⟩
  | allowCcw =>
    have h : ∀ c, spindleOption c (SpindleSetting.allowCcw.name) value =
      match parseBool value with
      | none => (false, c)
      | some b => (true, { c with allowCcw := b }) := fun _ => rfl
    rw [h]
    show match (parseBool value).map Val.flag with | none => _ | some x => _
    cases parseBool value with
    | none => rfl
    | some b => exact ⟨rfl, fun t => by cases t <;> rfl⟩
  | maxRpm =>
    have h : ∀ c, spindleOption c (SpindleSetting.maxRpm.name) value = spindleInt c value fun v => { c with maxRpm := v } := fun _ => rfl
    rw [h]
    unfold spindleInt
    show match (parseInt value).map Val.int with | none => _ | some x => _
    cases parseInt value with
    | none => rfl
    | some b => exact ⟨rfl, fun t => by cases t <;> rfl⟩
  | maxAccel =>
    have h : ∀ c, spindleOption c (SpindleSetting.maxAccel.name) value = spindleInt c value fun v => { c with maxAccel := v } := fun _ => rfl
    rw [h]
    unfold spindleInt
    show match (parseInt value).map Val.int with | none => _ | some x => _
    cases parseInt value with
    | none => rfl
    | some b => exact ⟨rfl, fun t => by cases t <;> rfl⟩
  | maxDecel =>
    have h : ∀ c, spindleOption c (SpindleSetting.maxDecel.name) value = spindleInt c value fun v => { c with maxDecel := v } := fun _ => rfl
    rw [h]
    unfold spindleInt
    show match (parseInt value).map Val.int with | none => _ | some x => _
    cases parseInt value with
    | none => rfl
    | some b => exact ⟨rfl, fun t => by cases t <;> rfl⟩
  | pwrDelay =>
    have h : ∀ c, spindleOption c (SpindleSetting.pwrDelay.name) value = spindleInt c value fun v => { c with pwrDelay := v } := fun _ => rfl
    rw [h]
    unfold spindleInt
    show match (parseInt value).map Val.int with | none => _ | some x => _
    cases parseInt value with
    | none => rfl
    | some b => exact ⟨rfl, fun t => by cases t <;> rfl⟩
  | onDelay =>
    have h : ∀ c, spindleOption c (SpindleSetting.onDelay.name) value = spindleInt c value fun v => { c with onDelay := v } := fun _ => rfl
    rw [h]
    unfold spindleInt
    show match (parseInt value).map Val.int with | none => _ | some x => _
    cases parseInt value with
    | none => rfl
    | some b => exact ⟨rfl, fun t => by cases t <;> rfl⟩
  | offDelay =>
    have h : ∀ c, spindleOption c (SpindleSetting.offDelay.name) value = spindleInt c value fun v => { c with offDelay := v } := fun _ => rfl
    rw [h]
    unfold spindleInt
    show match (parseInt value).map Val.int with | none => _ | some x => _
    cases parseInt value with
    | none => rfl
    | some b => exact ⟨rfl, fun t => by cases t <;> rfl⟩

/-- A line that names no setting is refused. -/
theorem spindleOption_other (c : SpindleCfg) (name value : List Byte) (h : ∀ s : SpindleSetting, name ≠ s.name) :
    spindleOption c name value = (false, c) := by
  unfold spindleOption
  rw [if_neg (show name ≠ ascii "type" from h .type), if_neg (show name ≠ ascii "port" from h .port),
    if_neg (show name ≠ ascii "max-rpm" from h .maxRpm), if_neg (show name ≠ ascii "max-accel" from h .maxAccel),
    if_neg (show name ≠ ascii "max-decel" from h .maxDecel), if_neg (show name ≠ ascii "pwr-delay-msec" from h .pwrDelay),
    if_neg (show name ≠ ascii "on-delay-msec" from h .onDelay), if_neg (show name ≠ ascii "off-delay-msec" from h .offDelay),
    if_neg (show name ≠ ascii "allow-ccw" from h .allowCcw)]

theorem spindleOption_accepts (c : SpindleCfg) (e : Entry) : (spindleOption c e.name e.value).1 = true ↔ SpindleLine e := by
  by_cases hn : ∃ s : SpindleSetting, e.name = s.name
  · obtain ⟨s, hs⟩ := hn
    have h := spindleOption_named s c e.value
    rw [← hs] at h
    constructor
    · intro ha
      refine ⟨s, hs, ?_⟩
      cases hp : s.parse e.value with
      | none => rw [hp] at h; simp only at h; rw [h] at ha; cases ha
      | some _ => rfl
    · rintro ⟨t, ht, hp⟩
      have := spindleSetting_inj t s (ht.symm.trans hs)
      subst this
      cases hv : t.parse e.value with
      | none => rw [hv] at hp; cases hp
      | some _ => rw [hv] at h; exact h.1
  · rw [spindleOption_other c e.name e.value fun s hs => hn ⟨s, hs⟩]
    exact ⟨fun h => (by cases h), fun ⟨s, hs, _⟩ => absurd ⟨s, hs⟩ hn⟩

/-- C74. Every setting has the value of the last line of the section that names it, and the default if there is none. -/
theorem C74_settings {c c' : SpindleCfg} {content : List Byte} {shapes : List Shape} (hs : Shapes content shapes)
    (h : configureSpindle c content = (true, c')) (s : SpindleSetting) :
    c'.setting s =
      (((spindleEntries shapes).filter (fun e => decide (e.name = s.name))).getLast?.bind fun e => s.parse e.value).getD (c.setting s) := by
  have h' := (emit_shapes spindle_uniform c content hs).2 (congrArg Prod.fst h)
  have hc : (emitConfigValues spindleReader c content).2 = c' := congrArg Prod.snd h
  rw [hc] at h'
  refine (applyAll_last (fun c => c.setting s) (fun e => decide (e.name = s.name)) (fun e => s.parse e.value) ?_ _ _ _ h').2
  intro k e ha
  obtain ⟨t, ht, hp⟩ := (spindleOption_accepts k e).1 ha
  obtain ⟨x, hx⟩ := Option.isSome_iff_exists.1 hp
  have hn := spindleOption_named t k e.value
  rw [hx, ← ht] at hn
  refine ⟨fun hr => ⟨x, ?_, ?_⟩, fun hr => ?_⟩
  · rw [spindleSetting_inj s t ((of_decide_eq_true hr).symm.trans ht)]; exact hx
  · rw [hn.2, if_pos (spindleSetting_inj s t ((of_decide_eq_true hr).symm.trans ht))]
  · rw [hn.2, if_neg]
    rintro rfl
    exact of_decide_eq_false hr ht

/-- C74. A file is accepted if and only if it is well-formed and each line of the section names a setting and gives a value for it. -/
theorem C74_accepted (c : SpindleCfg) (content : List Byte) :
    (configureSpindle c content).1 = true ↔ ∃ shapes, Shapes content shapes ∧ ∀ e ∈ spindleEntries shapes, SpindleLine e := by
  have key : ∀ shapes, Shapes content shapes →
      ((configureSpindle c content).1 = true ↔ ∀ e ∈ spindleEntries shapes, SpindleLine e) := by
    intro shapes hs
    refine (emit_shapes spindle_uniform c content hs).1.trans ?_
    exact applyAll_isSome SpindleLine (fun _ => True) (fun k e _ => ⟨spindleOption_accepts k e, trivial⟩) _ _ trivial
  constructor
  · intro h
    obtain ⟨shapes, hs⟩ := emit_wellformed (R := spindleReader) c content h
    exact ⟨shapes, hs, (key shapes hs).1 h⟩
  · rintro ⟨shapes, hs, h⟩
    exact (key shapes hs).2 h

/-! ### Which spindle -/

/-- The part used by the spindles. spindle-control.h 27-43. -/
def SpindleCfg.config (c : SpindleCfg) : Spindle.Config := ⟨c.maxRpm, c.allowCcw⟩

/-- `PololuSMCSpindle::CheckRequiredHardware`, lines 350-363. -/
def pololuRequired (c : SpindleCfg) (h : Hw F) : Bool :=
  hasAuxMapping h .spindle && (!c.allowCcw || hasAuxMapping h .spindleDirection)

/-- The two kinds of spindle, spindle-control.cc 609-635. -/
inductive SpindleKind where
  | pwm | pololu
deriving DecidableEq

/-- `Spindle::CreateFromConfig`, lines 609-635; `opens`: the port can be opened (then `Init` returns true if it returns), `none` is
`nullptr`. -/
def createSpindle (c : SpindleCfg) (h : Hw F) (opens : List Byte → Bool) : Option SpindleKind :=
  if c.type = ascii "simple-pwm" ∧ Spindle.checkRequired c.config h then some .pwm
  else if c.type = ascii "pololu-smc" ∧ pololuRequired c h then if opens c.port then some .pololu else none
  else none

/-- C74. A spindle with PWM is created exactly if it is asked for, can be switched or its speed set, and can be reversed if that is to
be allowed. -/
theorem C74_pwm (c : SpindleCfg) (h : Hw F) (opens : List Byte → Bool) : createSpindle c h opens = some .pwm ↔
    c.type = ascii "simple-pwm" ∧ (hasAuxMapping h .spindle = true ∨ h.pwmOf .spindleSpeed ≠ 0) ∧
      (c.allowCcw = true → hasAuxMapping h .spindleDirection = true) := by
  unfold createSpindle
  have hn : c.type = ascii "simple-pwm" → c.type ≠ ascii "pololu-smc" := fun h => by rw [h]; decide
  have key : Spindle.checkRequired c.config h = true ↔ (hasAuxMapping h .spindle = true ∨ h.pwmOf .spindleSpeed ≠ 0) ∧
      (c.allowCcw = true → hasAuxMapping h .spindleDirection = true) := by
    unfold Spindle.checkRequired SpindleCfg.config
    cases hasAuxMapping h .spindle <;> cases c.allowCcw <;> cases hasAuxMapping h .spindleDirection <;> simp
  by_cases h1 : c.type = ascii "simple-pwm" ∧ Spindle.checkRequired c.config h = true
  · rw [if_pos h1]
    exact ⟨fun _ => ⟨h1.1, key.1 h1.2⟩, fun _ => rfl⟩
  · rw [if_neg h1]
    refine ⟨fun h2 => ?_, fun h2 => absurd ⟨h2.1, key.2 h2.2⟩ h1⟩
    split at h2
    · split at h2 <;> cases h2
    · cases h2

/-- C74. One with a controller exactly if it is asked for, has the outputs and the port can be opened. -/
theorem C74_pololu (c : SpindleCfg) (h : Hw F) (opens : List Byte → Bool) : createSpindle c h opens = some .pololu ↔
    c.type = ascii "pololu-smc" ∧ hasAuxMapping h .spindle = true ∧
      (c.allowCcw = true → hasAuxMapping h .spindleDirection = true) ∧ opens c.port = true := by
  unfold createSpindle pololuRequired
  by_cases h1 : c.type = ascii "simple-pwm"
  · have hn : c.type ≠ ascii "pololu-smc" := by rw [h1]; decide
    simp only [hn, false_and, if_false]
    split <;> simp
  · simp only [h1, false_and, if_false]
    by_cases h2 : c.type = ascii "pololu-smc"
    · simp only [h2, true_and]
      cases hasAuxMapping h .spindle <;> cases c.allowCcw <;> cases hasAuxMapping h .spindleDirection <;> cases opens c.port <;> simp
    · simp [h2]

/-- C74. Without any line about the spindle it is one on PWM outputs with 3000 rpm that does not turn backwards. -/
theorem C74_default {c : SpindleCfg} {content : List Byte} {shapes : List Shape} (hs : Shapes content shapes)
    (h : configureSpindle .default content = (true, c)) (hn : spindleEntries shapes = []) :
    c = { type := ascii "simple-pwm", port := ascii "/dev/ttyACM0", maxRpm := 3000, maxAccel := 0, maxDecel := 0,
          pwrDelay := 0, onDelay := 0, offDelay := 0, allowCcw := false } := by
  have k := C74_settings hs h
  simp only [hn, List.filter_nil, List.getLast?_nil, Option.bind_none, Option.getD_none] at k
  have k1 := k .type
  have k2 := k .port
  have k3 := k .maxRpm
  have k4 := k .maxAccel
  have k5 := k .maxDecel
  have k6 := k .pwrDelay
  have k7 := k .onDelay
  have k8 := k .offDelay
  have k9 := k .allowCcw
  simp only [SpindleCfg.setting, SpindleCfg.default, Val.text.injEq, Val.int.injEq, Val.flag.injEq] at k1 k2 k3 k4 k5 k6 k7 k8 k9
  cases c
  simp_all

/-- A file that spells the type differently. Example; the types are compared at spindle-control.cc 609-635. -/
def typo : List Byte := ascii "[spindle]\ntype = pololu\nport = /dev/ttyACM0\n"

/-- C74, not as hoped for: a type that is not known is accepted by the reader, and there is no spindle, whatever the hardware. -/
theorem C74_unknown_type : ∃ c, configureSpindle .default typo = (true, c) ∧
    ∀ (h : Hw F) opens, createSpindle c h opens = none := by
  have h1 : (configureSpindle .default typo).1 = true := by decide +kernel
  have h2 : (configureSpindle .default typo).2.type = ascii "pololu" := by decide +kernel
  refine ⟨(configureSpindle .default typo).2, by rw [← h1], fun h opens => ?_⟩
  unfold createSpindle
  rw [if_neg, if_neg]
  · rw [h2]; rintro ⟨h, -⟩; revert h; decide
  · rw [h2]; rintro ⟨h, -⟩; revert h; decide

/-- C74, not as hoped for: without a spindle M3 and M4 do nothing at all: no message, and the words that belong to them are left. -/
theorem C74_silent {β σ : Type} (e : _root_.BeagleG.Machine.Env F β σ) (h : e.spindle = none) (ccw : Bool) (args : List (Char × F))
    (s : _root_.BeagleG.Machine.State F β σ) :
    _root_.BeagleG.Machine.setSpindleOn e ccw args s = some (args, s) ∧ _root_.BeagleG.Machine.setSpindleOff e s = some ((), s) := by
  unfold _root_.BeagleG.Machine.setSpindleOn _root_.BeagleG.Machine.setSpindleOff
  rw [h]
  exact ⟨rfl, rfl⟩

/-- Not vacuous: a file with all settings. -/
example : configureSpindle .default (ascii
    "[general]\ntype = x\n[ Spindle ]\nType = pololu-smc\nport=/dev/x\nmax-rpm = 100\nmax-rpm = 24000\nallow-ccw = yes\n") =
    (true, { SpindleCfg.default with type := ascii "pololu-smc", port := ascii "/dev/x", maxRpm := 24000, allowCcw := true }) := by
  decide +kernel

example : (configureSpindle .default (ascii "[spindle]\nmax-rpm = fast\n")).1 = false := by decide +kernel
example : (configureSpindle .default (ascii "[spindle]\nmax_rpm = 100\n")).1 = false := by decide +kernel

end BeagleG.Setup
