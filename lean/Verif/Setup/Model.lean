import Verif.Config.Model
import Verif.Machine.Model
import Verif.Parser.Model
/-!
# Model of the start of the machine control

* `/repo/src/machine-control-config.cc`: reading the sections `general` and `<axis>-axis`;
* `/repo/src/hardware-mapping.cc` 373-554 and 587-613: reading the sections that assign the connectors;
* `/repo/src/gcode-machine-control.cc` 187-345: `GCodeMachineControl::Impl::Init`;
* `/repo/src/machine-control.cc`: the part of `main` that leads there.

Simplifications:
* What the readers report (`ReportError`, `Log_error`) is reduced to the answer; `Config.Message` reports of the parser
  itself are left out here as well (C44 deals with them).
* Converting texts to floating point numbers is `Config.parseFloatExpr` with its parameter `Config.Numbers`; floating
  point arithmetic is `Planner.Arith`.
* A configuration that is refused ends the program, so the state after a refusal of `Init` is left out.
-/
namespace BeagleG.Setup

open Text Hardware
open Planner (Axis Motor Arith)
open Config (Reader Numbers parseFloatExpr parseBool)

/-- The bytes of a literal. Literals of machine-control-config.cc 75-150 and hardware-mapping.cc 384-613. -/
def ascii (s : String) : List Byte := s.toList.map fun c => UInt8.ofNat c.toNat

/-- `gcodep_letter2axis`, gcode-parser.cc 68-82, with the axis as a number. -/
def letter2axis (c : Byte) : Option Axis :=
  (Parser.letterAxis c).map fun a => ⟨a.index, by cases a <;> decide⟩

/-- `TRIGGER_NONE`, `TRIGGER_MIN`, `TRIGGER_MAX` and `TRIGGER_ANY`, hardware-mapping.h 89-94. -/
inductive AxisTrigger where
  | none
  | min
  | max
  | any
  deriving DecidableEq, Repr

variable {D F : Type}

/-! ### Values -/

/-- Is the byte a decimal digit? `isdigit` and `std::from_chars`, common/string-util.cc 103-122. -/
def isDigit (c : Byte) : Bool := 48 ≤ c && c ≤ 57

/-- The number written in decimal digits, most significant first. `std::from_chars`, common/string-util.cc 109. -/
def digitsValue (ds : List Byte) : Nat := ds.foldl (fun n c => 10 * n + (c.toNat - 48)) 0

/-- `ParseInt`, config-parser.cc 80-83: `convert_strto32`, string-util.cc 103-124 with C++17, i.e. `std::from_chars` on
what is left after blanks and one `+`. The value stored, if there is an answer. Text behind the number is ignored. -/
def parseInt (value : List Byte) : Option Int :=
  let s := value.dropWhile isSpace
  let s := match s with
    | 43 :: s => s
    | s => s
  let (neg, s) := match s with
    | 45 :: s => (true, s)
    | s => (false, s)
  let ds := s.takeWhile isDigit
  if ds = [] then none
  else
    let v : Int := if neg then -(digitsValue ds : Int) else digitsValue ds
    if -2 ^ 31 ≤ v ∧ v < 2 ^ 31 then some v else none

/-! ### The machine configuration -/

/-- `MachineControlConfig`, gcode-machine-control.h 38-78 (without `acknowledge_lines` and `debug_print`). -/
structure Machine (F : Type) where
  stepsPerMm : Axis → F
  maxFeedrate : Axis → F
  acceleration : Axis → F
  moveRange : Axis → F
  homeFeedrate : Axis → F
  maxProbeFeedrate : Axis → F
  homingTrigger : Axis → AxisTrigger
  speedFactor : F
  thresholdAngle : F
  speedTuneAngle : F
  homeOrder : List Byte
  clampToRange : List Byte
  requireHoming : Bool
  rangeCheck : Bool
  synchronous : Bool
  enablePause : Bool
  autoMotorDisable : Int
  autoFanDisable : Int
  autoFanPwm : Int

/-- The constructor, machine-control-config.cc 33-48; the arrays are zeroed (container.h 38). -/
def Machine.default (A : Arith F) : Machine F where
  stepsPerMm := fun _ => A.ofInt 0
  maxFeedrate := fun _ => A.ofInt 0
  acceleration := fun _ => A.ofInt 0
  moveRange := fun _ => A.ofInt 0
  homeFeedrate := fun _ => A.ofInt 0
  maxProbeFeedrate := fun _ => A.ofInt 0
  homingTrigger := fun _ => .none
  speedFactor := A.ofInt 1
  thresholdAngle := A.ofInt (-1)
  speedTuneAngle := A.ofInt 0
  homeOrder := ascii "ZXY"
  clampToRange := []
  requireHoming := true
  rangeCheck := true
  synchronous := false
  enablePause := false
  autoMotorDisable := -1
  autoFanDisable := -1
  autoFanPwm := 0

/-- `r[a] = v`. `FixedArray::operator[]`, common/container.h 53-56. -/
def put {α : Type} (r : Axis → α) (a : Axis) (v : α) : Axis → α := fun b => if b = a then v else r b

/-- `MachineControlConfigReader`, lines 53-152; `section_` is `current_section_`, `axis` is `current_axis_` with `none`
for `GCODE_NUM_AXES`. -/
structure MachineReader (F : Type) where
  config : Machine F
  section_ : List Byte
  axis : Option Axis

/-- `SeenSection`, lines 58-71. -/
def MachineReader.seenSection (r : MachineReader F) (name : List Byte) : Bool × MachineReader F :=
  let r := { r with section_ := name }
  if name = ascii "general" then (true, r)
  else
    let axis := letter2axis (name.headD 0)
    if axis ≠ none ∧ name.drop 1 = ascii "-axis" then (true, { r with axis := axis })
    else (false, { r with axis := none })

/-- `SetHomePos`, lines 124-147. -/
def setHomePos (c : Machine F) (a : Axis) (value : List Byte) : Bool × Machine F :=
  if c.homingTrigger a ≠ .none then (false, c)
  else
    let choice := toLowerString value
    if choice = ascii "min" then (true, { c with homingTrigger := put c.homingTrigger a .min })
    else if choice = ascii "max" then (true, { c with homingTrigger := put c.homingTrigger a .max })
    else (false, c)

/-- `return ParseString(value, result)` and so on: `store` writes the value. machine-control-config.cc 75-78. -/
def acceptString (value : List Byte) (store : List Byte → Machine F) : Bool × Machine F := (true, store value)

/-- `return ParseBool(value, result)`: `store` writes the value. config-parser.cc 85-95, through the macro at machine-control-config.cc 75-78. -/
def acceptBool (c : Machine F) (value : List Byte) (store : Bool → Machine F) : Bool × Machine F :=
  match parseBool value with
  | none => (false, c)
  | some b => (true, store b)

/-- `return ParseInt(value, result)`: `store` writes the value. config-parser.cc 80-83, through the macro at machine-control-config.cc 75-78. -/
def acceptInt (c : Machine F) (value : List Byte) (store : Int → Machine F) : Bool × Machine F :=
  match parseInt value with
  | none => (false, c)
  | some b => (true, store b)

/-- `return ParseFloatExpr(value, result)`; a negative value is stored and refused.
machine-control-config.cc 79-82; config-parser.cc 97-110. -/
def acceptExpr (N : Numbers D F) (c : Machine F) (value : List Byte) (store : F → Machine F) : Bool × Machine F :=
  match parseFloatExpr N value with
  | none => (false, c)
  | some (ok, written) =>
    (ok, match written with
      | none => c
      | some v => store v)

/-- The options of the section `general`, lines 84-98. -/
def generalOption (c : Machine F) (name value : List Byte) : Bool × Machine F :=
  if name = ascii "home-order" then acceptString value fun v => { c with homeOrder := v }
  else if name = ascii "require-homing" then acceptBool c value fun v => { c with requireHoming := v }
  else if name = ascii "range-check" then acceptBool c value fun v => { c with rangeCheck := v }
  else if name = ascii "clamp-to-range" then acceptString value fun v => { c with clampToRange := v }
  else if name = ascii "synchronous" then acceptBool c value fun v => { c with synchronous := v }
  else if name = ascii "enable-pause" then acceptBool c value fun v => { c with enablePause := v }
  else if name = ascii "auto-motor-disable-seconds" then acceptInt c value fun v => { c with autoMotorDisable := v }
  else if name = ascii "auto-fan-disable-seconds" then acceptInt c value fun v => { c with autoFanDisable := v }
  else if name = ascii "auto-fan-pwm" then acceptInt c value fun v => { c with autoFanPwm := v }
  else (false, c)

/-- The options of the section of an axis, lines 101-117. -/
def axisOption (N : Numbers D F) (c : Machine F) (a : Axis) (name value : List Byte) : Bool × Machine F :=
  if name = ascii "steps-per-mm" then acceptExpr N c value fun v => { c with stepsPerMm := put c.stepsPerMm a v }
  else if name = ascii "steps-per-degree" then acceptExpr N c value fun v => { c with stepsPerMm := put c.stepsPerMm a v }
  else if name = ascii "max-feedrate" then acceptExpr N c value fun v => { c with maxFeedrate := put c.maxFeedrate a v }
  else if name = ascii "max-anglerate" then acceptExpr N c value fun v => { c with maxFeedrate := put c.maxFeedrate a v }
  else if name = ascii "home-feedrate" then acceptExpr N c value fun v => { c with homeFeedrate := put c.homeFeedrate a v }
  else if name = ascii "max-probe-feedrate" then
    acceptExpr N c value fun v => { c with maxProbeFeedrate := put c.maxProbeFeedrate a v }
  else if name = ascii "max-acceleration" then acceptExpr N c value fun v => { c with acceleration := put c.acceleration a v }
  else if name = ascii "range" then acceptExpr N c value fun v => { c with moveRange := put c.moveRange a v }
  else if name = ascii "home-pos" then setHomePos c a value
  else (false, c)

/-- `SeenNameValue`, lines 73-121. -/
def MachineReader.seenNameValue (N : Numbers D F) (r : MachineReader F) (name value : List Byte) :
    Bool × MachineReader F :=
  let a :=
    if r.section_ = ascii "general" then generalOption r.config name value
    else
      match r.axis with
      | some a => axisOption N r.config a name value
      | none => (false, r.config)
  (a.1, { r with config := a.2 })

/-- The reader as the configuration parser sees it. machine-control-config.cc 53-153. -/
def machineReader (N : Numbers D F) : Reader (MachineReader F) where
  seenSection r _ name := r.seenSection name
  seenNameValue r _ name value := r.seenNameValue N name value
  reportError r _ _ := r

/-- `MachineControlConfig::ConfigureFromFile`, lines 155-158. `current_axis_` is not initialised; it is not used before
a section has been seen. -/
def configureMachine (N : Numbers D F) (c : Machine F) (content : List Byte) : Bool × Machine F :=
  let a := Config.emitConfigValues (machineReader N) ⟨c, [], none⟩ content
  (a.1, a.2.config)

/-! ### The hardware mapping -/

/-- `NameToOutput`, hardware-mapping.cc 587-611. -/
def nameToOutput (s : List Byte) : Option Output :=
  let n := toLowerString s
  if n = ascii "mist" then some .mist
  else if n = ascii "flood" then some .flood
  else if n = ascii "vacuum" then some .vacuum
  else if n = ascii "spindle" ∨ n = ascii "spindle-on" then some .spindle
  else if n = ascii "spindle-speed" ∨ n = ascii "spindle-pwm" then some .spindleSpeed
  else if n = ascii "spindle-dir" then some .spindleDirection
  else if n = ascii "cooler" then some .cooler
  else if n = ascii "case-lights" then some .caseLights
  else if n = ascii "fan" then some .fan
  else if n = ascii "hotend" then some .hotend
  else if n = ascii "heatedbed" then some .heatedBed
  else if n = ascii "pointer" then some .pointer
  else if n = ascii "led" then some .led
  else if n = ascii "atx-power" then some .atxPower
  else if n = ascii "estop" then some .estop
  else none

/-- `OutputToName`, lines 561-585. -/
def outputToName : Output → List Byte
  | .mist => ascii "mist"
  | .flood => ascii "flood"
  | .vacuum => ascii "vacuum"
  | .spindle => ascii "spindle"
  | .spindleSpeed => ascii "spindle-speed"
  | .spindleDirection => ascii "spindle-dir"
  | .cooler => ascii "cooler"
  | .caseLights => ascii "case-lights"
  | .fan => ascii "fan"
  | .hotend => ascii "hotend"
  | .heatedBed => ascii "heatedbed"
  | .pointer => ascii "pointer"
  | .led => ascii "led"
  | .atxPower => ascii "atx-power"
  | .estop => ascii "estop"

/-- `SetAuxMapping`, lines 423-447. -/
def setAuxMapping (c : Cape) (h : Hw F) (aux : Nat) (value : List Byte) : Bool × Hw F :=
  match nameToOutput value with
  | none => (false, h)
  | some o =>
    if o = .hotend ∨ o = .heatedBed then (false, h)
    else if aux = 16 ∧ o ≠ .led then (false, h)
    else if o = .led ∧ aux ≠ 16 then (false, h)
    else (addAuxMapping c h o aux).swap

/-- `SetPwmMapping`, lines 449-459. -/
def setPwmMapping (c : Cape) (h : Hw F) (pwm : Nat) (value : List Byte) : Bool × Hw F :=
  match nameToOutput value with
  | none => (false, h)
  | some o => (addPwmMapping c h o pwm).swap

/-- The separators of options, lines 463 and 497. -/
def separators : List Byte := ascii " \t,"

/-- `SetMotorAxis`, lines 461-491: the loop over the options returns in its first iteration. -/
def setMotorAxis (h : Hw F) (motor : Nat) (value : List Byte) : Bool × Hw F :=
  match splitString value separators with
  | [] => (true, h)
  | option :: _ =>
    let option := toLowerString option
    if hasPrefix option (ascii "axis:") = some true then
      match option.drop 5 with
      | [] => (false, h)
      | c :: rest =>
        let mirrored := c = 45
        let axis := if mirrored then rest else c :: rest
        match axis with
        | [] => (false, h)
        | letter :: _ =>
          match letter2axis letter with
          | none => (false, h)
          | some a => (addMotorMapping h a motor mirrored).swap
    else (false, h)

/-- The body of the loop of `SetSwitchOptions`, lines 499-545. -/
def switchOption (c : Cape) (h : Hw F) (n : Nat) (option : List Byte) : Bool × Hw F :=
  let option := toLowerString option
  if option = [] then (true, h)
  else if option = ascii "e-stop" then (true, { h with estopInput := n })
  else if option = ascii "pause" then (true, { h with pauseInput := n })
  else if option = ascii "start" then (true, { h with startInput := n })
  else if option = ascii "probe" then (true, { h with probeInput := n })
  else if option.length = 5 then
    match letter2axis (option.getD 4 0) with
    | none => (false, h)
    | some a =>
      if c.switchPin n = 0 then (false, h)
      else if hasPrefix option (ascii "min_") = some true then (true, { h with minEndstop := put h.minEndstop a n })
      else if hasPrefix option (ascii "max_") = some true then (true, { h with maxEndstop := put h.maxEndstop a n })
      else (false, h)
  else if option = ascii "active:low" then
    (true, { h with triggerLevel := fun i => if i.val = n - 1 then false else h.triggerLevel i })
  else if option = ascii "active:high" then
    (true, { h with triggerLevel := fun i => if i.val = n - 1 then true else h.triggerLevel i })
  else (false, h)

/-- The loop of `SetSwitchOptions`, lines 498-546. -/
def switchOptions (c : Cape) (n : Nat) : Hw F → List (List Byte) → Bool × Hw F
  | h, [] => (true, h)
  | h, o :: os =>
    let a := switchOption c h n o
    if a.1 then switchOptions c n a.2 os else a

/-- `SetSwitchOptions`, lines 493-549. -/
def setSwitchOptions (c : Cape) (h : Hw F) (n : Nat) (value : List Byte) : Bool × Hw F :=
  switchOptions c n h (splitString value separators)

/-- The decimal digits of a small number, as printed by `%d`. hardware-mapping.cc 384-421. -/
def decimal (n : Nat) : List Byte := ascii (toString n)

/-- The loops `for (i = 1; i <= count; ++i) if (name == StringPrintf("…%d", i))`: the number found.
hardware-mapping.cc 384-421. -/
def connector (pre : List Byte) (count : Nat) (name : List Byte) : Option Nat :=
  (List.range' 1 count).find? fun i => name = pre ++ decimal i

/-- `ConfigReader`, lines 373-554; `section_` is `current_section_`. -/
structure HwReader (F : Type) where
  hw : Hw F
  section_ : List Byte

/-- `SeenSection`, lines 377-382. -/
def HwReader.seenSection (r : HwReader F) (name : List Byte) : Bool × HwReader F :=
  (name = ascii "aux-mapping" || name = ascii "pwm-mapping" || name = ascii "switch-mapping" ||
    name = ascii "motor-mapping", { r with section_ := name })

/-- What `SeenNameValue`, lines 384-420, does with the mapping. -/
def hwOption (c : Cape) (h : Hw F) (section_ name value : List Byte) : Bool × Hw F :=
  if section_ = ascii "aux-mapping" then
    match connector (ascii "aux_") 16 name with
    | some i => setAuxMapping c h i value
    | none => (false, h)
  else if section_ = ascii "pwm-mapping" then
    match connector (ascii "pwm_") 4 name with
    | some i => setPwmMapping c h i value
    | none => (false, h)
  else if section_ = ascii "motor-mapping" then
    match connector (ascii "motor_") 8 name with
    | some i => setMotorAxis h i value
    | none => (false, h)
  else if section_ = ascii "switch-mapping" then
    match connector (ascii "switch_") 9 name with
    | some i => setSwitchOptions c h i value
    | none => (false, h)
  else (false, h)

/-- `SeenNameValue`, lines 384-420. -/
def HwReader.seenNameValue (c : Cape) (r : HwReader F) (name value : List Byte) : Bool × HwReader F :=
  let a := hwOption c r.hw r.section_ name value
  (a.1, { r with hw := a.2 })

/-- The reader as the configuration parser sees it. hardware-mapping.cc 373-554. -/
def hwReader (c : Cape) : Reader (HwReader F) where
  seenSection r _ name := r.seenSection name
  seenNameValue r _ name value := r.seenNameValue c name value
  reportError r _ _ := r

/-- `HardwareMapping::ConfigureFromFile`, lines 556-559. -/
def configureHw (c : Cape) (h : Hw F) (content : List Byte) : Bool × Hw F :=
  let a := Config.emitConfigValues (hwReader c) ⟨h, []⟩ content
  (a.1, a.2.hw)

/-! ### `Init` -/

/-- `HasProbeSwitch`, hardware-mapping.h 248-251. -/
def hasProbeSwitch (h : Hw F) (a : Axis) : Bool := a = 2 && h.probeInput != 0

/-- Is the switch for the trigger among those of `AvailableAxisSwitch`, hardware-mapping.cc 315-325? -/
def hasSwitch (h : Hw F) (a : Axis) : AxisTrigger → Bool
  | .none => false
  | .min => !h.initialized || h.minEndstop a != 0
  | .max => !h.initialized || h.maxEndstop a != 0
  | .any => !h.initialized || h.minEndstop a != 0 || h.maxEndstop a != 0

section Init
variable (A : Arith F)

/-- The body of the first loop of `Init`, lines 190-222; `none`: `return false`. -/
def initAxis (h : Hw F) (c : Machine F) (a : Axis) : Option (Machine F) :=
  if A.lt (c.stepsPerMm a) (A.ofInt 0) then none
  else
    let c := { c with stepsPerMm := put c.stepsPerMm a (A.abs (c.stepsPerMm a)) }
    if A.lt (c.maxFeedrate a) (A.ofInt 0) then none
    else
      let c :=
        if hasProbeSwitch h a && (A.le (c.maxProbeFeedrate a) (A.ofInt 0) || A.lt (c.maxFeedrate a) (c.maxProbeFeedrate a)) then
          { c with maxProbeFeedrate := put c.maxProbeFeedrate a (c.maxFeedrate a) }
        else c
      if A.lt (c.acceleration a) (A.ofInt 0) then none else some c

/-- The first loop. gcode-machine-control.cc 190-221. -/
def initAxes (h : Hw F) : Machine F → List Axis → Option (Machine F)
  | c, [] => some c
  | c, a :: as => (initAxis A h c a).bind fun c => initAxes h c as

/-- `AllAxes()`. gcode-parser.h 58. -/
def axes : List Axis := List.finRange 10

/-- The second loop, lines 224-227: `std::max(x, y)` is `x < y ? y : x`. -/
def g0Feedrate (c : Machine F) : F :=
  axes.foldl (fun g a => if A.lt (c.maxFeedrate a) g then g else c.maxFeedrate a) (A.ofInt (-1))

/-- Does an axis count as an error in the third loop, lines 233-254? -/
def homeError (h : Hw F) (c : Machine F) (a : Axis) : Bool :=
  match c.homingTrigger a with
  | .none => false
  | .any => true
  | t => !hasSwitch h a t

/-- Does a letter count as an error in the fourth loop, lines 257-276? -/
def clampError (letter : Byte) : Bool :=
  match letter2axis letter with
  | none => true
  | some a => a != 2

/-- `axis_clamped_` after the fourth loop. gcode-machine-control.cc 260-276. -/
def clampedAxes (letters : List Byte) (a : Axis) : Bool :=
  letters.any fun l => letter2axis l = some a && a = 2

/-- The body of the last loop, lines 280-339: the mapping and the number of errors. -/
def initMotor (c : Machine F) (s : Hw F × Nat) (a : Axis) : Hw F × Nat :=
  let s :=
    if A.lt (A.ofInt 0) (c.stepsPerMm a) && !hasMotorFor s.1 a then
      let m := firstFreeMotor s.1
      ((addMotorMapping s.1 a m false).1, if m = 0 then s.2 + 1 else s.2)
    else s
  if !hasMotorFor s.1 a then s
  else if A.le (c.stepsPerMm a) (A.ofInt 0) || A.le (c.maxFeedrate a) (A.ofInt 0) then (s.1, s.2 + 1)
  else s

/-- What `Init` leaves behind. gcode-machine-control.cc 187-340. -/
structure Ready (F : Type) where
  config : Machine F
  hw : Hw F
  /-- `g0_feedrate_mm_per_sec_` -/
  g0 : F
  /-- `axis_clamped_` -/
  clamped : Axis → Bool

/-- `Init`, lines 187-340; `none`: the answer is false. -/
def init (c : Machine F) (h : Hw F) : Option (Ready F) :=
  match initAxes A h c axes with
  | none => none
  | some c =>
    let homeErrors := (axes.filter (homeError h c)).length
    let clampErrors := (c.clampToRange.filter clampError).length
    let s := axes.foldl (initMotor A c) (h, homeErrors + clampErrors)
    if s.2 ≠ 0 then none
    else some { config := c, hw := s.1, g0 := g0Feedrate A c, clamped := clampedAxes c.clampToRange }

end Init

/-! ### `main` -/

/-- What `main` takes from the command line, machine-control.cc 399-470 (as far as it concerns the machine):
the values of `atof` are numbers already. -/
structure Options (F : Type) where
  /-- `-f` -/
  speedFactor : Option F
  /-- `--threshold-angle` -/
  thresholdAngle : Option F
  /-- `--speed-tune-angle` -/
  speedTuneAngle : Option F
  /-- `-S` -/
  synchronous : Bool
  /-- `--homing-required` -/
  requireHoming : Bool
  /-- `--nohoming-required` -/
  dontRequireHoming : Bool
  /-- `--norange-check` -/
  disableRangeCheck : Bool
  /-- `-n`, `-N` or `-W` -/
  dryRun : Bool

section Main
variable (A : Arith F) (N : Numbers D F)

/-- The configuration after the options have been read, lines 356 and 407-470; `none`: `usage`. -/
def Options.machine (o : Options F) : Option (Machine F) :=
  let c := Machine.default A
  let c := { c with
    thresholdAngle := o.thresholdAngle.getD (A.ofInt 10)
    speedTuneAngle := o.speedTuneAngle.getD (A.ofInt 60)
    speedFactor := o.speedFactor.getD c.speedFactor
    synchronous := o.synchronous }
  if (o.speedFactor.map fun f => A.le f (A.ofInt 0)) = some true then none
  else if A.le (A.ofInt 90) (A.add c.thresholdAngle c.speedTuneAngle) then none
  else if o.requireHoming && o.dontRequireHoming then none
  else some c

/-- The overrides, lines 554-557. -/
def Options.override (o : Options F) (c : Machine F) : Machine F :=
  let c := if o.requireHoming then { c with requireHoming := true } else c
  let c := if o.dontRequireHoming then { c with requireHoming := false } else c
  if o.disableRangeCheck then { c with rangeCheck := false } else c

/-- `main` up to line 624 (without the sockets, the spindle, which is not involved, and the change of the user), with the
text of the configuration file; `bothSwitches`: two switches of an axis are active at the start, hardware-mapping.cc
180-191. `none`: the program ends. `h` is the mapping after construction. -/
def startUp (cape : Cape) (o : Options F) (content : List Byte) (h : Hw F) (bothSwitches : Hw F → Bool) :
    Option (Ready F) :=
  match o.machine A with
  | none => none
  | some c =>
    let c := configureMachine N c content
    if !c.1 then none
    else
      let h := configureHw cape h content
      if !h.1 then none
      else
        let c := o.override c.2
        if o.dryRun then init A c h.2
        else
          let h := initializeHardware cape h.2
          if bothSwitches h then none else init A c h

end Main

/-- The configuration of the planner, planner.cc 139-160. -/
def Ready.planner (r : Ready F) : Planner.Config F where
  stepsPerMm := r.config.stepsPerMm
  maxFeedrate := r.config.maxFeedrate
  acceleration := r.config.acceleration
  thresholdAngle := r.config.thresholdAngle
  speedTuneAngle := r.config.speedTuneAngle
  synchronous := r.config.synchronous
  motorMap := fun a m => (r.hw.axisToDriver a).getLsbD m.val

/-- The home position as the machine control uses it; `TRIGGER_ANY` has been refused.
gcode-machine-control.cc 223-258, 1037-1042. -/
def AxisTrigger.trigger : AxisTrigger → BeagleG.Machine.Trigger
  | .none => .none
  | .min => .min
  | .max => .max
  | .any => .none

/-- The configuration of the machine control. gcode-machine-control.cc 139-162. -/
def Ready.machine (r : Ready F) : BeagleG.Machine.Config F where
  speedFactor := r.config.speedFactor
  rangeCheck := r.config.rangeCheck
  requireHoming := r.config.requireHoming
  enablePause := r.config.enablePause
  moveRange := r.config.moveRange
  homingTrigger := fun a => (r.config.homingTrigger a).trigger
  homeFeedrate := r.config.homeFeedrate
  maxProbeFeedrate := r.config.maxProbeFeedrate
  homeOrder := r.config.homeOrder.map letter2axis
  clamped := r.clamped
  g0Feedrate := r.g0
  autoMotorDisable := r.config.autoMotorDisable
  autoFanDisable := r.config.autoFanDisable
  autoFanPwm := r.config.autoFanPwm

end BeagleG.Setup
