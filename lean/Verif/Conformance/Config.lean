import Verif.Setup.Example
import Verif.Conformance.Parser
/-!
# The configuration is read as the tests of the project expect

The tests of config-parser_test.cc and machine-control-config_test.cc, run on the models. These are tests, not proofs of
properties.
-/
namespace BeagleG.Conformance.Config
open BeagleG.Config BeagleG.Setup Text
open Planner (Axis)

/-! ### config-parser_test.cc -/

/-- What `MockConfigReader` is called with. -/
inductive Call where
  | section_ (line : Nat) (name : List Byte)
  | value (line : Nat) (name value : List Byte)
  | error (line : Nat) (msg : Message)
  deriving DecidableEq

/-- `MockConfigReader`: it answers `true` and notes the calls, last one first. -/
def mock : Reader (List Call) where
  seenSection := fun l n s => (true, .section_ n s :: l)
  seenNameValue := fun l n a b => (true, .value n a b :: l)
  reportError := fun l n m => .error n m :: l

/-- `BasicParser` -/
example : emitConfigValues mock [] (ascii (" [ SOME-section ]\n # just comment\n\n\n some line = bar  # foo\n" ++
      "another line = x\r\n  something = unfinished-line")) =
    (true, [.value 7 (ascii "something") (ascii "unfinished-line"), .value 6 (ascii "another line") (ascii "x"),
      .value 5 (ascii "some line") (ascii "bar"), .section_ 1 (ascii "some-section")]) := by decide +kernel

/-- `ErrorReporting` -/
example : emitConfigValues mock [] (ascii " incomplete line\n[ incomplete-section \n") =
    (false, [.error 2 .sectionUnclosed, .error 1 .pairExpected]) := by decide +kernel

/-! ### machine-control-config_test.cc -/

/-- Fractions. -/
def num : Numbers Rat Rat where
  strtod := Parser.readNumber
  one := 1
  mul := (· * ·)
  div := (· / ·)
  toFloat := id
  negative := fun x => x < 0

/-- Only the conversion of whole numbers is used. -/
def start : Machine Rat :=
  let z : Axis → Rat := fun _ => 0
  { stepsPerMm := z, maxFeedrate := z, acceleration := z, moveRange := z, homeFeedrate := z, maxProbeFeedrate := z
    homingTrigger := fun _ => .none, speedFactor := 1, thresholdAngle := -1, speedTuneAngle := 0
    homeOrder := ascii "ZXY", clampToRange := [], requireHoming := true, rangeCheck := true, synchronous := false
    enablePause := false, autoMotorDisable := -1, autoFanDisable := -1, autoFanPwm := 0 }

/-- `GeneralMapping` -/
example : (fun r : Bool × Machine Rat =>
      (r.1, r.2.homeOrder, r.2.requireHoming, r.2.rangeCheck, r.2.synchronous, r.2.autoMotorDisable))
    (configureMachine num start (ascii ("[ general ]\nhome-order = ABC\nrequire-homing = 0\nrange-check = no\n" ++
      "synchronous = false\nauto-motor-disable-seconds = 188 \n"))) =
    (true, ascii "ABC", false, false, false, 188) := by decide +kernel

/-- `AxisMapping` -/
example : (fun r : Bool × Machine Rat => (r.1, r.2.stepsPerMm 0, r.2.maxFeedrate 0, r.2.acceleration 0, r.2.moveRange 0,
      r.2.homingTrigger 0, r.2.homingTrigger 1))
    (configureMachine num start (ascii ("[ X-Axis ]\nsteps-per-mm = 200 / (2 * 60)\nmax-feedrate = 42\n" ++
      "max-acceleration = 4242\nrange = 987\nhome-pos = max\n[ Y-Axis ]\nhome-pos = min\n"))) =
    (true, 200 / (2 * 60), 42, 4242, 987, .max, .min) := by decide +kernel

/-! The two tests for the mapping of motors and switches that are switched off in the source (lines 73-107), with the names
of today. -/

/-- `MotorMapping`: the second motor is inverted, the third one not mapped. -/
example : (fun r : Bool × Hardware.Hw Rat =>
      (r.1, r.2.axisToDriver 0, r.2.axisToDriver 1, r.2.axisToDriver 2, [0, 1, 2, 3].map r.2.driverFlip))
    (configureHw Hardware.cramps (Hardware.Hw.blank Rat)
      (ascii "[ motor-mapping ]\nmotor_1 = axis:x\nmotor_2 = axis:-y\nmotor_4 = axis:z")) =
    (true, 1#8, 2#8, 8#8, [1, -1, 0, 1]) := by decide +kernel

/-- `SwitchMapping` -/
example : (fun r : Bool × Hardware.Hw Rat =>
      (r.1, r.2.minEndstop 0, r.2.minEndstop 1, r.2.maxEndstop 1, r.2.triggerLevel 2, r.2.triggerLevel 3))
    (configureHw Hardware.cramps (Hardware.Hw.blank Rat)
      (ascii "[ switch-mapping ]\nswitch_3 = active:high \t min_x\nswitch_4 = active:low min_y max_y\n")) =
    (true, 3, 4, 4, true, false) := by decide +kernel

end BeagleG.Conformance.Config
