import Verif.Setup.Model
import Verif.Hardware.AuxProps
import Verif.Conformance.Planner
/-!
# The machine control does what the tests of the project expect

The tests of gcode-machine-control_test.cc, run on the models of the start (`Setup.init`), the machine control and the
planner, with the floating point numbers of the machine. `#guard` evaluates the tests and fails the build if one is not
met; nothing is proved here.

The motor connectors are not configured in the test; they are assigned at the start.
-/
namespace BeagleG.Conformance.Machine
open BeagleG.Machine Hardware
open _root_.BeagleG.Planner (Axis Command)
open BeagleG.Conformance.Planner (floats)

/-- `init_test_config`, lines 25-36. -/
def config : Setup.Machine Float :=
  { Setup.Machine.default floats with
    stepsPerMm := fun a => if a.val ≤ 2 then 100 else 0
    acceleration := fun a => if a.val ≤ 2 then 1000 else 0
    maxFeedrate := fun a => if a.val ≤ 2 then Float.ofNat (a.val + 1) * 1000 else 0
    thresholdAngle := 0
    speedTuneAngle := 0
    requireHoming := false }

/-- `MockMotorOps`: the segments, last one first, and the calls of `WaitQueueEmpty`. -/
def mock : Queue Float (List (Command Float) × Nat) where
  enqueue := fun x c => ((x.1, (c :: x.2.1, x.2.2)), true)
  waitQueueEmpty := fun x => (x.1, (x.2.1, x.2.2 + 1))
  setExternalPosition := fun x _ _ => x
  motorEnable := fun x _ => x
  position := fun _ => none

/-- `Harness`, lines 96-122; no spindle. `none` if the machine control does not start. -/
def harness : Option (Env Float (List (Command Float) × Nat) Unit × State Float (List (Command Float) × Nat) Unit) := do
  let r ← Setup.init floats config (Hw.blank Float)
  let e : Env Float (List (Command Float) × Nat) Unit :=
    { A := floats, plan := r.planner, cfg := r.machine, cape := cramps, queue := mock, spindle := none
      read := fun _ _ => false, clock := fun _ => 0, patience := 10 }
  let p ← Planner.init floats e.plan e.backend (r.hw, ([], 0)) (homePos e)
  return (e, { planner := p, spindle := (), tick := 0, out := [], feedrate := -1, progFactor := 1, nextMotor := -1
               nextFan := -1, pauseEnabled := false, homing := .never })

/-- The events one after the other, and the answers. -/
def answers : List (Event Float) → Option (List (Answer Float) × State Float (List (Command Float) × Nat) Unit)
  | evs => do
    let (e, s) ← harness
    evs.foldlM (fun (p : List (Answer Float) × State Float (List (Command Float) × Nat) Unit) ev =>
      (handle e ev p.2).map fun r => (p.1 ++ [r.1], r.2)) ([], s)

/-- The segments: speeds and the steps of the first three motors. -/
def segments (evs : List (Event Float)) : List (Float × Float × List Int) :=
  ((answers evs).map fun r => r.2.planner.backend.2.1.reverse.map fun c =>
    (c.v0, c.v1, [c.steps 0, c.steps 1, c.steps 2])).getD []

/-- A position. -/
def at_ (x y a : Float) : Axis → Float := fun i => if i = 0 then x else if i = 1 then y else if i = 3 then a else 0

/-- What the moves were answered. -/
def bools (evs : List (Event Float)) : Option (List Bool × Nat) :=
  (answers evs).map fun r => (r.1.filterMap fun | .bool b => some b | _ => none, r.2.planner.backend.2.1.length)

/-- `initial_feedrate_not_set` -/
def feedrates : List (Event Float) := [.coordinated (-1) (at_ 0 0 100), .coordinated 42 (at_ 0 0 100), .coordinated (-1) (at_ 0 0 100)]
#guard bools feedrates = some ([false, true, true], 0)
#guard bools [.rapid (-1) (at_ 0 0 100)] = some ([true], 0)

/-- `straight_segments_same_speed` -/
def sameSpeed : List (Float × Float × List Int) :=
  segments [.coordinated 100 (at_ 100 0 0), .coordinated 100 (at_ 200 0 0), .motors false]
#guard sameSpeed == [(0, 10000, [500, 0, 0]), (10000, 10000, [9500, 0, 0]), (10000, 10000, [9500, 0, 0]), (10000, 0, [500, 0, 0])]

/-- `speed_clamping` -/
def speedClamping : List (Float × Float × List Int) := segments [.coordinated 1e10 (at_ 2000 2400 0), .motors false]
#guard speedClamping == [(0, 120000, [60000, 72000, 0]), (120000, 120000, [80000, 96000, 0]), (120000, 0, [60000, 72000, 0])]

/-- `straight_segments_speed_change` -/
def speedChange : List (Float × Float × List Int) :=
  segments [.coordinated 100 (at_ 100 0 0), .coordinated 50 (at_ 200 0 0), .motors false]
#guard speedChange == [(0, 10000, [500, 0, 0]), (10000, 10000, [9125, 0, 0]), (10000, 5000, [375, 0, 0]),
  (5000, 5000, [9875, 0, 0]), (5000, 0, [125, 0, 0])]

/-- Calls of `WaitQueueEmpty`, the lookahead and the segments. -/
def look (evs : List (Event Float)) : Option (Nat × Nat × Nat) :=
  (answers evs).map fun r => (r.2.planner.backend.2.2, r.2.planner.lookahead, r.2.planner.backend.2.1.length)

/-- `m181_stops_and_sets_lookahead` -/
def m181 (args : List (Char × Float)) : Event Float := .unprocessed 'M' 181 args
#guard look [.start] = some (0, 1024, 0)
#guard look [.start, m181 [('S', 100)]] = some (1, 100, 0)
#guard look [.start, m181 [('S', 100)], m181 []] = some (2, 1024, 0)
#guard look [.start, m181 [('S', 100)], m181 [], m181 [('S', -1)]] = some (2, 1024, 0)

/-- `set_get_lookahead`, on the planner: the answer and the lookahead. -/
def set (n : Int) : Option (Bool × Nat) := harness.map fun r =>
  let x := Planner.setLookahead r.2.planner n
  (x.2, x.1.lookahead)
#guard set (-1) = some (false, 1024)
#guard set (Planner.planningBufferCapacity + 1) = some (false, 1024)
#guard set (Planner.planningBufferCapacity - 1) = some (true, 1023)

end BeagleG.Conformance.Machine
