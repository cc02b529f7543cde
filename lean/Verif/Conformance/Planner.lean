import Verif.Planner.Model
/-!
# The planner does what the tests of the project expect

The unit tests of planner_test.cc, run on the model with the floating point numbers of the machine. `#guard` evaluates the
tests and fails the build if one is not met; nothing is proved here, and no theorem depends on it.

The test `StraightLine_SingleSegment` compares only what it calls segments of a symmetric profile; it is included as
written. Left out: what is only printed.
-/
namespace BeagleG.Conformance.Planner
open BeagleG.Planner

/-- Truncation towards zero. -/
def truncate (x : Float) : Int := if x < 0 then -(Int.ofNat (-x).toUInt64.toNat) else Int.ofNat x.toUInt64.toNat

/-- The arithmetic of the machine. -/
def floats : Arith Float where
  ofInt := Float.ofInt
  add := (· + ·)
  sub := (· - ·)
  mul := (· * ·)
  div := (· / ·)
  abs := Float.abs
  sqrt := Float.sqrt
  acos := Float.acos
  cos := Float.cos
  lt := fun a b => a < b
  le := fun a b => a ≤ b
  eq := (· == ·)
  toInt := truncate
  toU32 := fun x => x.toUInt64.toNat % 2 ^ 32
  lround := fun x => truncate x.round
  toFloat := fun x => x.toFloat32.toFloat
  pi := 3.14159265358979323846
  eps := 1e-5

/-- `InitTestConfig`, lines 57-72. -/
def testConfig (threshold tune : Float) : Config Float where
  stepsPerMm := fun a => if a = 0 then 1000 else if a = 1 then 4000 else if a = 2 then 16000 else 0
  maxFeedrate := fun a => if a.val ≤ 2 then 10000 else 0
  acceleration := fun a => if a.val ≤ 2 then 100 else 0
  thresholdAngle := threshold
  speedTuneAngle := tune
  synchronous := false
  motorMap := fun a m => a.val = m.val && a.val ≤ 2

/-- Another value for X or Y. -/
def withXY (x y : Float) (f : Axis → Float) : Axis → Float := fun a => if a = 0 then x else if a = 1 then y else f a

/-- `FakeMotorOperations`, lines 76-171: the segments, last one first. -/
def fake : Backend Float (List (Command Float)) where
  enqueue := fun l c => (c :: l, true)
  waitQueueEmpty := id
  setExternalPosition := fun l _ _ => l

/-- A position. -/
def at_ (x y : Float) : Axis → Float := fun a => if a = 0 then x else if a = 1 then y else 0

/-- `PlannerHarness`, lines 173-225: all calls, and then the path is brought to halt. -/
def harness (cfg : Config Float) (ops : List (Op Float)) : List (Command Float) :=
  (((init floats cfg fake [] fun _ => 0).bind fun s => run floats cfg fake s (ops ++ [.halt])).map
    fun s => s.backend.reverse).getD []

/-- A target. -/
def go (x y feed : Float) : Op Float := .move (at_ x y) feed 0

/-- `EXPECT_NEAR_REL`, lines 24-54. -/
def near (a b err : Float) : Bool := (a - b).abs ≤ err * (if a.abs < b.abs then b.abs else a.abs)

/-- `GetDefiningMotor`, lines 227-234. -/
def definingMotor (c : Command Float) : Motor :=
  (List.finRange 8).foldl (fun m i => if (c.steps i).natAbs > (c.steps m).natAbs then i else m) 0

/-- The axis of a motor. -/
def axisOf (m : Motor) : Axis := ⟨m.val, by omega⟩

/-- `VerifySegmentConstraints`, lines 250-273. -/
def constraints (cfg : Config Float) (c : Command Float) : Bool :=
  (List.finRange 8).all fun i =>
    if c.steps i = 0 then true
    else
      let d := definingMotor c
      let factor := if i = d then 1 else (Float.ofInt (c.steps i) / Float.ofInt (c.steps d)).abs
      let v1 := factor * c.v0
      let v2 := factor * c.v1
      let accel := ((v2 * v2 - v1 * v1) / (2 * Float.ofInt (c.steps i))).abs
      let maxAccel := cfg.acceleration (axisOf i) * cfg.stepsPerMm (axisOf i)
      let maxFeed := cfg.maxFeedrate (axisOf i) * cfg.stepsPerMm (axisOf i)
      c.v0 ≤ maxFeed && c.v1 ≤ maxFeed &&
        (c.v0 == c.v1 || accel ≤ maxAccel || near accel maxAccel 1e-3)

/-- `VerifySpeedWithTolerance`, lines 280-289. -/
def almostZero (cfg : Config Float) (c : Command Float) (speed : Float) : Bool :=
  let d := axisOf (definingMotor c)
  let v := speed / cfg.stepsPerMm d
  let accel := (v * v / 2).abs
  accel * accel - accel * cfg.acceleration d ≤ 0

/-- `VerifyCommonExpectations`, lines 292-317. As there, the last segment is not checked for the limits. -/
def common (cfg : Config Float) (l : List (Command Float)) : Bool :=
  match l.head?, l.getLast? with
  | some a, some z =>
    a.v0 + a.v1 > 0 && almostZero cfg a a.v0 && almostZero cfg z z.v1 &&
      (l.zip l.tail).all fun p =>
        (definingMotor p.1 ≠ definingMotor p.2 || p.1.v1 == p.2.v0) && constraints cfg p.1
  | _, _ => false

/-- Steps of the first motors altogether. -/
def total (l : List (Command Float)) (m : Motor) : Int := l.foldl (fun n c => n + c.steps m) 0

/-- `SimpleMove_NeverReachingFullSpeed` -/
def neverFull : List (Command Float) := harness (testConfig 0 0) [go 100 100 1000]
#guard neverFull.length = 2 && common (testConfig 0 0) neverFull

/-- `SimpleMove_ReachesFullSpeed` -/
def full : List (Command Float) := harness (testConfig 0 0) [go 100 100 10]
#guard full.length = 3 && common (testConfig 0 0) full

/-- `parametrizedAxisClamping`, lines 374-450. -/
def clampingConfig (defining slow : Axis) : Config Float :=
  let value (v : Float) (a : Axis) := if a = slow then v else v * 17
  let steps (a : Axis) : Float := if a = defining then 12345 else 1000
  { testConfig 0 0 with
    maxFeedrate := withXY (value 10 0) (value 10 1) (testConfig 0 0).maxFeedrate
    acceleration := withXY (value 100 0) (value 100 1) (testConfig 0 0).acceleration
    stepsPerMm := withXY (steps 0) (steps 1) (testConfig 0 0).stepsPerMm }

/-- The checks of it. -/
def clamping (defining slow : Motor) : Bool :=
  let cfg := clampingConfig (axisOf defining) (axisOf slow)
  match harness cfg [go 1000 3000 100000] with
  | [a, c, _] =>
    let ratio := Float.ofInt (c.steps slow) / Float.ofInt (c.steps defining)
    let speed := c.v0 * ratio
    let accel := (a.v1 * a.v1 - a.v0 * a.v0) * ratio / (2 * Float.ofInt (a.steps defining))
    c.v0 == c.v1 && a.v0 < a.v1 && near (10 * cfg.stepsPerMm (axisOf slow)) speed 0.001 &&
      near (100 * cfg.stepsPerMm (axisOf slow)) accel 0.001
  | _ => false

#guard clamping 0 0
#guard clamping 0 1
#guard clamping 1 0
#guard clamping 1 1

/-- `DoAngleMove`, lines 469-509. -/
def angleMove (threshold tune start delta : Float) : List (Command Float) × Bool :=
  let cfg := testConfig threshold tune
  let r := 2 * floats.pi * start / 360
  let r' := r + 2 * floats.pi * delta / 360
  let x := 10 * r.cos
  let y := 10 * r.sin
  let x' := 10 * r'.cos + x
  let y' := 10 * r'.sin + y
  let l := harness cfg [go x y 3000, go x' y' 3000]
  (l, total l 0 = floats.lround (x' * 1000) && total l 1 = floats.lround (y' * 4000) && total l 2 = 0 && common cfg l)

/-- `ShortSegment_EdgeCases` -/
def edgeConfig : Config Float :=
  { testConfig 5 0 with
    stepsPerMm := withXY 1 1 (testConfig 5 0).stepsPerMm
    acceleration := withXY 99 99 (testConfig 5 0).acceleration }

/-- The path of it. -/
def edge : List (Command Float) :=
  harness edgeConfig [go 6 200 100, go 9 300 100, go 13 150 100, go 16 250 100, go 22 450 100]
#guard total edge 0 = 22 && total edge 1 = 450 && total edge 2 = 0

/-- `CornerMove_90Degrees` -/
def corner : List (Command Float) × Bool := angleMove 5 0 0 90
#guard corner.2 && match corner.1 with | [_, b, c, _] => b.v1 == 0 && b.v1 == c.v0 | _ => false

/-- `testShallowAngleAllStartingPoints`, lines 586-622. -/
def shallow (threshold angle : Float) : Bool :=
  (List.range 144).all fun i =>
    let r := angleMove threshold 0 (Float.ofNat i * (threshold / 2)) angle
    r.2 && r.1.length ≥ 2 && (r.1.drop 1).all (fun c => c.v0 > 0) && r.1.dropLast.all fun c => c.v1 > 0

/-- `StraightLine_LotsOfSteps` -/
def lots : List (Command Float) := harness (testConfig 0 0) ((List.range 10).map fun i => go (Float.ofNat (i + 1)) 0 1000)
#guard common (testConfig 0 0) lots

/-- `StraightLine_SlowSegment` -/
def slowConfig : Config Float :=
  { testConfig 0 0 with acceleration := withXY 4200 100 (testConfig 0 0).acceleration }
#guard common slowConfig (harness slowConfig [go 100 0 1])

/-- `StraightLine_SingleSegment` -/
def singleConfig : Config Float :=
  { testConfig 0 0 with
    stepsPerMm := fun a => if a = 0 then 1 else 0
    maxFeedrate := fun a => if a = 0 then 999999 else 0
    acceleration := fun a => if a = 0 then 100 else 0 }

/-- One target. -/
def single : List (Command Float) := harness singleConfig [go 100 0 500]

/-- Two targets. -/
def double : List (Command Float) := harness singleConfig [go 100 0 500, go 200 0 500]
#guard match single.getLast? with | some z => z.v1 == 0 | none => false
#guard match double.head?, double.getLast? with
  | some a, some z => near a.v0 0 1e-3 && a.v1 ≥ 0 && z.v1 == 0 && z.v0 ≥ 0 &&
      (double.drop 1).dropLast.all fun c => c.v0 > c.v1
  | _, _ => false

/-- `CornerMove_Shallow_PositiveAngle` and `CornerMove_Shallow_NegativeAngle` -/
def shallowAngle : Float := 0.7 * 5
#guard shallow 5 shallowAngle
#guard shallow 5 (-shallowAngle)

/-- `DetectOutRangeAcceleration`. The angle of 2.5 is not used, as the harness is given a configuration. -/
def rangeConfig : Config Float :=
  { testConfig 0 0 with stepsPerMm := withXY 1000 1000 (testConfig 0 0).stepsPerMm }

/-- The path of it. -/
def rangePath : List (Command Float) :=
  harness rangeConfig [go 60 250 10000, go 60 100 10000, go 60 99.9 10000, go 60 99.8 10000, go 60 99.7 10000,
    go 60.1 99.6 10000, go 60.2 99.5 10000, go 60.3 99.5 10000, go 60.4 99.4 10000]

/-- `acceleration_segment`, lines 754-758, of the axis with more steps. -/
def segmentAccel (c : Command Float) : Int :=
  let s := if (c.steps 0).natAbs > (c.steps 1).natAbs then c.steps 0 else c.steps 1
  if s = 0 then 0 else truncate ((c.v1 * c.v1 - c.v0 * c.v0) / (2 * Float.ofInt s.natAbs))

#guard common rangeConfig rangePath && rangePath.all fun c => Float.ofInt (segmentAccel c).natAbs ≤ 100 * 1000 * 1.003

/-- The line of `StraightLine_ProfileSymmetry` and of the fixture for the lookahead. -/
def line : List (Op Float) := (List.range 200).map fun i => go (Float.ofNat (10 * (i + 1))) 0 10000

/-- `StraightLine_ProfileSymmetry` -/
def symmetric : List (Command Float) := harness (testConfig 0 0) line
#guard
  let sign (c : Command Float) : Int := truncate (c.v1 - c.v0)
  let accel := total (symmetric.filter fun c => sign c > 0) 0
  let decel := total (symmetric.filter fun c => sign c < 0) 0
  accel > 0 && decel > 0 && accel = decel && total symmetric 0 = 200 * 10 * 1000

/-- `TestPlannerWithLookaheadFixture`, lines 903-933: how many targets had segments sent, the segments, how many begin or
end with a stop, the greatest speed. -/
def lookahead (n : Int) : Nat × Nat × Nat × Float :=
  let cfg := testConfig 0 0
  match (init floats cfg fake [] fun _ => 0).bind fun s => run floats cfg fake s [.lookahead n] with
  | none => (0, 0, 0, 0)
  | some s =>
    let r := line.foldl (fun (p : Option (State Float (List (Command Float))) × Nat) o =>
      match p.1 with
      | none => p
      | some s =>
        let s' := step floats cfg fake s o
        (s', if (s'.map fun x => x.backend.length).getD 0 > s.backend.length then p.2 + 1 else p.2)) (some s, 0)
    let l := ((r.1.bind fun s => run floats cfg fake s [.halt]).map fun s => s.backend.reverse).getD []
    (r.2, l.length, (l.filter fun c => c.v0 == 0 || c.v1 == 0).length,
      l.foldl (fun m c => if m < c.v0 then (if c.v0 < c.v1 then c.v1 else c.v0) else if m < c.v1 then c.v1 else m) 0)

/-- The checks of `StraightLine_DifferentLookahead`. -/
def lookaheadOk (n : Int) (freq : Float) (stops : Nat) (speed : Float) : Bool :=
  let r := lookahead n
  near freq (Float.ofNat r.1 / Float.ofNat r.2.1) 1e-6 && r.2.2.1 = stops && r.2.2.2 < speed

#guard lookaheadOk 1 0.5 400 35000
#guard lookaheadOk 2 0.5 2 60000
#guard lookaheadOk 200 0.005 2 450000

end BeagleG.Conformance.Planner
