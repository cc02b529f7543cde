import Verif.Conformance.Planner
import Verif.Conformance.Parser
/-!
# Arcs and splines do what the tests of the project expect

The tests of arc-gen_test.cc and `arc_generation` of gcode-parser_test.cc, run on the model with the floating point
numbers of the machine. `#guard` evaluates the tests and fails the build if one is not met; nothing is proved
here.
-/
namespace BeagleG.Conformance.Arc
open BeagleG.Parser
open BeagleG.Conformance.Planner (truncate)

/-- `M_PI` -/
def pi : Float := 3.14159265358979323846

/-- The arithmetic of the machine, as far as arcs and simple words need it. -/
def num : Num Float where
  zero := 0
  one := 1
  minusOne := -1
  half := 0.5
  minusHalf := -0.5
  lt a b := a < b
  eq a b := a == b
  add a b := a + b
  sub a b := a - b
  mul a b := a * b
  div a b := a / b
  fmod a _ := a
  pow a _ := a
  abs a := a.abs
  floor a := a.floor
  ceil a := a.ceil
  trunc a := if a < 0 then a.ceil else a.floor
  exp a := a
  log a := a
  sqrt a := a.sqrt
  sinDeg a := a
  cosDeg a := a
  tanDeg a := a
  asinDeg a := a
  acosDeg a := a
  atan2Deg a b := a - b
  decimal a := decNat (a.toUInt64.toNat)
  strtof l := (Parser.readNumber l).map fun x => (Float.ofInt x.1.num / Float.ofNat x.1.den, x.2)
  tenth n := Float.ofInt n / 10
  hundredth := 0.01
  toInt := truncate
  ofInt n := Float.ofInt n
  neg a := -a
  hypot a b := (a * a + b * b).sqrt
  atan2 a b := Float.atan2 a b
  cos a := a.cos
  sin a := a.sin
  asin a := a.asin
  twoPi := 2 * pi
  halfPi := pi / 2
  onePlus := 1.000001
  oneMinus := 0.999999
  tiny := 0.00001

/-- A receiver that agrees with everything. -/
def receiver : Receiver Float where
  accepts _ := true
  clamp _ p := p
  probe _ := none
  reads _ := false
  takes _ := false
  discards _ := true
  load _ p := p
  allowM111 := false

/-- Home, `HOME_X` etc. of gcode-parser_test.cc. -/
def home (a : Axis) : Float := Float.ofInt (Parser.home a).num

/-- A parser that has not seen anything. -/
def fresh (home : Axes Float) : State Float := initial num (some fun _ => none) home

/-- The points of the moves, first one first. -/
def moves (st : State Float) : List (Axes Float) :=
  (st.log.filterMap fun | .coordinatedMove _ p => some p | _ => none).reverse

/-! ### arc-gen_test.cc -/

/-- `TestArcAccumulator`: the length of a path. -/
def len (start : Axes Float) : List (Axes Float) → Float
  | [] => 0
  | p :: ps =>
    let d (a : Axis) := p a - start a
    (d .X * d .X + d .Y * d .Y + d .Z * d .Z).sqrt + len p ps

/-- Rounding to single precision, the type of `AxesRegister`. -/
def single (x : Float) : Float := x.toFloat32.toFloat

/-- Two coordinates, the others zero. -/
def at_ (a b : Axis) (x y : Float) : Axes Float := fun c => if c = a then single x else if c = b then single y else 0

/-- A call of `arc_move`. -/
def arc (normal : Axis) (cw : Bool) (start center target : Axes Float) : List (Axes Float) :=
  moves (arcMove num receiver (fresh fun _ => 0) 100 normal cw start center target).1

/-- `EXPECT_NEAR` -/
def near (a b d : Float) : Bool := (a - b).abs ≤ d

/-- `TEST_ARC_STEP` -/
def arcStep : Float := 2 * pi / 255

/-- `testHalfTurnAnyStartPosition` -/
def halfTurn (cw : Bool) : Bool :=
  (List.range 256).all fun i =>
    let t := Float.ofNat i * arcStep
    let start := at_ .X .Y t.cos t.sin
    near (len start (arc .Z cw start (fun _ => 0) (at_ .X .Y (t + pi).cos (t + pi).sin))) pi 0.002

#guard halfTurn true
#guard halfTurn false

/-- The axes of a plane in lines 127-143. -/
def planeOf : Axis → Axis × Axis
  | .X => (.Y, .Z)
  | .Y => (.X, .Z)
  | _ => (.X, .Y)

/-- `testArcLength`, with the number of steps instead of the end. -/
def arcLength (normal : Axis) (cw : Bool) (start step : Float) (n : Nat) : Bool :=
  (List.range n).all fun i =>
    let t := start + Float.ofNat i * step
    let (a, b) := planeOf normal
    let from_ := at_ a b 1 0
    near (len from_ (arc normal cw from_ (fun _ => 0) (at_ a b t.cos t.sin))) (if cw then 2 * pi - t else t) 0.003

/-- `HIRES_TEST_CIRCLE_SEGMENT` -/
def hiresSegment : Float := 2 * pi / 1e12

/-- `HIRES_TEST_ARC_STEP` -/
def hiresStep : Float := arcStep / 1e12

/-- All three planes. -/
def planes (f : Axis → Bool) : Bool := f .X && f .Y && f .Z

/-- `ArcLength_CW_360`, `ArcLength_CW_HiRes_StartCircle`, `ArcLength_CW_HiRes_FullCircle` -/
def clockwise : Bool := planes fun a => arcLength a true arcStep arcStep 253 &&
  arcLength a true (2 * pi - hiresSegment) hiresStep 254 && arcLength a true hiresStep hiresStep 253
#guard clockwise

/-- `ArcLength_CCW_360`, `ArcLength_CCW_HiRes_StartCircle`, `ArcLength_CCW_HiRes_FullCircle` -/
def counterClockwise : Bool := planes fun a => arcLength a false arcStep arcStep 253 &&
  arcLength a false hiresStep hiresStep 253 && arcLength a false (2 * pi - hiresSegment) hiresStep 254
#guard counterClockwise

/-- `ArcLength_InterpolateNonEuclideanAxes` -/
def interpolated : List (Axes Float) :=
  arc .Z true (at_ .X .Y 1 0) (fun _ => 0) fun c => if c = .A then 20 else at_ .X .Y pi.cos pi.sin c
#guard match interpolated.getLast? with | some p => near (p .A) 20 0.003 | none => false

/-- `FullTurn_CW`, `FullTurn_CCW` -/
def fullTurn (cw : Bool) : Bool := planes fun n =>
  let p := at_ (planeOf n).1 (planeOf n).2 1 0
  near (len p (arc n cw p (fun _ => 0) p)) (2 * pi) 0.003
#guard fullTurn true
#guard fullTurn false

/-- `SimpleTests` of splines. -/
def spline (start cp1 cp2 target : Axes Float) : Float :=
  match splineMove num receiver (fresh fun _ => 0) 100 start cp1 cp2 target with
  | .ok r => len start (moves r.1)
  | _ => 0
#guard near 5 (spline (at_ .X .Y 0 0) (at_ .X .Y 2 0) (at_ .X .Y 3 0) (at_ .X .Y 5 0)) 0.003
#guard near 5 (spline (at_ .X .Y 0 0) (at_ .X .Y 0 2) (at_ .X .Y 0 3) (at_ .X .Y 0 5)) 0.003

/-! ### `arc_generation` of gcode-parser_test.cc -/

/-- The lines of a test: two to get to the start and the arc; then errors, number of segments of the arc, whether all of
them are on the circle, and where it ends (relative to home). -/
def arcTest (normal : Axis) (first second third : String) : Option (Bool × Nat × Bool × List Float) :=
  match runLines num receiver 10 (fresh home) [text first, text second] with
  | .ok st =>
    match runLines num receiver 10 { st with log := [] } [text third] with
    | .ok st =>
      let (a, b) := planeOf normal
      let ps := moves st
      some (st.log.any fun | .error => true | _ => false, ps.length,
        ps.all fun p => near (num.hypot (p a - home a) (p b - home b)) 100 0.001,
        match ps.getLast? with
        | some p => [Axis.X, .Y, .Z, .A, .B, .E].map fun c => p c - home c
        | none => [])
    | _ => none
  | _ => none

/-- What is expected of an arc that can be made. -/
def arcOk (normal : Axis) (first second third : String) (target : List Float) : Bool :=
  match arcTest normal first second third with
  | some (e, n, c, t) => !e && n > 500 && c && t == target
  | none => false

#guard arcOk .Z "G17" "G1 X0 Y100" "G2 I0 J-100 X100 Y0" [100, 0, 0, 0, 0, 0]
#guard arcOk .Z "G17" "G1 X0 Y100" "G2 I0 J-100 X0 Y100" [0, 100, 0, 0, 0, 0]
#guard arcOk .Z "G17" "G1 X0 Y100" "G2 R100 X100 Y0" [100, 0, 0, 0, 0, 0]
#guard arcOk .Z "G17" "G1 X0 Y100" "G2 R100 X100 Y0 Z18 A77 B12 E42" [100, 0, 18, 77, 12, 42]
#guard arcOk .Y "G18" "G1 X0 Z100" "G2 I0 K-100 X100 Z0" [100, 0, 0, 0, 0, 0]
#guard arcOk .Y "G18" "G1 X0 Z100" "G2 R100 X100 Z0" [100, 0, 0, 0, 0, 0]
#guard arcOk .X "G19" "G1 Y0 Z100" "G2 J0 K-100 Y100 Z0" [0, 100, 0, 0, 0, 0]
#guard arcOk .X "G19" "G1 Y0 Z100" "G2 R100 Y100 Z0" [0, 100, 0, 0, 0, 0]
#guard match arcTest .Z "G17" "G1 X0 Y100" "G2 R50 X100 Y0" with | some (e, n, _) => e && n = 0 | none => false

end BeagleG.Conformance.Arc
