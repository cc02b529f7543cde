import Verif.MotorOps.Model
import Verif.Planner.Model
/-!
# Model of the timing values in `/repo/src/motion-queue-motor-operations.cc`

This is the floating point part left open (`Timing`) in `MotorOps.Model`: which phase a segment is in, its series index and
its delays (lines 48-67, 154-203), and the speeds of the parts a long segment is cut into (lines 283-284, 295, 305-320).

Simplifications:
* Arithmetic is the abstract `Planner.Arith`. An operation on `float` is the operation on `double` followed by rounding to
  `float`.
* `round2int` (line 52) is `Arith.lround`. Whether the result fits an `int` is left to the theorems.
-/
namespace BeagleG.MotorOps

open Planner (Arith u32)
open StepGen (Motor)

variable {F : Type} (A : Arith F)

/-- Operations on `float`. motion-queue-motor-operations.cc 50-67, 118-209. -/
def fadd (a b : F) : F := A.toFloat (A.add a b)
/-- `-` on `float`. motion-queue-motor-operations.cc 50-67, 118-209. -/
def fsub (a b : F) : F := A.toFloat (A.sub a b)
/-- `*` on `float`. motion-queue-motor-operations.cc 50-67, 118-209. -/
def fmul (a b : F) : F := A.toFloat (A.mul a b)
/-- `/` on `float`. motion-queue-motor-operations.cc 50-67, 118-209. -/
def fdiv (a b : F) : F := A.toFloat (A.div a b)
/-- `sqrtf` on `float`. motion-queue-motor-operations.cc 62, 66. -/
def fsqrt (a : F) : F := A.toFloat (A.sqrt a)
/-- An `int` where a `float` is expected. motion-queue-motor-operations.cc 61-66, 118-209. -/
def fint (n : Int) : F := A.toFloat (A.ofInt n)

/-- `TIMER_FREQUENCY`, motor-interface-constants.h 28: `200000000.0 / 2`. -/
def timerFrequency : F := A.ofInt 100000000

/-- `hardware_frequency_limit_`, line 48. -/
def frequencyLimit : F := fint A 1000000

/-- `sq`, line 50. -/
def sqf (x : F) : F := fmul A x x

/-- `clip_hardware_frequency_limit`, lines 55-57. -/
def clipFrequency (v : F) : F := if A.lt v (frequencyLimit A) then v else frequencyLimit A

/-- `0.67605f`, line 65. -/
def firstStep : F := A.toFloat (A.div (A.ofInt 67605) (A.ofInt 100000))

/-- `calcAccelerationCurveValueAt`, lines 59-67. -/
def curveValueAt (index : Int) (acceleration : F) : F :=
  let factor := A.toFloat (A.div
    (A.mul (timerFrequency A) (fsqrt A (fdiv A (fmul A (fint A 2) (fint A 2)) acceleration))) (A.ofInt 2))
  let c0 := if index = 0 then fmul A factor (firstStep A) else factor
  fmul A c0 (fsub A (fsqrt A (fint A (index + 1))) (fsqrt A (fint A index)))

/-- Lines 170-171 and 190-191: the acceleration, from the larger speed, the smaller speed and the number of steps. -/
def rampAcceleration (fast slow : F) (D : Nat) : F :=
  fdiv A (fsub A (sqf A fast) (sqf A slow)) (fmul A (fint A 2) (fint A D))

/-- Lines 176-177 and 195-196: loops needed to accelerate from zero to `v`. -/
def loopsFromZero (v acceleration : F) : Int :=
  A.lround (fmul A (fint A 2) (fdiv A (sqf A (fsub A v (fint A 0))) (fmul A (fint A 2) acceleration)))

/-- Lines 179-183 and 198-202: series index and cycle count for a phase starting with speed `v`. -/
def rampTiming (phase : Phase) (v acceleration : F) : Timing :=
  let index := u32 (loopsFromZero A v acceleration)
  { phase := phase
    index := index
    cycles := u32 (A.lround (fmul A (fint A 32) (curveValueAt A index acceleration)))
    delay := 0 }

/-- Lines 154-203: the timing of a segment of `D` steps with speeds `v0` and `v1`. -/
def segmentTiming (v0 v1 : F) (D : Nat) : Timing :=
  if A.eq v0 v1 then
    { phase := .travel, index := 0, cycles := 0
      delay := u32 (A.lround (A.toFloat (A.div (timerFrequency A) (fmul A (fint A 2) (clipFrequency A v0))))) }
  else if A.lt v0 v1 then rampTiming A .accel v0 (rampAcceleration A v1 v0 D)
  else rampTiming A .decel v0 (rampAcceleration A v0 v1 D)

/-- Lines 300-304, 319: steps of the `d`-th of `n` parts. -/
def partSteps (steps : Motor → Int) (n d : Nat) : Motor → Int := fun i =>
  ((d + 1 : Nat) * hiresStepsPerDiv (steps i) n) / 2 ^ 32 - (d * hiresStepsPerDiv (steps i) n) / 2 ^ 32

/-- `sqd`, line 51. -/
def sqd (x : F) : F := A.mul x x

/-- Lines 283-284. -/
def totalAcceleration (v0 v1 : F) (D : Nat) : F :=
  A.div (A.sub (sqd A v1) (sqd A v0)) (A.mul (A.ofInt 2) (A.ofInt D))

/-- `previous_speed` at the start of part `d`: lines 295, 305-314, 320. -/
def partSpeed (steps : Motor → Int) (v0 v1 : F) (n : Nat) : Nat → F
  | 0 => v0
  | d + 1 =>
    let a := totalAcceleration A v0 v1 (definingAxisSteps steps)
    let v0squared := sqd A (partSpeed steps v0 v1 n d)
    let v1squared := A.add v0squared
      (A.mul (A.mul (A.ofInt 2) a) (A.ofInt (definingAxisSteps (partSteps steps n d))))
    if A.lt A.zero v1squared then A.sqrt v1squared else A.zero

/-- `Enqueue`, lines 263-333: the timing of the `d`-th hardware segment made from a move. -/
def hostTiming (steps : Motor → Int) (v0 v1 : F) (d : Nat) : Timing :=
  let D := definingAxisSteps steps
  if D > maxStepsPerSegment then
    let n := divisions D
    segmentTiming A (A.toFloat (partSpeed A steps v0 v1 n d)) (A.toFloat (partSpeed A steps v0 v1 n (d + 1)))
      (definingAxisSteps (partSteps steps n d))
  else segmentTiming A v0 v1 D

end BeagleG.MotorOps
