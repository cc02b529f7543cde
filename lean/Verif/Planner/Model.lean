/-!
# Model of `/repo/src/planner.cc`

The planner keeps a queue of segments, plans a speed profile over it and sends each segment to the
motors as up to three commands (acceleration, travel, deceleration).

Floating point: everything the code computes in `double`/`float` is done here with the operations of
a structure `Arith F` on an arbitrary type `F`. Nothing is assumed about these operations, so a
theorem stated for every `Arith` holds in particular for IEEE arithmetic with all its roundings,
overflows and NaNs. Theorems about exact arithmetic (C31, C32) use the instance for the reals.

Simplifications:
* `RingDeque<PlanningSegment, 1024>` is a `List` with at most 1023 elements; `append` beyond that is
  the failed assertion `none`. Justified by C01.
* `int` values are `Int`. `uint32_t` values are `Nat` with explicit reduction modulo 2^32.
* `float` and `double` are the same type `F`; a conversion is the operation `toFloat`.
* The class is one value `State`; the motor backend is a parameter.
* `ToJsonString`, debug output and `PLANNER_DEBUG` style code is left out.
-/
namespace BeagleG.Planner

/-- `GCodeParserAxis`, gcode-parser.h 45-57: X Y Z A B C U V W E. -/
abbrev Axis := Fin 10

/-- `BEAGLEG_NUM_MOTORS`, segment-queue.h 24. -/
abbrev Motor := Fin 8

/-- Arithmetic used by the planner; no laws. The operators and libm functions of planner.cc 155-460. -/
structure Arith (F : Type) where
  /-- conversion of an integer (implicit in C++) -/
  ofInt : Int → F
  add : F → F → F
  sub : F → F → F
  mul : F → F → F
  div : F → F → F
  /-- `std::fabs` -/
  abs : F → F
  sqrt : F → F
  acos : F → F
  cos : F → F
  /-- `<` -/
  lt : F → F → Bool
  /-- `<=` -/
  le : F → F → Bool
  /-- `==` -/
  eq : F → F → Bool
  /-- conversion to `int` -/
  toInt : F → Int
  /-- conversion to `uint32_t` -/
  toU32 : F → Nat
  /-- `std::lround`, converted to `int` -/
  lround : F → Int
  /-- rounding to `float` -/
  toFloat : F → F
  /-- `M_PI` -/
  pi : F
  /-- `1e-5` -/
  eps : F

/-- Conversion of an `int` to `uint32_t`. E.g. planner.cc 120, 707, 801. -/
def u32 (i : Int) : Nat := (i % 2 ^ 32).toNat

/-- The part of `MachineControlConfig` and of the hardware mapping used here.
`cfg_` and `hardware_mapping_`, planner.cc 248-249. -/
structure Config (F : Type) where
  stepsPerMm : Axis → F
  maxFeedrate : Axis → F
  acceleration : Axis → F
  thresholdAngle : F
  speedTuneAngle : F
  synchronous : Bool
  /-- bit `motor` of `axis_to_driver_[axis]` (hardware-mapping.h `GetMotorMap`) -/
  motorMap : Axis → Motor → Bool

variable {F : Type}

/-- `AxisTarget`, lines 60-79. -/
structure AxisTarget (F : Type) where
  positionSteps : Axis → Int
  deltaSteps : Axis → Int
  definingAxis : Axis
  startSpeed : F
  speed : F
  accel : F
  auxBits : Nat
  dx : F
  dy : F
  dz : F
  len : F

/-- `PlannedProfile`, lines 119-139. -/
structure Profile (F : Type) where
  accel : Nat
  travel : Nat
  decel : Nat
  v0 : F
  v1 : F
  v2 : F

/-- `TotalSteps`, line 125. -/
def Profile.total (p : Profile F) : Nat := (p.accel + p.travel + p.decel) % 2 ^ 32

/-- `PlanningSegment`, lines 252-266. -/
structure Segment (F : Type) where
  target : AxisTarget F
  planned : Profile F

/-- `LinearSegmentSteps`, segment-queue.h 28-42. -/
structure Command (F : Type) where
  v0 : F
  v1 : F
  auxBits : Nat
  steps : Motor → Int

section
variable (A : Arith F)

/-- 0. The literal, e.g. planner.cc 725. -/
def Arith.zero : F := A.ofInt 0

/-- `std::min`. E.g. planner.cc 155-172. -/
def Arith.min (a b : F) : F := if A.lt b a then b else a   -- `std::min`

/-- `AxisTarget()`/`*segment = {}`: all members zero. planner.cc 59-73, 412-435. -/
def AxisTarget.zero : AxisTarget F :=
  { positionSteps := fun _ => 0, deltaSteps := fun _ => 0, definingAxis := 0
    startSpeed := A.zero, speed := A.zero, accel := A.zero, auxBits := 0
    dx := A.zero, dy := A.zero, dz := A.zero, len := A.zero }

/-- A profile with all members zero. planner.cc 119-122. -/
def Profile.zero : Profile F := ⟨0, 0, 0, A.zero, A.zero, A.zero⟩

/-- `PlanningSegment` with all members zero. planner.cc 252-266. -/
def Segment.zero : Segment F := ⟨AxisTarget.zero A, Profile.zero A⟩

/-- `clamp_defining_axis_limit`, lines 155-169. -/
def clampDefiningAxisLimit (steps : Axis → Int) (limits : Axis → F) (d : Axis)
    (stepsPerMm : Axis → F) : F :=
  let l := (List.finRange 10).foldl (fun acc i =>
    if steps i = 0 then acc
    else
      let ratio := A.toFloat (A.abs (A.div
        (A.mul (A.mul (A.ofInt 1) (A.ofInt (steps i))) (stepsPerMm d))
        (A.mul (A.ofInt (steps d)) (stepsPerMm i))))
      A.min acc (A.div (limits i) ratio)) (limits d)
  A.mul l (stepsPerMm d)

/-- `uniformly_accelerated_ramp_distance`, lines 174-177. -/
def rampDistance (v0 v1 a : F) : F :=
  A.div (A.sub (A.mul v1 v1) (A.mul v0 v0)) (A.mul (A.ofInt 2) a)

/-- `uniformly_accelerated_ramp_speed`, lines 182-185. -/
def rampSpeed (s v0 a : F) : F :=
  A.sqrt (A.add (A.mul (A.mul (A.ofInt 2) a) s) (A.mul v0 v0))

/-- `find_uniformly_accelerated_ramps_intersection`, lines 189-200. -/
def rampsIntersection (v0 v1 a distance : F) : F :=
  let minV := if A.le v0 v1 then v0 else v1
  let maxV := if A.le v0 v1 then v1 else v0
  let reaching := rampDistance A minV maxV a
  A.add (A.mul reaching (A.ofInt (if A.lt v0 v1 then 1 else 0)))
    (A.div (A.sub distance reaching) (A.ofInt 2))

/-- `axis_delta_to_mm`, lines 227-231. -/
def axisDeltaToMm (cfg : Config F) (t : AxisTarget F) (a : Axis) : F :=
  if A.eq (cfg.stepsPerMm a) A.zero then A.zero
  else A.div (A.ofInt (t.deltaSteps a)) (cfg.stepsPerMm a)

/-- `euclidian_speed`, lines 446-453. -/
def euclidianSpeed (cfg : Config F) (t : AxisTarget F) : F :=
  let factor := if A.lt A.zero t.len
    then A.div (A.abs (axisDeltaToMm A cfg t t.definingAxis)) t.len else A.ofInt 1
  A.mul t.speed factor

/-- `get_speed_factor_for_axis`, lines 307-314. -/
def speedFactorForAxis (t : AxisTarget F) (a : Axis) : F :=
  if t.deltaSteps t.definingAxis = 0 then A.zero
  else if a = t.definingAxis then A.ofInt 1
  else A.abs (A.div (A.mul (A.ofInt 1) (A.ofInt (t.deltaSteps a)))
    (A.ofInt (t.deltaSteps t.definingAxis)))

/-- `get_speed_for_axis`, lines 318-321. -/
def speedForAxis (t : AxisTarget F) (a : Axis) : F := A.mul t.speed (speedFactorForAxis A t a)

/-- `euclid_distance`, lines 323-325. -/
def euclidDistance (x y z : F) : F :=
  A.sqrt (A.add (A.add (A.mul x x) (A.mul y y)) (A.mul z z))

/-- `within_acceptable_range`, lines 327-333. -/
def withinAcceptableRange (new old fraction : F) : Bool :=
  let d := A.mul fraction old
  if A.lt new (A.sub old d) then false
  else if A.lt (A.add old d) new then false
  else true

/-- The loop of `determine_joining_speed`, lines 377-397. -/
def joiningLoop (from_ to : AxisTarget F) : List Axis → Bool → F → F
  | [], _, speed => speed
  | a :: as, first, speed =>
    let fd := from_.deltaSteps a
    let td := to.deltaSteps a
    if fd = 0 ∧ td = 0 then joiningLoop from_ to as first speed
    else if fd = 0 ∨ td = 0 then A.zero
    else if (fd < 0 ∧ 0 < td) ∨ (0 < fd ∧ td < 0) then A.zero
    else
      let conv := A.div (A.mul (A.ofInt 1) (A.ofInt (from_.deltaSteps from_.definingAxis)))
        (A.ofInt fd)
      let goal := A.mul (speedForAxis A to a) conv
      if A.lt goal A.zero then A.zero
      else if first || withinAcceptableRange A goal speed A.eps then
        joiningLoop from_ to as false (A.min goal speed)
      else A.zero

/-- `determine_joining_speed`, lines 340-400. -/
def determineJoiningSpeed (cfg : Config F) (from_ to : AxisTarget F) : F :=
  let dot := A.add (A.add (A.mul from_.dx to.dx) (A.mul from_.dy to.dy)) (A.mul from_.dz to.dz)
  let mag := A.mul from_.len to.len
  if A.eq dot A.zero then A.zero
  else if A.lt dot A.zero then A.zero
  else
    let dotmag := A.div dot mag
    if withinAcceptableRange A (A.ofInt 1) dotmag A.eps then to.speed
    else
      let angle := A.abs (A.mul (A.acos dotmag) (A.div (A.ofInt 180) A.pi))
      if A.le (A.ofInt 45) angle then A.zero
      else if A.le angle cfg.thresholdAngle then
        if A.lt dot (A.ofInt 1) then
          A.mul to.speed (A.cos (A.mul (A.add angle cfg.speedTuneAngle)
            (A.div A.pi (A.ofInt 180))))
        else to.speed
      else joiningLoop A from_ to (List.finRange 10) true from_.speed

/-- `DecelerationPlanSegment`, lines 691-771: the new profile and the result. `next = none` is a
null pointer. -/
def decelerationPlan (seg : Segment F) (next : Option (Segment F)) : Profile F × Bool :=
  let target := seg.target
  let planned := seg.planned
  if A.eq target.speed A.zero then (planned, true)
  else
    let deltaSteps : Int := (target.deltaSteps target.definingAxis).natAbs
    let nextAxis := match next with
      | none => target.definingAxis
      | some n => n.target.definingAxis
    let nextV0 := match next with
      | none => A.zero
      | some n => A.min n.planned.v1 n.target.startSpeed
    let factor := speedFactorForAxis A target nextAxis
    let endSpeed := if A.eq factor A.zero then A.zero else A.div nextV0 factor
    if A.eq planned.v2 endSpeed && next.isSome then (planned, false)
    else if A.lt endSpeed target.speed then
      let stepsToMax := A.toInt (rampDistance A endSpeed target.speed target.accel)
      let decel := if stepsToMax > deltaSteps then u32 deltaSteps else u32 stepsToMax
      ({ planned with
          accel := 0
          decel := decel
          v1 := if stepsToMax > 0 then rampSpeed A (A.ofInt decel) endSpeed target.accel
                else target.speed
          travel := u32 (deltaSteps - decel)
          v2 := endSpeed }, true)
    else
      ({ planned with
          accel := 0, decel := 0, travel := u32 deltaSteps, v1 := target.speed
          v2 := target.speed }, true)

/-- `AccelerationPlanSegment`, lines 773-848. -/
def accelerationPlan (previous : Option (Segment F)) (seg : Segment F) : Profile F × Bool :=
  let target := seg.target
  let planned := seg.planned
  let previousV2 := match previous with
    | none => planned.v0
    | some p => p.planned.v2
  let factor := speedFactorForAxis A target target.definingAxis
  let startSpeed := if A.eq factor A.zero then A.zero else A.div previousV2 factor
  if A.eq planned.v1 A.zero then ({ planned with v0 := startSpeed }, false)
  else if A.le planned.v1 startSpeed then ({ planned with v0 := planned.v1, accel := 0 }, false)
  else
    let steps := planned.total
    let stepsToVmax := A.toU32 (rampDistance A startSpeed planned.v1 target.accel)
    if stepsToVmax ≤ planned.travel then
      ({ planned with v0 := startSpeed, accel := stepsToVmax
                      travel := planned.travel - stepsToVmax }, true)
    else
      let endSpeed := rampSpeed A (A.ofInt steps) startSpeed target.accel
      if A.lt planned.v2 endSpeed then
        let accel := A.toU32 (rampsIntersection A startSpeed planned.v2 target.accel (A.ofInt steps))
        let v1 := rampSpeed A (A.ofInt accel) startSpeed target.accel
        if A.le v1 planned.v2 then
          (⟨steps, 0, 0, startSpeed, v1, v1⟩, true)
        else
          (⟨accel, 0, u32 (steps - accel), startSpeed, v1, planned.v2⟩, true)
      else (⟨steps, 0, 0, startSpeed, endSpeed, endSpeed⟩, true)

/-- The backward pass of `UpdateMotionProfile`, lines 865-874, on the segments from
`num_segments_ready_` on, last one first. The result: the untouched segments, last one first, and
the ones to be handled by the forward pass, first one first. -/
def backwardPass : List (Segment F) → List (Segment F) → List (Segment F) × List (Segment F)
  | [], done => ([], done)
  | seg :: rest, done =>
    match decelerationPlan A seg done.head? with
    | (_, false) => (seg :: rest, done)
    | (p, true) => backwardPass rest ({ seg with planned := p } :: done)

/-- The forward pass, lines 881-892. `index` is the index of the first segment; the second component
of the result is the index of the first segment that accelerates. -/
def forwardPass : Option (Segment F) → Nat → List (Segment F) → List (Segment F) × Option Nat
  | _, _, [] => ([], none)
  | previous, index, seg :: rest =>
    let r := accelerationPlan A previous seg
    let seg' := { seg with planned := r.1 }
    let r' := forwardPass (some seg') (index + 1) rest
    (seg' :: r'.1, if r.2 then some index else r'.2)

/-- `UpdateMotionProfile`, lines 853-891: new buffer and new `num_segments_ready_`. -/
def updateMotionProfile (buffer : List (Segment F)) (ready : Nat) : List (Segment F) × Nat :=
  let fixed := buffer.take ready
  let b := backwardPass A (buffer.drop ready).reverse []
  let kept := fixed ++ b.1.reverse
  let f := forwardPass A none kept.length b.2
  (kept ++ f.1, f.2.getD ready)

/-- The part of `SegmentQueue` used here. segment-queue.h 51-80. -/
structure Backend (F β : Type) where
  enqueue : β → Command F → β × Bool
  waitQueueEmpty : β → β
  setExternalPosition : β → Motor → Int → β

/-- The class members that change. planner.cc 277-301. -/
structure State (F β : Type) where
  backend : β
  buffer : List (Segment F)
  /-- `num_segments_ready_` -/
  ready : Nat
  lookahead : Nat
  halted : Bool
  positionKnown : Bool

/-- `PLANNING_BUFFER_CAPACITY`, line 40. -/
def planningBufferCapacity : Nat := 1024

variable (cfg : Config F) {β : Type} (B : Backend F β)

/-- `assign_steps_to_motors` for all axes in turn: `HardwareMapping::AssignMotorSteps`,
hardware-mapping.cc 290-298. -/
def assignAll (steps : Axis → Int) : Motor → Int :=
  (List.finRange 10).foldl
    (fun out a => fun m => if cfg.motorMap a m then steps a else out m) (fun _ => 0)

/-- The three commands of a segment, lines 495-540. The acceleration and deceleration command are
those left zero if there is no such phase. -/
def accelCommand (seg : Segment F) : Command F :=
  if seg.planned.accel ≠ 0 then
    { auxBits := seg.target.auxBits, v0 := seg.planned.v0, v1 := seg.planned.v1
      steps := assignAll cfg fun a => A.lround (A.mul
        (A.div (A.ofInt seg.planned.accel) (A.ofInt seg.planned.total))
        (A.ofInt (seg.target.deltaSteps a))) }
  else { auxBits := seg.target.auxBits, v0 := A.zero, v1 := A.zero, steps := fun _ => 0 }

/-- The command for slowing down, lines 495-540. -/
def decelCommand (seg : Segment F) : Command F :=
  if seg.planned.decel ≠ 0 then
    { auxBits := seg.target.auxBits, v0 := seg.planned.v1, v1 := seg.planned.v2
      steps := assignAll cfg fun a => A.lround (A.mul
        (A.div (A.ofInt seg.planned.decel) (A.ofInt seg.planned.total))
        (A.ofInt (seg.target.deltaSteps a))) }
  else { auxBits := seg.target.auxBits, v0 := A.zero, v1 := A.zero, steps := fun _ => 0 }

/-- `subtract_steps`, lines 203-211, applied twice (lines 536-538). -/
def moveCommand (seg : Segment F) : Command F :=
  { auxBits := seg.target.auxBits, v0 := seg.planned.v1, v1 := seg.planned.v1
    steps := fun m => assignAll cfg seg.target.deltaSteps m
      - (accelCommand A cfg seg).steps m - (decelCommand A cfg seg).steps m }

/-- The result of the second `subtract_steps`: any step left? planner.cc 203-211, used at 458-580. -/
def hasMove (seg : Segment F) : Bool :=
  (List.finRange 8).any fun m => (moveCommand A cfg seg).steps m ≠ 0

/-- Lines 540-544: send a segment; `ret` is the variable of this name. -/
def sendSegment (b : β) (seg : Segment F) (ret : Bool) : β × Bool :=
  let b := if cfg.synchronous then B.waitQueueEmpty b else b
  let r := if seg.planned.accel ≠ 0 then B.enqueue b (accelCommand A cfg seg) else (b, ret)
  let r := if hasMove A cfg seg && r.2 then B.enqueue r.1 (moveCommand A cfg seg) else r
  if seg.planned.decel ≠ 0 && r.2 then B.enqueue r.1 (decelCommand A cfg seg) else r

/-- The loop of `issue_motor_move_if_possible`, lines 488-563. `none`: access to an empty buffer
(assertion of `RingDeque::operator[]`). -/
def issueLoop : Nat → State F β → Bool → Option (State F β × Bool)
  | 0, s, ret => some (s, ret)
  | n + 1, s, ret =>
    match s.buffer with
    | [] => none
    | seg :: rest =>
      let r := sendSegment A cfg B s.backend seg ret
      if rest ≠ [] then
        issueLoop n { s with backend := r.1, buffer := rest, ready := s.ready - 1 } r.2
      else
        let last : Segment F := { Segment.zero A with
          target := { AxisTarget.zero A with positionSteps := seg.target.positionSteps } }
        issueLoop n { s with backend := r.1, buffer := [last], ready := 0, halted := true } false

/-- Lines 466-483: how many segments to send. -/
def numSegments (size lookahead : Nat) (flush : Bool) : Nat :=
  let n := if flush then size else 0
  if n = 0 ∧ lookahead ≤ size then size - lookahead + 1 else n

/-- `issue_motor_move_if_possible`, lines 458-566. -/
def issue (s : State F β) (flush : Bool) : Option (State F β × Bool) :=
  issueLoop A cfg B (numSegments s.buffer.length s.lookahead flush) s true

/-- Lines 603-623: the axis with the most steps. -/
def definingAxis (delta : Axis → Int) : Int × Axis :=
  (List.finRange 10).foldl (fun acc a =>
    if ((delta a).natAbs : Int) > acc.1 then (((delta a).natAbs : Int), a) else acc) (-1, 0)

/-- Lines 603-661: the new target. -/
def newTarget (prev : AxisTarget F) (axis : Axis → F) (feedrate : F) (auxBits : Nat) :
    AxisTarget F :=
  let pos := fun a => A.lround (A.mul (axis a) (cfg.stepsPerMm a))
  let delta := fun a => pos a - prev.positionSteps a
  let d := (definingAxis delta).2
  let t : AxisTarget F := { AxisTarget.zero A with
    positionSteps := pos, deltaSteps := delta, auxBits := auxBits, definingAxis := d }
  let t := { t with dx := axisDeltaToMm A cfg t 0, dy := axisDeltaToMm A cfg t 1
                    dz := axisDeltaToMm A cfg t 2 }
  let t := { t with len := euclidDistance A t.dx t.dy t.dz }
  let t := { t with speed := A.mul feedrate (cfg.stepsPerMm d) }
  let t := { t with speed := euclidianSpeed A cfg t }
  let t := { t with startSpeed := t.speed }
  let t := { t with startSpeed := A.min (determineJoiningSpeed A cfg prev t) t.startSpeed }
  let maxSpeed := clampDefiningAxisLimit A delta cfg.maxFeedrate d cfg.stepsPerMm
  let t := { t with speed := A.min maxSpeed t.speed }
  { t with accel := clampDefiningAxisLimit A delta cfg.acceleration d cfg.stepsPerMm }

/-- `machine_move`, lines 582-676 (`Planner::Enqueue`). `auxBits` is what the hardware mapping
returns at this moment. `none`: a failed assertion. -/
def machineMove (s : State F β) (axis : Axis → F) (feedrate : F) (auxBits : Nat) :
    Option (State F β × Bool) :=
  if ¬ s.positionKnown ∨ planningBufferCapacity - 1 ≤ s.buffer.length then none
  else
    match s.buffer.getLast? with
    | none => none
    | some prev =>
      let t := newTarget A cfg prev.target axis feedrate auxBits
      if (definingAxis t.deltaSteps).1 = 0 then some (s, true)
      else
        let u := updateMotionProfile A (s.buffer ++ [⟨t, Profile.zero A⟩]) s.ready
        (issue A cfg B { s with buffer := u.1, ready := u.2 } false).map fun r =>
          ({ r.1 with halted := if r.2 then false else r.1.halted }, r.2)

/-- `bring_path_to_halt`, lines 678-683. -/
def bringPathToHalt (s : State F β) : Option (State F β) :=
  if s.halted then some s else (issue A cfg B s true).map Prod.fst

/-- `SetLookahead`, lines 239-243. -/
def setLookahead (s : State F β) (size : Int) : State F β × Bool :=
  if size ≤ 0 ∨ size > planningBufferCapacity then (s, false)
  else ({ s with lookahead := size.toNat }, true)

/-- `SetExternalPosition`, lines 935-948. -/
def setExternalPosition (s : State F β) (axis : Axis) (pos : F) : Option (State F β) :=
  match s.buffer with
  | [seg] =>
    if s.halted then
      let p := A.lround (A.mul pos (cfg.stepsPerMm axis))
      let t := { seg.target with
        positionSteps := fun a => if a = axis then p else seg.target.positionSteps a }
      let b := (List.finRange 8).foldl
        (fun b m => if cfg.motorMap axis m then B.setExternalPosition b m p else b) s.backend
      some { s with positionKnown := true, buffer := [{ seg with target := t }], backend := b }
    else none
  | _ => none

/-- `DirectDrive`, lines 910-933. -/
def directDrive (s : State F β) (axis : Axis) (distance v0 v1 : F) (auxBits : Nat) :
    Option (State F β × Int) :=
  (bringPathToHalt A cfg B s).map fun s =>
    let spm := cfg.stepsPerMm axis
    let maxSpeed := A.mul (cfg.maxFeedrate axis) spm
    let steps := A.lround (A.mul distance spm)
    let cmd : Command F :=
      { v0 := A.min (A.mul v0 spm) maxSpeed, v1 := A.min (A.mul v1 spm) maxSpeed
        auxBits := auxBits, steps := fun m => if cfg.motorMap axis m then steps else 0 }
    let b := B.waitQueueEmpty (B.enqueue s.backend cmd).1
    ({ s with positionKnown := false, backend := b }, steps)

/-- The constructor, lines 402-433; `home` is the home position of each axis. -/
def init (b : β) (home : Axis → F) : Option (State F β) :=
  let s : State F β :=
    { backend := b, buffer := [Segment.zero A], ready := 0, lookahead := planningBufferCapacity
      halted := true, positionKnown := true }
  (List.finRange 10).foldlM (fun s a => setExternalPosition A cfg B s a (home a)) s

/-- Calls of the planner. The public methods, planner.cc 952-984. -/
inductive Op (F : Type) where
  | move (axis : Axis → F) (feedrate : F) (auxBits : Nat)
  | halt
  | lookahead (size : Int)
  | external (axis : Axis) (pos : F)
  | direct (axis : Axis) (distance v0 v1 : F) (auxBits : Nat)

/-- The effect of a call; results are left out. planner.cc 952-984. -/
def step (s : State F β) : Op F → Option (State F β)
  | .move axis feed aux => (machineMove A cfg B s axis feed aux).map Prod.fst
  | .halt => bringPathToHalt A cfg B s
  | .lookahead n => some (setLookahead s n).1
  | .external a p => setExternalPosition A cfg B s a p
  | .direct a d v0 v1 aux => (directDrive A cfg B s a d v0 v1 aux).map Prod.fst

/-- Calls in turn. The machine control calls the methods of planner.cc 952-984 in turn; no code of its own. -/
def run (s : State F β) (ops : List (Op F)) : Option (State F β) :=
  ops.foldlM (step A cfg B) s

end

end BeagleG.Planner
