import Verif.StepGen.Model
/-!
# Model of `/repo/src/motion-queue-motor-operations.cc`

`MotionQueueMotorOperations` turns moves given in motor steps into the hardware
segments of `StepGen` and keeps a history to answer position queries.

Simplifications:
* Speeds and everything computed from them in floating point (which phase a segment
  is in, series index, delay cycles; lines 154-203, 283-284, 306-316) are an arbitrary
  parameter `Timing`. Theorems hold for every value of it.
* `int` is `Int`. Theorems state the ranges they need (`|steps| < 2^31`).
-/
namespace BeagleG.MotorOps

open StepGen (Motor MotionSegment)

/-- `LOOPS_PER_STEP`, line 40. -/
def loopsPerStep : Nat := 2

/-- `MAX_STEPS_PER_SEGMENT`, line 44: `65535 / LOOPS_PER_STEP`. -/
def maxStepsPerSegment : Nat := 65535 / loopsPerStep

/-- `max_fraction = 0xFFFFFFFF / LOOPS_PER_STEP`, lines 132 and 220. -/
def maxFraction : Nat := 0xFFFFFFFF / loopsPerStep

/-- The operations of the hardware backend used here (`motion-queue.h:99-131`); `β` is
the state of the backend. `enqueue` and `waitQueueEmpty` block in reality. -/
structure Backend (β : Type) where
  enqueue : β → MotionSegment → β × Bool
  /-- `GetPendingElements`: number of elements, and loops left in the one executing. -/
  pending : β → Nat × Nat
  motorEnable : β → Bool → β
  waitQueueEmpty : β → β

/-- Which of the three cases of lines 154-203 applies. -/
inductive Phase where
  | accel
  | travel
  | decel

/-- The timing values computed in floating point, lines 154-203. -/
structure Timing where
  phase : Phase
  index : Nat
  cycles : Nat
  delay : Nat

/-- `HistoryPositionInfo`, lines 91-97. -/
structure HistoryPos where
  position : Int
  fraction : Nat
  sign : Int

/-- Default constructor, line 92. -/
def HistoryPos.default : HistoryPos := ⟨0, 0, 1⟩

/-- `HistorySegment`, lines 100-103. -/
structure HistorySegment where
  pos : Motor → HistoryPos
  aux : Nat

/-- Value-initialised `HistorySegment` (line 111 and `deque::resize`). -/
def HistorySegment.default : HistorySegment := ⟨fun _ => .default, 0⟩

/-- State: the backend and the shadow queue, newest first.
motion-queue-motor-operations.cc 105-112 (members `backend_`, `shadow_queue_`). -/
structure State (β : Type) where
  backend : β
  shadow : List HistorySegment

/-- Constructor, lines 105-112. -/
def State.init {β : Type} (b : β) : State β := ⟨b, [.default]⟩

/-- A move in motor steps (`LinearSegmentSteps`, `segment-queue.h:28-42`) without its
speeds, see `Timing`. -/
structure LinearSegment where
  steps : Motor → Int
  aux : Nat

/-- `get_defining_axis_steps`, lines 255-261. -/
def definingAxisSteps (steps : Motor → Int) : Nat :=
  (List.finRange 8).foldl (fun acc i => max (steps i).natAbs acc) 0

/-- Lines 133-141: the direction bit of motor `i`. -/
def dirBit (flip : Motor → Bool) (steps : Motor → Int) (i : Motor) : Bool :=
  if steps i < 0 then !flip i else flip i

/-- Lines 133-141: `direction_bits |= (1 << i)` for all motors. -/
def directionBits (flip : Motor → Bool) (steps : Motor → Int) : Nat :=
  (List.finRange 8).foldl
    (fun acc i => if dirBit flip steps i then acc ||| (1 <<< i.val) else acc) 0

/-- Lines 120-206: the hardware segment built for `D` steps of the defining axis.
The loop counts are stored in 16 bit fields, the fractions in 32 bit fields. -/
def buildSegment (flip : Motor → Bool) (seg : LinearSegment) (D : Nat) (t : Timing) :
    MotionSegment :=
  let total := loopsPerStep * D % 2 ^ 16
  { directionBits := directionBits flip seg.steps
    loopsAccel := match t.phase with | .accel => total | _ => 0
    loopsTravel := match t.phase with | .travel => total | _ => 0
    loopsDecel := match t.phase with | .decel => total | _ => 0
    aux := seg.aux
    accelSeriesIndex := match t.phase with | .travel => 0 | _ => t.index
    hiresAccelCycles := match t.phase with | .travel => 0 | _ => t.cycles
    travelDelayCycles := match t.phase with | .travel => t.delay | _ => 0
    fractions := fun i => (seg.steps i).natAbs * maxFraction / D % 2 ^ 32 }

/-- Lines 124, 133-148: the history entry of a segment following `last`. -/
def nextHistory (last : HistorySegment) (seg : LinearSegment) (D : Nat) : HistorySegment :=
  { pos := fun i =>
      { position := (last.pos i).position + seg.steps i
        fraction := (seg.steps i).natAbs * maxFraction / D % 2 ^ 32
        sign := if seg.steps i < 0 then -1 else 1 }
    aux := seg.aux }

variable {β : Type}

/-- `EnqueueInternal`, lines 118-209. `none`: `front()` of an empty deque. -/
def enqueueInternal (B : Backend β) (flip : Motor → Bool) (s : State β)
    (seg : LinearSegment) (D : Nat) (t : Timing) : Option (State β × Bool) :=
  match s.shadow with
  | [] => none
  | last :: rest =>
    let b := B.motorEnable s.backend true
    let r := B.enqueue b (buildSegment flip seg D t)
    some (⟨r.1, nextHistory last seg D :: last :: rest⟩, r.2)

/-- `std::deque::resize(n)`: drop from the back or append default elements.
motion-queue-motor-operations.cc 216, 252, 331. -/
def resize (l : List HistorySegment) (n : Nat) : List HistorySegment :=
  l.take n ++ List.replicate (n - l.length) .default

/-- Lines 329-331 (also 214-216, 250-252): shrink the shadow queue. -/
def shrink (B : Backend β) (s : State β) : State β :=
  let size := (B.pending s.backend).1
  { s with shadow := resize s.shadow (if size > 0 then size else 1) }

/-- Line 285. motion-queue-motor-operations.cc 285. -/
def divisions (D : Nat) : Nat := D / maxStepsPerSegment + 1

/-- Lines 289-290: `((int64_t)steps << 32) / divisions + 1`; C++ division truncates
towards zero. -/
def hiresStepsPerDiv (steps : Int) (n : Nat) : Int := (steps * 2 ^ 32).tdiv n + 1

/-- The loop of lines 299-321. `d` counts the divisions done, `acc` is
`hires_step_accumulator`, `prev` is `previous.steps`. `n` is the number of divisions
left. The value returned for `n = 0` is the last result. -/
def splitLoop (B : Backend β) (flip : Motor → Bool) (aux : Nat) (timing : Nat → Timing)
    (hires : Motor → Int) :
    (n d : Nat) → (acc prev : Motor → Int) → State β → Bool → Option (State β × Bool)
  | 0, _, _, _, s, ret => some (s, ret)
  | n + 1, d, acc, prev, s, _ =>
    let acc' := fun i => acc i + hires i
    let now := fun i => acc' i / 2 ^ 32          -- arithmetic `>> 32`
    let out : LinearSegment := ⟨fun i => now i - prev i, aux⟩
    match enqueueInternal B flip s out (definingAxisSteps out.steps) (timing d) with
    | none => none
    | some (s', false) => some (s', false)
    | some (s', true) => splitLoop B flip aux timing hires n (d + 1) acc' now s' true

/-- `Enqueue`, lines 263-333. `timing d` is the timing of the `d`-th part. -/
def enqueue (B : Backend β) (flip : Motor → Bool) (timing : Nat → Timing) (s : State β)
    (seg : LinearSegment) : Option (State β × Bool) :=
  let D := definingAxisSteps seg.steps
  let r :=
    if D = 0 then
      match s.shadow with
      | [] => none
      | last :: rest =>
        let empty : MotionSegment :=
          { directionBits := 0, loopsAccel := 0, loopsTravel := 0, loopsDecel := 0
            aux := seg.aux, accelSeriesIndex := 0, hiresAccelCycles := 0
            travelDelayCycles := 0, fractions := fun _ => 0 }
        let r := B.enqueue s.backend empty
        some (⟨r.1, { last with aux := seg.aux } :: last :: rest⟩, r.2)
    else if D > maxStepsPerSegment then
      splitLoop B flip seg.aux timing
        (fun i => hiresStepsPerDiv (seg.steps i) (divisions D)) (divisions D) 0
        (fun _ => 0) (fun _ => 0) s false
    else enqueueInternal B flip s seg D (timing 0)
  r.map fun p => (shrink B p.1, p.2)

/-- Lines 223-231: remaining steps of a motor, `loops` loops before the end of its
segment. -/
def remainingSteps (loops fraction : Nat) : Nat :=
  (loops / loopsPerStep * fraction + (maxFraction - 1)) / maxFraction

/-- `GetPhysicalStatus`, lines 211-235. `none`: `back()` of an empty deque. -/
def getPhysicalStatus (B : Backend β) (s : State β) :
    State β × Option ((Motor → Int) × Nat) :=
  let loops := (B.pending s.backend).2
  let s' := shrink B s
  (s', s'.shadow.getLast?.map fun hs =>
    (fun i => (hs.pos i).position - (hs.pos i).sign * remainingSteps loops (hs.pos i).fraction,
     hs.aux))

/-- `SetExternalPosition`, lines 237-253. -/
def setExternalPosition (B : Backend β) (s : State β) (axis : Motor) (steps : Int) :
    Option (State β) :=
  match s.shadow with
  | [] => none
  | last :: rest =>
    let pos : Motor → HistoryPos := fun i =>
      if i = axis then ⟨steps, (last.pos i).fraction, if steps < 0 then -1 else 1⟩
      else last.pos i
    some (shrink B { s with shadow := ⟨pos, last.aux⟩ :: last :: rest })

/-- `MotorEnable`, lines 335-338. -/
def motorEnable (B : Backend β) (s : State β) (on : Bool) : State β :=
  { s with backend := B.motorEnable (B.waitQueueEmpty s.backend) on }

/-- `WaitQueueEmpty`, lines 340-342. -/
def waitQueueEmpty (B : Backend β) (s : State β) : State β :=
  { s with backend := B.waitQueueEmpty s.backend }

end BeagleG.MotorOps
