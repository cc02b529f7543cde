import Verif.EndToEnd.Layout
import Verif.MotorOps.Props
import Verif.Planner.Model
import Verif.PruQueue.Model
/-!
# The whole chain: planner, motor operations, queue, firmware

`Planner` sends its commands to `MotionQueueMotorOperations` (`MotorOps`), which hands hardware
segments to `PRUMotionQueue` (`PruQueue`); the firmware turns them into pulses (`StepGen`).

Simplifications: as in these modules. The speeds of a command determine the timing of its hardware
segments through floating point arithmetic, here an arbitrary function.
-/
namespace BeagleG.EndToEnd

open StepGen (Motor MotionSegment exec wave noEstop)

variable {F : Type}

/-- `MotionQueueMotorOperations` as the backend of the planner (planner.cc calls
`SegmentQueue::Enqueue` etc. on it, lines 540-544). `none`: one of its counts does not fit an `int`
(undefined behaviour) or a container access failed. -/
def motorBackend (B : MotorOps.Backend (List MotionSegment)) (flip : Motor → Bool)
    (timing : Planner.Command F → Nat → MotorOps.Timing) :
    Planner.Backend F (Option (MotorOps.State (List MotionSegment))) where
  enqueue b c :=
    match b with
    | none => (none, true)
    | some s =>
      if ∀ i, (c.steps i).natAbs < 2 ^ 31 then
        match MotorOps.enqueue B flip (timing c) s ⟨c.steps, c.auxBits⟩ with
        | none => (none, true)
        | some (s', ret) => (some s', ret)
      else (none, true)
  waitQueueEmpty b := b.map (MotorOps.waitQueueEmpty B)
  setExternalPosition b m p := b.bind fun s => MotorOps.setExternalPosition B s m p

/-- The queue that takes every segment. Its answers to `GetPendingElements` are arbitrary: they
depend on how far the firmware is. motion-queue.h 97-130, as a queue that never aborts. -/
def openQueue (pending : List MotionSegment → Nat × Nat) : MotorOps.Backend (List MotionSegment) :=
  MotorOps.limited (fun _ => true) pending

/-- The elements the host puts into the queue for these segments. pru-motion-queue.cc 125-151. -/
def elements (l : List MotionSegment) : List PruQueue.Elem := l.map fun h => .seg (hostBytes h)

/-- The segments executed by the firmware, as it found them in its registers. motor-interface-pru.p 192-297. -/
def executed (q : PruQueue.Sys) : List MotionSegment :=
  q.consumed.filterMap fun
    | (.seg bytes, .executed) => some (firmwareLoad bytes)
    | _ => none

/-- Loop count of an element, motor-interface-pru.p 227-229. -/
def loopsOf (bytes : List Nat) : Nat := (firmwareLoad bytes).loops

/-- Level of the step line of motor `m` after a segment. -/
def levelAfter (s : MotionSegment) (prev : Bool) (m : Motor) : Bool :=
  ((wave (exec s noEstop).1 m).getLast?).getD prev

/-- How far the axis driven by motor `m` has moved, in steps, after the segments were executed one
after the other: an observer counts the rising edges of the step line, backwards if the direction
line says so (mirrored motors the other way round). `prev` is the level of the step line before. -/
def moved (flip : Motor → Bool) (m : Motor) : (prev : Bool) → List MotionSegment → Int
  | _, [] => 0
  | prev, s :: l => MotorOps.axisSteps flip s prev m + moved flip m (levelAfter s prev m) l

end BeagleG.EndToEnd
