import Verif.MotorOps.Spec
/-!
# Specification vocabulary for C27 (position reporting)
-/
namespace BeagleG.MotorOps

open StepGen (Motor MotionSegment)

/-- What was handed to the hardware: signed steps per motor, steps `D` of the longest axis (0
for an element that only sets aux bits) and the aux bits. -/
structure Item where
  steps : Motor → Int
  D : Nat
  aux : Nat

/-- `items` is an admissible break-down of one request. -/
structure Breakdown (seg : LinearSegment) (items : List Item) : Prop where
  nonempty : items ≠ []
  sum : ∀ i, (items.map (fun it => it.steps i)).sum = seg.steps i
  aux : ∀ it ∈ items, it.aux = seg.aux
  bound : ∀ it ∈ items, it.D ≤ 32767 ∧ ∀ i, (it.steps i).natAbs ≤ it.D

/-- Position of motor `i` after the items executed so far (newest first). -/
def posAfter (items : List Item) (i : Motor) : Int := (items.map (fun it => it.steps i)).sum

/-- The state of a backend as far as position reports are concerned: the number of elements
it reports as pending and the loops left of the oldest of them. -/
structure Pend where
  count : Nat
  loops : Nat

/-- A backend that accepts everything. Between two calls the hardware may make progress, see
`Act.progress`. -/
def tracker : Backend Pend :=
  { enqueue := fun b _ => ({ b with count := b.count + 1 }, true)
    pending := fun b => (b.count, b.loops)
    motorEnable := fun b _ => b
    waitQueueEmpty := id }

/-- What can happen: the client enqueues a move, asks for the status or declares the position of a
motor; the hardware makes progress to `count` pending elements with `loops` loops left in the oldest. -/
inductive Act where
  | enqueue (seg : LinearSegment) (timing : Nat → Timing)
  | status
  | setExternal (axis : Motor) (steps : Int)
  | progress (count loops : Nat)

/-- The actions, on the model. Progress never increases the number of pending elements. The
position is declared only while nothing is outstanding: the one caller,
`Planner::Impl::SetExternalPosition` (planner.cc 935-948), waits for the queue to be empty. -/
def act (flip : Motor → Bool) (s : State Pend) : Act → Option (State Pend)
  | .enqueue seg timing => (enqueue tracker flip timing s seg).map (·.1)
  | .status => some (getPhysicalStatus tracker s).1
  | .setExternal axis v =>
    if s.backend.count = 0 then setExternalPosition tracker s axis v else none
  | .progress c l => if c ≤ s.backend.count then some { s with backend := ⟨c, l⟩ } else none

/-- Actions in turn. -/
def runActs (flip : Motor → Bool) (s : State Pend) : List Act → Option (State Pend)
  | [] => some s
  | a :: as => (act flip s a).bind fun s' => runActs flip s' as

/-- What the client asked for, in order; `none`: it declared a position. -/
def requests : List Act → List (Option LinearSegment)
  | [] => []
  | .enqueue seg _ :: as => some seg :: requests as
  | .setExternal _ _ :: as => none :: requests as
  | _ :: as => requests as

/-- The break-down of a request; declaring a position is recorded as a jump, not a movement of the
hardware. -/
def Piece : Option LinearSegment → List Item → Prop
  | some seg, items => Breakdown seg items
  | none, items => ∃ jump aux, items = [⟨jump, 0, aux⟩]

/-- Where the motors are expected to be after the actions, starting from `p`. -/
def expected (p : Motor → Int) : List Act → Motor → Int
  | [] => p
  | .enqueue seg _ :: as => expected (fun i => p i + seg.steps i) as
  | .setExternal axis v :: as => expected (fun i => if i = axis then v else p i) as
  | _ :: as => expected p as

end BeagleG.MotorOps
