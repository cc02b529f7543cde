import Verif.MotorOps.Model
import Verif.StepGen.Spec
/-!
# Specification vocabulary for C19, C21, C27
-/
namespace BeagleG.MotorOps

open StepGen (Motor MotionSegment Encodes)

/-- A hardware segment realises a move of `p i` signed steps per motor: its longest axis
has `D` steps, its contents encode the magnitudes and the direction lines are asserted
exactly for the motors that turn backwards (mirrored motors the other way round). -/
structure Realises (flip : Motor → Bool) (p : Motor → Int) (s : MotionSegment) : Prop where
  enc : ∃ D, (∃ i, (p i).natAbs = D) ∧ Encodes s D (fun i => (p i).natAbs)
  dir : ∀ i, s.dirPin i = (decide (p i < 0) != flip i)

/-- A backend that accepts everything and remembers it. -/
def recorder (pending : List MotionSegment → Nat × Nat) : Backend (List MotionSegment) :=
  { enqueue := fun l s => (l ++ [s], true), pending := pending
    motorEnable := fun l _ => l, waitQueueEmpty := id }

/-- A backend that accepts a segment only as long as `ok` says so for the number of
segments it has, and remembers the ones accepted. -/
def limited (ok : Nat → Bool) (pending : List MotionSegment → Nat × Nat) :
    Backend (List MotionSegment) :=
  { enqueue := fun l s => if ok l.length then (l ++ [s], true) else (l, false)
    pending := pending, motorEnable := fun l _ => l, waitQueueEmpty := id }

end BeagleG.MotorOps
