import Verif.StepGen.Model
/-!
# Specification vocabulary for C20, C21, C28

What an observer with a logic analyser on the pins would count.
-/
namespace BeagleG.StepGen

/-- Number of low-to-high transitions of a line that is at level `prev` before the
samples `l`. -/
def risingEdges : (prev : Bool) → (l : List Bool) → Nat
  | _, [] => 0
  | prev, x :: l => (if !prev && x then 1 else 0) + risingEdges x l

/-- The levels of motor `i`'s step line over the passes `ps`. -/
def wave (ps : List Pass) (i : Motor) : List Bool := ps.map (·.pin i)

/-- Pulses seen on motor `i`'s step line when the segment is executed, the line being at
level `prev` before. -/
def pulses (s : MotionSegment) (estop : Nat → Bool) (prev : Bool) (i : Motor) : Nat :=
  risingEdges prev (wave (exec s estop).1 i)

/-- Signed electrical steps: a set direction line counts backwards. -/
def netSteps (s : MotionSegment) (estop : Nat → Bool) (prev : Bool) (i : Motor) : Int :=
  if s.dirPin i then -(pulses s estop prev i : Int) else pulses s estop prev i

/-- The delay computed at the end of pass `k`. -/
def delayAfter (r : Regs) : Nat → Nat
  | 0 => (calculateDelay r).2
  | k + 1 => delayAfter (calculateDelay r).1 k

/-- None of the delays computed while loops are left is the special value 0. (The
firmware cannot tell such a delay from "done".) -/
def NoEarlyStop (s : MotionSegment) : Prop := ∀ k < s.loops, delayAfter (Regs.load s) k ≠ 0

instance (s : MotionSegment) : Decidable (NoEarlyStop s) := by
  unfold NoEarlyStop; infer_instance

/-- The emergency stop input stays inactive. -/
def noEstop : Nat → Bool := fun _ => false

/-- What the host promises about a segment with `D` steps on its longest axis and
`steps i` (unsigned) steps on motor `i`: two loops per step and 1.31 fixed point
fractions `steps * (2^31-1) / D` rounded down (`motion-queue.h:47-50`: "pre-calculated
parameters"; see `MotorOps` for the code computing them). -/
structure Encodes (s : MotionSegment) (D : Nat) (steps : Motor → Nat) : Prop where
  dpos : 0 < D
  dmax : D ≤ 32767
  loops : s.loops = 2 * D
  le : ∀ i, steps i ≤ D
  frac : ∀ i, s.fractions i = steps i * (2 ^ 31 - 1) / D

end BeagleG.StepGen
