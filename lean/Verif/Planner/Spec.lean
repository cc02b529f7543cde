import Verif.Planner.Model
/-!
# Specification side: what a planner should have sent
-/
namespace BeagleG.Planner

variable {F : Type}

/-- Calls to the motor backend. -/
inductive Call (F : Type) where
  | enqueue (c : Command F)
  | wait
  | external (m : Motor) (pos : Int)

/-- A backend that accepts everything and writes down what it was asked for. -/
def recorder : Backend F (List (Call F)) where
  enqueue l c := (l ++ [.enqueue c], true)
  waitQueueEmpty l := l ++ [.wait]
  setExternalPosition l m p := l ++ [.external m p]

/-- Steps requested for a motor in a log. -/
def stepsOf (m : Motor) : List (Call F) → Int
  | [] => 0
  | .enqueue c :: l => c.steps m + stepsOf m l
  | .wait :: l => stepsOf m l
  | .external _ _ :: l => stepsOf m l

/-- No motor is driven by two axes (guaranteed by `AddMotorMapping`, C40). -/
def Config.Disjoint (cfg : Config F) : Prop :=
  ∀ a a' m, cfg.motorMap a m = true → cfg.motorMap a' m = true → a = a'

/-- Calls that move along a path. -/
def Op.isPath : Op F → Bool
  | .move _ _ _ | .halt | .lookahead _ => true
  | _ => false

/-- Where a sequence of calls leads, starting at step position `p`: the rounded last target. -/
def destination (A : Arith F) (cfg : Config F) (p : Axis → Int) : List (Op F) → Axis → Int
  | [] => p
  | .move axis _ _ :: ops =>
    destination A cfg (fun a => A.lround (A.mul (axis a) (cfg.stepsPerMm a))) ops
  | _ :: ops => destination A cfg p ops

/-- Position at the end of everything buffered. -/
def State.position {β : Type} (s : State F β) (a : Axis) : Int :=
  match s.buffer.getLast? with
  | none => 0
  | some seg => seg.target.positionSteps a

end BeagleG.Planner
