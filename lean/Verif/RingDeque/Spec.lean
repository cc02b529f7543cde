import Verif.RingDeque.Model
/-!
# Specification for C01: a plain list with a bound
-/
namespace BeagleG.RingDeque

variable {α : Type}

/-- The ideal bounded deque: `none` where the documented bounds are violated. -/
def specStep (bound : Nat) (l : List α) : Op α → Option (List α)
  | .append x => if l.length < bound then some (l ++ [x]) else none
  | .assign pos x => if pos < l.length then some (l.set pos x) else none
  | .popFront => match l with
    | [] => none
    | _ :: t => some t
  | .popBack => match l with
    | [] => none
    | a :: t => some (a :: t).dropLast

/-- A sequence of calls on the ideal deque. -/
def specRun (bound : Nat) (l : List α) : List (Op α) → Option (List α)
  | [] => some l
  | op :: ops => (specStep bound l op).bind fun l' => specRun bound l' ops

end BeagleG.RingDeque
