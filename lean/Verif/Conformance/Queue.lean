import Verif.PruQueue.Model
import Verif.MotorOps.Model
/-!
# The queues do what the tests of the project expect

The tests of pru-motion-queue_test.cc and motion-queue-motor-operations_test.cc, run on the models. These are tests, not
proofs of properties.
-/
namespace BeagleG.Conformance.Queue

/-! ### pru-motion-queue_test.cc

The firmware of the test is not the real one; it only changes the shared memory. -/

namespace Pru
open BeagleG.PruQueue

/-- Bytes of an element; how many there are does not matter. -/
def size : Nat := 2

/-- The host runs until its call has returned. -/
def finish : Nat → Sys → Sys
  | 0, s => s
  | n + 1, s => match hostStep size s with
    | none => s
    | some s => finish n s

/-- A call of `Enqueue`. -/
def enqueue (s : Option Sys) : Option Sys :=
  s.bind fun s => (step size (fun _ => 0) s (.callEnqueue [0, 0])).map (finish 10)

/-- A number of calls. -/
def enqueueMany (n : Nat) (s : Option Sys) : Option Sys := n.repeat enqueue s

/-- `SimRun`, lines 46-59; `first` is the index of the slot executed before, the result has the new one. The assertion
that the slot is filled is `none`. -/
def simRun (first num loops : Nat) (lastNotExecuted : Bool) (s : Option Sys) : Option (Sys × Nat) := do
  let s ← s
  let (s, i) ← (List.range num).foldlM (fun (p : Sys × Nat) _ =>
    let i := (p.2 + 1) % queueLen
    if p.1.slot i = .empty then none else some ({ p.1 with slot := upd p.1.slot i .empty }, i)) (s, first)
  let s := if lastNotExecuted || loops ≠ 0 then { s with slot := upd s.slot i .filled } else s
  return ({ s with status := (i, loops) }, i)

/-- A call of `GetPendingElements`. -/
def pending (s : Sys) : Option Nat :=
  match (step size (fun _ => 0) s .callPending).map (finish 10) with
  | none => none
  | some s => match s.results.getLast? with
    | some (.pending n _) => some n
    | _ => none

/-- `status_init` -/
example : pending init = some 0 := by decide +kernel

/-- `single_exec` -/
example : ((simRun 15 1 0 true (enqueue (some init))).bind fun r => pending r.1) = some 1 := by decide +kernel

/-- `full_exec` -/
example : ((simRun 15 1 0 false (enqueue (some init))).bind fun r => pending r.1) = some 0 := by decide +kernel

/-- `single_exec_some_loops` -/
example : ((simRun 15 2 10 true (enqueueMany 2 (some init))).bind fun r => pending r.1) = some 1 := by decide +kernel

/-- `one_round_queue` -/
example : ((simRun 15 2 0 true (enqueueMany 2 (some init))).bind fun r =>
    (enqueueMany (queueLen - 1) (some r.1)).map fun s => (pending r.1, pending s)) = some (some 1, some queueLen) := by
  decide +kernel

/-- `exec_index_lt_queue_pos` -/
example : ((simRun 15 queueLen 0 true (enqueueMany queueLen (some init))).bind fun r =>
    (enqueue (some r.1)).map fun s => (pending r.1, pending s)) = some (some 1, some 2) := by
  decide +kernel

end Pru

/-! ### motion-queue-motor-operations_test.cc -/

namespace Ops
open BeagleG.MotorOps

/-- `MockMotionQueue`: loops and elements left. -/
def mock : Backend (Nat × Nat) where
  enqueue := fun b s => ((s.loopsAccel + s.loopsTravel + s.loopsDecel, b.2 + 1), true)
  pending := fun b => (b.2, b.1)
  motorEnable := fun b _ => b
  waitQueueEmpty := id

/-- What a test does. -/
inductive Op where
  | enqueue (aux : Nat) (steps : List Int)
  | external (motor : StepGen.Motor) (steps : Int)
  /-- `SimRun` -/
  | sim (loops size : Nat)
  /-- `GetPhysicalStatus` -/
  | status

/-- The state and what the calls of `GetPhysicalStatus` gave. `v0 = v1 = 0` gives a travel segment. -/
def step (p : State (Nat × Nat) × List (List Int)) : Op → Option (State (Nat × Nat) × List (List Int))
  | .enqueue aux steps =>
    (MotorOps.enqueue mock (fun _ => false) (fun _ => ⟨.travel, 0, 0, 0⟩) p.1 ⟨fun i => steps.getD i.val 0, aux⟩).map
      fun r => (r.1, p.2)
  | .external m n => (setExternalPosition mock p.1 m n).map fun s => (s, p.2)
  | .sim loops size =>
    if size > p.1.backend.2 ∨ (size = p.1.backend.2 ∧ p.1.backend.1 < loops) then none
    else some ({ p.1 with backend := (loops, size) }, p.2)
  | .status =>
    match getPhysicalStatus mock p.1 with
    | (s, some (pos, _)) => some (s, p.2 ++ [(List.finRange 8).map pos])
    | (_, none) => none

/-- A test. -/
def run (ops : List Op) : Option (List (List Int)) :=
  (ops.foldlM step (State.init (0, 0), [])).map Prod.snd

/-- `init_pos` -/
example : run [.status] = some [[0, 0, 0, 0, 0, 0, 0, 0]] := by decide +kernel

/-- `set_external_position_negative` -/
example : run [.external 0 (-12345), .status, .enqueue 0 [100], .sim 0 1, .status] =
    some [[-12345, 0, 0, 0, 0, 0, 0, 0], [-12245, 0, 0, 0, 0, 0, 0, 0]] := by decide +kernel

/-- `back_and_forth` -/
example : run [.enqueue 0 [1000], .sim 0 0, .status, .enqueue 0 [-1000], .enqueue 0 [1000], .sim 0 0, .status] =
    some [[1000, 0, 0, 0, 0, 0, 0, 0], [1000, 0, 0, 0, 0, 0, 0, 0]] := by decide +kernel

/-- `empty_element` -/
example : run [.enqueue 0 [100], .enqueue 255 [], .sim 0 2, .status] = some [[100, 0, 0, 0, 0, 0, 0, 0]] := by
  decide +kernel

/-- `sample_pos` -/
example : run [.enqueue 0 [10, -20, 30, -40, 0, -60, 70, -80], .enqueue 0 [17, 42, 12, -90, 30, 91, 113, -1000],
      .sim 20 2, .status, .enqueue 0 [10, -20, 30, -40, 0, -60, 70, -80], .sim 0 1, .status] =
    some [[8, -17, 26, -35, 0, -52, 61, -70], [37, 2, 72, -170, 30, -29, 253, -1160]] := by decide +kernel

/-- `zero_loops_edge` -/
example : run [.enqueue 0 [10, 20, 30, 40, 50, 60, 70, 80], .enqueue 0 [10, 20, 30, 40, 50, 60, 70, 80], .sim 0 2,
      .status, .sim 160 1, .status] =
    some [[10, 20, 30, 40, 50, 60, 70, 80], [10, 20, 30, 40, 50, 60, 70, 80]] := by decide +kernel

end Ops
end BeagleG.Conformance.Queue
