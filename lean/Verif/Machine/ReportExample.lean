import Verif.Machine.ReportProps
import Verif.Machine.ProbeExample
/-!
# C76, C79: examples
-/
namespace BeagleG.Machine

open Planner (Axis Motor Arith)
open Hardware

/-- The switches of the machine: Z is homed at its upper end, and there is a probe. -/
example : (switchLine (ratEnv fun _ n => n = 3) ratState).map Prod.fst =
    some [⟨2, .max, true, false⟩, ⟨2, .probe, false, true⟩] := by
  decide +kernel

/-- In emergency stop, with the input no longer active; and with it active. -/
example :
    let s := { ratState with planner := { ratState.planner with backend :=
      ({ ratHw with estop := true, estopInput := 2, pauseInput := 1 }, ratState.planner.backend.2) } }
    (status (ratEnv fun _ _ => false) s).map Prod.fst = some ⟨.soft, .inactive, .none, .homed, false⟩ ∧
    (status (ratEnv fun _ _ => true) s).map Prod.fst = some ⟨.hard, .active, .none, .homed, false⟩ := by
  decide +kernel

/-- The input is active, but the machine has not seen it yet. -/
theorem C79_not_seen_yet :
    (status (ratEnv fun _ _ => true) { ratState with planner := { ratState.planner with backend :=
      ({ ratHw with estopInput := 2 }, ratState.planner.backend.2) } }).map Prod.fst =
    some ⟨.none, .none, .none, .homed, false⟩ := by
  decide +kernel

/-- A move, a wait, and the position relative to an origin. -/
example : (run (ratEnv fun _ _ => false) ratState [.coordinated 10 (z (1/2)), .dwell]).map (fun s =>
    let d : Display Rat String := Display.inform ⟨fun _ => 0, ""⟩ (z (1/4)) "G54"
    let l := positionLine (ratEnv fun _ _ => false) d s
    (l.x, l.z, l.absZ, l.name)) = some (0, 1/4, 1/2, "G54") := by
  decide +kernel

/-- Without waiting, the position is one on the way: here where the machine has come from. -/
example : (run (ratEnv fun _ _ => false) ratState [.coordinated 10 (z (1/2))]).map (fun s =>
    shownPosition (ratEnv fun _ _ => false) (⟨fun _ => 0, ""⟩ : Display Rat String) s 2) = some 1 := by
  decide +kernel

end BeagleG.Machine
