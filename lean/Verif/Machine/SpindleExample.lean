import Verif.Machine.SpindleProps
import Verif.Machine.CodesExample
/-!
# C106: witnesses

The spindle of the examples writes down what it is told: direction and speed, or `none` for a stop.
-/
namespace BeagleG.Machine

open Planner (intArith intConfig xy)
open Hardware

/-- A spindle that writes down its commands. -/
def notes : SpindleCtl Int (List (Option (Bool × Int))) where
  on l ccw rpm := some (l ++ [some (ccw, rpm)], [])
  off l := some (l ++ [none], [])

/-- The example machine with this spindle. -/
def noteEnv : Env Int (Rec Int) (List (Option (Bool × Int))) where
  A := (exEnv exRead exClock).A
  plan := (exEnv exRead exClock).plan
  cfg := (exEnv exRead exClock).cfg
  cape := (exEnv exRead exClock).cape
  queue := (exEnv exRead exClock).queue
  spindle := some notes
  read := exRead
  clock := exClock
  patience := (exEnv exRead exClock).patience

/-- Its state. -/
def noteState : State Int (Rec Int) (List (Option (Bool × Int))) :=
  ⟨exState.planner, [], exState.tick, exState.out, exState.feedrate, exState.progFactor, exState.nextMotor, exState.nextFan,
    exState.pauseEnabled, exState.homing⟩

/-- What can be seen: what the spindle was told, how many moves the motors have still to make, and whether there is an emergency stop. -/
def heard (s : State Int (Rec Int) (List (Option (Bool × Int)))) : List (Option (Bool × Int)) × Nat × Bool :=
  (s.spindle, s.planner.backend.2.pending.length, s.hw.estop)

/-- **C106, not satisfied by the code.** A move, then M5: the spindle is stopped while the motors have still to make the move; waiting (G4) before
M5 helps. -/
theorem C106_early_off :
    (run noteEnv noteState [.unprocessed 'M' 3 [('S', 1000)], .home all, .coordinated 10 (xy 5 5), m 5]).map heard =
      some ([some (false, 1000), none], 1, false) ∧
    (run noteEnv noteState [.unprocessed 'M' 3 [('S', 1000)], .home all, .coordinated 10 (xy 5 5), .dwell, m 5]).map heard =
      some ([some (false, 1000), none], 0, false) := by decide +kernel

/-- **C106, not satisfied by the code.** M0 stops the spindle, M3 starts it again in emergency stop. -/
theorem C106_estop_on : (run noteEnv noteState [.home all, m 0, .unprocessed 'M' 3 [('S', 1000)]]).map heard =
    some ([none, some (false, 1000)], 0, true) := by decide +kernel

/-- Non-vacuity of `C106_on` and `C106_off`. -/
example : Planner.Inv noteEnv.A noteState.planner := exInv

/-- M4 with two speeds: the last one; M3 without a speed: nothing. -/
example : (run noteEnv noteState [.unprocessed 'M' 4 [('S', 1000), ('S', 20), ('X', 3)], m 3]).map heard =
    some ([some (true, 20)], 0, noteState.hw.estop) := by decide +kernel

/-- Non-vacuity of `C106_stops` and `C106_stays_off`. -/
example : AfterOff noteEnv fun l => l.getLast? = some none := by
  intro sp h x y l ho
  cases h
  cases ho
  simp

end BeagleG.Machine
