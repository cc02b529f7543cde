import Verif.Stats.Props
/-!
# Print statistics: examples
-/
namespace BeagleG.Stats

open Planner (Axis Motor Arith Command intArith intConfig)
open Hardware Machine

/-- The machine of the examples of `Machine`, with the settings of `gcode-print-stats.cc` lines 110-116. -/
def exEnv : Env Int (Book Int) Unit where
  A := intArith
  plan := intConfig
  cfg := { exCfg with rangeCheck := false, requireHoming := false, homingTrigger := fun _ => .none }
  cape := cramps
  queue := statsQueue intArith
  spindle := none
  read := fun _ _ => false
  clock := fun _ => 0
  patience := 10

/-- The machine control as created; the hardware is never initialised. -/
def exState : Machine.State Int (Book Int) Unit where
  planner :=
    { backend := (Hw.blank Int, ⟨initial intArith, []⟩), buffer := [Planner.Segment.zero intArith], ready := 0
      lookahead := 10, halted := true, positionKnown := true }
  spindle := ()
  tick := 0
  out := []
  feedrate := 0
  progFactor := 1
  nextMotor := -1
  nextFan := -1
  pauseEnabled := false
  homing := .never

/-- X, Z and E set. -/
def xze (x z e : Int) : Axis → Int := fun a => if a = 0 then x else if a = 2 then z else if a = 9 then e else 0

/-- What is looked at in the examples. -/
def see (r : Stats Int) : List Int :=
  [r.time, r.xMin, r.xMax, r.yMin, r.yMax, r.zMin, r.zMax, r.lastZ, r.filament]

theorem intArith_ordered : Ordered intArith := fun _ _ => rfl

/-- The theorems say something: moves, a dwell and extrusion. -/
example : Ordered exEnv.A ∧ exEnv.queue = statsQueue exEnv.A ∧
    (determinePrintStats exEnv exState [.start, .coordinated 1 (xze 50 0 0), .dwell 3000,
      .coordinated 1 (xze (-30) 0 0), .rapid 0 (xze (-30) 4 0), .rapid 0 (xze (-30) 4 2),
      .finished true]).map see = some [68, -30, 50, 0, 0, 0, 4, 4, 2] := by
  refine ⟨intArith_ordered, rfl, ?_⟩
  decide +kernel

/-- The extremes are those of all moves of the file, whether they are made or not: after M0 no move is
made, and none counts for the time. -/
theorem C50_moves_not_made :
    (determinePrintStats exEnv exState [.start, .coordinated 1 (xze 50 0 0), .unprocessed 'M' 0 [],
      .coordinated 1 (xze (-30) 0 0), .finished true]).map see =
        some [25, -30, 50, 0, 0, 0, 0, 0, 0] ∧
    (determinePrintStats exEnv exState [.start, .coordinated 1 (xze 50 0 0), .unprocessed 'M' 0 [],
      .finished true]).map (fun r => r.time) = some 25 := by
  refine ⟨?_, ?_⟩ <;> decide +kernel

/-- The time is that of the segments, but not that of a real execution: homing is left out altogether, so
that the move after it is one from the position before it. -/
theorem C50_homing_ignored :
    (determinePrintStats exEnv exState [.start, .coordinated 1 (xze 50 0 0), .home fun _ => true,
      .coordinated 1 (xze 10 0 0), .finished true]).map (fun r => r.time) =
    (determinePrintStats exEnv exState [.start, .coordinated 1 (xze 50 0 0),
      .coordinated 1 (xze 10 0 0), .finished true]).map (fun r => r.time) := by
  decide +kernel

end BeagleG.Stats
