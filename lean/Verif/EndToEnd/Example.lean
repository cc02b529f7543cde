import Verif.EndToEnd.Props
/-!
# A path through the whole chain
-/
namespace BeagleG.EndToEnd

open Planner

/-- X drives the motors 0 and 3, the latter mirrored; Y drives motor 1. -/
def exampleFlip : StepGen.Motor → Bool := fun m => m == 3

/-- The planner of the example, at rest, before its first move. -/
def exampleStart : State Int (Option (MotorOps.State (List StepGen.MotionSegment))) :=
  { backend := some (.init []), buffer := [Segment.zero intArith], ready := 0, lookahead := 3, halted := true
    positionKnown := true }

/-- Two moves, handed over as six segments. -/
def exampleSegments : List StepGen.MotionSegment :=
  (((run intArith intConfig (motorBackend (openQueue fun l => (l.length, 0)) exampleFlip
      fun _ _ => ⟨.travel, 0, 0, 1000⟩) exampleStart
      [.move (xy 1 0) 30 0, .move (xy (-1) 2) 20 0, .halt]).bind (·.backend)).map (·.backend)).getD []

/-- The host hands over all segments while the firmware runs, and waits. -/
def exampleActions : List PruQueue.Action :=
  (exampleSegments.flatMap fun h => [.callEnqueue (hostBytes h)] ++ List.replicate 56 .host) ++
    List.replicate 240 .pru ++ [.callWait]

/-- Non-vacuity of `C46_end_to_end`: the motors have moved to (-1 mm, 2 mm), 10 steps per mm, one
with its direction line inverted. -/
example : ((PruQueue.run payload loopsOf PruQueue.init exampleActions).bind fun q =>
      (PruQueue.step payload loopsOf q .host).map fun q' =>
        (q'.results.drop q.results.length, decide (PruQueue.accepted q' = elements exampleSegments),
          decide (∀ h ∈ executed q', StepGen.NoEarlyStop h),
          (List.finRange 8).map fun m => moved exampleFlip m false (executed q'))) =
    some ([.drained], true, true, [-10, 20, 0, -10, 0, 0, 0, 0]) := by
  decide +kernel

example : Wf exampleStart ∧ exampleStart.halted = true ∧
    (PruQueue.Action.estop true ∉ exampleActions) := by
  refine ⟨⟨by simp [exampleStart], by simp [exampleStart], fun _ => ⟨_, rfl, fun _ => rfl⟩⟩, rfl, ?_⟩
  decide +kernel

end BeagleG.EndToEnd
