import Verif.StepGen.SimLemmas
import Verif.StepGen.Props
/-!
# C28: the dry-run simulation agrees with the firmware
-/
namespace BeagleG.StepGen

/-- **C28.** For every segment (arbitrary fractions, loops and timing) for which the
firmware does not mistake a delay for "done": the simulation terminates, performs as many
delays as the firmware (which makes one more output pass), and changes every step counter
by exactly the signed pulses the firmware outputs, starting from low step lines. -/
theorem C28_simulation_agrees_partial (s : MotionSegment) (hn : NoEarlyStop s) (steps : Motor → Int) :
    ∃ delays steps', simExec s steps = some (delays, steps') ∧
      (exec s noEstop).2 = .done ∧
      delays.length + 1 = (exec s noEstop).1.length ∧
      ∀ i, steps' i = steps i + netSteps s noEstop false i := by
  obtain ⟨ds, st, h1, h2, h3⟩ := simLoop_full s.fractions s.dirPin s.loops (Regs.load s)
    (fun _ => 0) steps (load_loops s)
  have hfull := stepGen_full s.fractions noEstop s.loops 0 (Regs.load s) (fun _ => 0) s.loops
    (load_loops s) hn (fun _ _ => rfl)
  refine ⟨ds, st, h1, ?_, ?_, ?_⟩
  · unfold exec; rw [hfull]
  · unfold exec; rw [hfull]; simp [h2]
  · intro i
    rw [h3 i]
    have hw : wave (exec s noEstop).1 i = waveFrom (s.fractions i) 0 (s.loops + 1) := by
      unfold exec wave waveFrom
      rw [hfull]
      simp [Pass.pin, Function.comp_def]
    unfold netSteps pulses
    rw [hw]
    have hz : (0 : Nat).testBit 31 = false := by simp
    simp only [hz]
    split <;> omega

/-- **C28 does not hold** for a segment with a delay that the firmware takes for "done" (C20): the simulation makes its three
steps, the firmware none. -/
theorem C28_early_stop :
    ∃ (s : MotionSegment) (delays : List Nat) (steps : Motor → Int), s.WF ∧
      simExec s (fun _ => 0) = some (delays, steps) ∧ (exec s noEstop).2 = .done ∧
      steps 0 = 3 ∧ netSteps s noEstop false 0 = 0 := by
  obtain ⟨ds, st, h1, h2, h3⟩ := simLoop_full sampleSegment.fractions sampleSegment.dirPin 6
    (Regs.load { sampleSegment with travelDelayCycles := 2 }) (fun _ => 0) (fun _ => 0) rfl
  refine ⟨{ sampleSegment with travelDelayCycles := 2 }, ds, st, by constructor <;> decide, h1, by decide +kernel, ?_,
    by decide +kernel⟩
  rw [h3 0]
  decide +kernel

/-- **C28, timing.** The delay the firmware computes in any state is the simulation's delay
minus the constant number of cycles it spent computing it (in 32 bit arithmetic), and both
continue in the same state. -/
theorem C28_same_delay (r : Regs) (h : r.loops ≠ 0) :
    ∃ d, simDelay r = some ((calculateDelay r).1, d) ∧
      (calculateDelay r).2 = sub32 d (correction r) :=
  simDelay_eq r h

example : NoEarlyStop sampleSegment ∧ sampleSegment.loops = 6 := by decide +kernel

end BeagleG.StepGen
