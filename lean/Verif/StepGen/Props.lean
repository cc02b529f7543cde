import Verif.StepGen.Lemmas
/-!
# C20, C28: step pulses of the firmware and of the simulation
-/
namespace BeagleG.StepGen

open Idiv (reg idiv)

/-- **C20 (pulse count, end level).** A segment that encodes `steps`, executed without
emergency stop and without a delay that collides with the special value 0, runs to the
end in exactly `2 D` loops (one more output pass), each motor sees exactly its number of
rising edges whatever the level of the line before, and every step line is low at the
end. -/
theorem C20_exact_pulses (s : MotionSegment) (D : Nat) (steps : Motor → Nat)
    (h : Encodes s D steps) (hn : NoEarlyStop s) (prev : Bool) (i : Motor) :
    (exec s noEstop).2 = .done ∧ (exec s noEstop).1.length = 2 * D + 1 ∧
    pulses s noEstop prev i = steps i ∧
    (wave (exec s noEstop).1 i).getLast? = some false := by
  have hfull := stepGen_full s.fractions noEstop s.loops 0 (Regs.load s) (fun _ => 0) s.loops
    (load_loops s) hn (fun _ _ => rfl)
  have hw : wave (exec s noEstop).1 i = idealWave (s.fractions i) (2 * D + 1) := by
    unfold exec wave idealWave
    rw [hfull, h.loops]
    simp [Pass.pin, Function.comp_def]
  obtain ⟨f1, f2, f3⟩ := frac_bounds (steps i) D h.dpos (h.le i) _ (h.frac i)
  have hle := h.le i
  have hD := h.dmax
  have hlow : 65538 * steps i ≤ s.fractions i := by
    rw [h.frac i, Nat.le_div_iff_mul_le h.dpos, Nat.mul_assoc, Nat.mul_left_comm]
    exact Nat.mul_le_mul_left _ (by omega)
  refine ⟨?_, ?_, ?_, ?_⟩
  · unfold exec; rw [hfull]
  · unfold exec; rw [hfull, h.loops]; simp
  · unfold pulses
    rw [hw, edges_idealWave _ _ (by omega), Nat.add_mul, Nat.mul_assoc]
    generalize D * s.fractions i = x at *
    omega
  · rw [hw, idealWave_succ]
    simp only [List.getLast?_append, List.getLast?_singleton, Option.some_or, Option.some.injEq]
    rw [testBit31]
    simp only [decide_eq_false_iff_not]
    rw [Nat.add_mul, Nat.mul_assoc]
    have hz : steps i = 0 → s.fractions i = 0 := by
      intro hz; rw [h.frac i, hz]; simp
    generalize D * s.fractions i = x at *
    have hl : 2 * steps i * 2 ^ 31 ≤ 2 * x + 1 * s.fractions i := by
      by_cases h0 : steps i = 0
      · have := hz h0; omega
      · omega
    have hu : 2 * x + 1 * s.fractions i < (2 * steps i + 1) * 2 ^ 31 := by omega
    have hq : (2 * x + 1 * s.fractions i) / 2 ^ 31 = 2 * steps i :=
      Nat.div_eq_of_lt_le hl hu
    rw [hq]; omega

/-- **C20 (straight line).** At every moment of the execution – also one that is cut
short by the emergency stop – each motor has made a number of pulses that differs from
its share `steps * passes / (2 D)` of the segment by less than one step (in fact by
half a step, up to `1/D`). -/
theorem C20_tracks_line (s : MotionSegment) (D : Nat) (steps : Motor → Nat)
    (h : Encodes s D steps) (estop : Nat → Bool) (prev : Bool) (i : Motor) (n : Nat)
    (hn : n ≤ (exec s estop).1.length) :
    2 * D * risingEdges prev ((wave (exec s estop).1 i).take n) ≤ steps i * n + D ∧
    steps i * n ≤ 2 * D * risingEdges prev ((wave (exec s estop).1 i).take n) + D + 2 := by
  obtain ⟨N, hN, hm, -, -⟩ := stepGen_prefix s.fractions estop s.loops 0 (Regs.load s)
    (fun _ => 0) s.loops (load_loops s)
  have hlen : (exec s estop).1.length = N := by
    have := congrArg List.length (hm i)
    simpa [exec] using this
  have hw : wave (exec s estop).1 i = idealWave (s.fractions i) N := by
    have := congrArg (List.map (fun x : Nat => x.testBit 31)) (hm i)
    simpa [exec, wave, idealWave, Pass.pin, Function.comp_def] using this
  have hnN : n ≤ N := by omega
  have ht : (idealWave (s.fractions i) N).take n = idealWave (s.fractions i) n := by
    unfold idealWave
    rw [← List.map_take, List.take_range, Nat.min_eq_left hnN]
  obtain ⟨f1, f2, f3⟩ := frac_bounds (steps i) D h.dpos (h.le i) _ (h.frac i)
  rw [hw, ht, edges_idealWave _ _ (by omega)]
  have hle := h.le i
  have hD := h.dmax
  have hn' : n ≤ 65535 := by have := h.loops; omega
  generalize s.fractions i = f at *
  generalize steps i = d at *
  generalize he : (n * f + 2 ^ 31) / 2 ^ 32 = e
  have e1 : e * 2 ^ 32 ≤ n * f + 2 ^ 31 := by omega
  have e2 : n * f + 2 ^ 31 < e * 2 ^ 32 + 2 ^ 32 := by omega
  -- multiply by D
  have m1 : D * (e * 2 ^ 32) ≤ D * (n * f + 2 ^ 31) := Nat.mul_le_mul_left _ e1
  have m2 : D * (n * f + 2 ^ 31 + 1) ≤ D * (e * 2 ^ 32 + 2 ^ 32) := Nat.mul_le_mul_left _ e2
  have m3 : n * (D * f) ≤ n * (d * (2 ^ 31 - 1)) := Nat.mul_le_mul_left _ f2
  have m4 : n * (d * (2 ^ 31 - 1)) ≤ n * (D * f + D) := Nat.mul_le_mul_left _ (Nat.le_of_lt f3)
  have m5 : n * D ≤ 65535 * 32767 := Nat.mul_le_mul hn' hD
  have m6 : n * d ≤ 65535 * 32767 := Nat.mul_le_mul hn' (by omega)
  have r1 : D * (e * 2 ^ 32) = (D * e) * 2 ^ 32 := by rw [Nat.mul_assoc]
  have r2 : D * (n * f + 2 ^ 31) = n * (D * f) + D * 2 ^ 31 := by
    rw [Nat.mul_add, Nat.mul_left_comm]
  have r3 : D * (n * f + 2 ^ 31 + 1) = n * (D * f) + D * 2 ^ 31 + D := by
    rw [Nat.mul_add, r2, Nat.mul_one]
  have r4 : D * (e * 2 ^ 32 + 2 ^ 32) = (D * e) * 2 ^ 32 + D * 2 ^ 32 := by
    rw [Nat.mul_add, r1]
  have r5 : n * (d * (2 ^ 31 - 1)) = (n * d) * (2 ^ 31 - 1) := by rw [Nat.mul_assoc]
  have r6 : n * (D * f + D) = n * (D * f) + n * D := by rw [Nat.mul_add]
  rw [r1, r2] at m1
  rw [r3, r4] at m2
  rw [r5] at m3 m4
  rw [r6] at m4
  have r7 : 2 * D * e = 2 * (D * e) := by rw [Nat.mul_assoc]
  rw [r7, Nat.mul_comm d n]
  generalize n * (D * f) = x at *
  generalize D * e = y at *
  generalize n * d = z at *
  generalize n * D = w at *
  omega

/-- Non-vacuity of the two theorems: a segment of three steps on motor 0 and two on
motor 1 at constant speed. -/
def sampleSegment : MotionSegment :=
  { directionBits := 2, loopsAccel := 0, loopsTravel := 6, loopsDecel := 0, aux := 0
    accelSeriesIndex := 0, hiresAccelCycles := 0, travelDelayCycles := 50
    fractions := fun i => if i = 0 then 2147483647 else if i = 1 then 1431655764 else 0 }

example : Encodes sampleSegment 3 (fun i => if i = 0 then 3 else if i = 1 then 2 else 0) ∧
    NoEarlyStop sampleSegment :=
  ⟨⟨by decide, by decide, by decide, by decide, by decide⟩, by decide +kernel⟩

/-- **C20 is not unconditional.** A delay that happens to be equal to the number of
cycles spent in the calculation reads as "done" and the segment ends after one pass, with
no pulse at all, although three were requested. -/
theorem C20_early_stop_possible :
    ∃ (s : MotionSegment) (steps : Motor → Nat), s.WF ∧ Encodes s 3 steps ∧ steps 0 = 3 ∧
      (exec s noEstop).2 = .done ∧ pulses s noEstop false 0 = 0 := by
  refine ⟨{ sampleSegment with travelDelayCycles := 2 },
    fun i => if i = 0 then 3 else if i = 1 then 2 else 0, ?_, ?_, rfl, ?_, ?_⟩
  · constructor <;> decide
  · exact ⟨by decide, by decide, by decide, by decide, by decide⟩
  · decide +kernel
  · decide +kernel

/-! ## When is `NoEarlyStop` guaranteed? -/

theorem delayAfter_travel (d : Nat) (hd : d ≠ 2) (hd2 : d < 2 ^ 32) (rest : Regs)
    (h1 : rest.loopsAccel = 0) (h3 : rest.loopsDecel = 0) (ht : rest.travelDelay = d) (k : Nat)
    (hk : k < rest.loopsTravel) : delayAfter rest k ≠ 0 := by
  induction k generalizing rest with
  | zero =>
    have : rest.loopsTravel ≠ 0 := by omega
    simp only [delayAfter, calculateDelay, h1, ne_eq, not_true, if_false, this, not_false_iff,
      if_true, ht, sub32, reg]
    omega
  | succ k ih =>
    have hne : rest.loopsTravel ≠ 0 := by omega
    simp only [delayAfter]
    apply ih
    · simp only [calculateDelay, h1, ne_eq, not_true, if_false, hne, not_false_iff, if_true]
    · simp only [calculateDelay, h1, ne_eq, not_true, if_false, hne, not_false_iff, if_true, h3]
    · simp only [calculateDelay, h1, ne_eq, not_true, if_false, hne, not_false_iff, if_true, ht]
    · simp only [calculateDelay, h1, ne_eq, not_true, if_false, hne, not_false_iff, if_true]
      omega

/-- A constant speed segment never stops early unless its delay is exactly 2 timer
cycles; the host never asks for less than 50 (1 MHz limit,
`motion-queue-motor-operations.cc:48,55-57,158-160`). -/
theorem C20_travel_never_stops_early (s : MotionSegment) (h1 : s.loopsAccel = 0)
    (h3 : s.loopsDecel = 0) (hd : s.travelDelayCycles ≠ 2) (hd2 : s.travelDelayCycles < 2 ^ 32) :
    NoEarlyStop s := by
  intro k hk
  refine delayAfter_travel _ hd hd2 (Regs.load s) h1 h3 rfl k ?_
  have e : s.loops = s.loopsTravel := by unfold MotionSegment.loops; omega
  rw [e] at hk
  exact hk

example : sampleSegment.loopsAccel = 0 ∧ sampleSegment.loopsDecel = 0 ∧
    sampleSegment.travelDelayCycles ≠ 2 := by decide

end BeagleG.StepGen
