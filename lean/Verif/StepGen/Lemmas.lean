import Verif.StepGen.Spec
import Verif.Idiv.Props
/-!
# Helper lemmas about the step generator
-/
namespace BeagleG.StepGen

open Idiv (reg idiv)

attribute [local irreducible] Idiv.idiv

/-! ## Counting edges -/

theorem risingEdges_append (prev : Bool) (l : List Bool) (x : Bool) :
    risingEdges prev (l ++ [x]) =
      risingEdges prev l + (if !(l.getLast?.getD prev) && x then 1 else 0) := by
  induction l generalizing prev with
  | nil => simp [risingEdges]
  | cons y l ih =>
    simp only [List.cons_append, risingEdges, ih]
    cases l with
    | nil => simp [risingEdges]
    | cons z l =>
      rw [List.getLast?_cons_cons, Nat.add_assoc]
      simp [List.getLast?_cons]

theorem testBit31 (x : Nat) : (reg x).testBit 31 = decide (x / 2 ^ 31 % 2 = 1) := by
  unfold reg
  rw [Nat.testBit_mod_two_pow]
  simp [Nat.testBit_eq_decide_div_mod_eq]

/-- The wave of a motor with increment `f` over `n` passes. -/
def idealWave (f n : Nat) : List Bool :=
  (List.range n).map fun j => (reg ((j + 1) * f)).testBit 31

theorem idealWave_succ (f n : Nat) :
    idealWave f (n + 1) = idealWave f n ++ [(reg ((n + 1) * f)).testBit 31] := by
  simp [idealWave, List.range_succ]

theorem idealWave_last (f n : Nat) (prev : Bool) (hn : 0 < n) :
    (idealWave f n).getLast?.getD prev = (reg (n * f)).testBit 31 := by
  obtain ⟨k, rfl⟩ : ∃ k, n = k + 1 := ⟨n - 1, by omega⟩
  rw [idealWave_succ]; simp

/-- Edge count of an ideal wave. -/
theorem edges_idealWave (f n : Nat) (hf : f < 2 ^ 31) (prev : Bool) :
    risingEdges prev (idealWave f n) = (n * f + 2 ^ 31) / 2 ^ 32 := by
  induction n with
  | zero => simp [idealWave, risingEdges]
  | succ n ih =>
    rw [idealWave_succ, risingEdges_append, ih]
    by_cases hn : n = 0
    · subst hn
      have : (reg ((0 + 1) * f)).testBit 31 = false := by
        rw [testBit31]; simp; omega
      rw [this]; simp; omega
    · rw [idealWave_last f n prev (by omega), testBit31, testBit31, Nat.add_mul, Nat.one_mul]
      generalize n * f = x
      by_cases h1 : x / 2 ^ 31 % 2 = 1 <;> by_cases h2 : (x + f) / 2 ^ 31 % 2 = 1 <;>
        simp only [h1, h2, decide_true, decide_false, Bool.not_true, Bool.not_false,
          Bool.false_and, Bool.true_and, Bool.false_eq_true, if_true, if_false] <;> omega

/-! ## Control flow -/

/-- Loops left. -/
def Regs.loops (r : Regs) : Nat := r.loopsAccel + r.loopsTravel + r.loopsDecel

theorem accelUpdate_fields (r : Regs) :
    (accelUpdate r).loopsAccel = r.loopsAccel ∧ (accelUpdate r).loopsTravel = r.loopsTravel ∧
    (accelUpdate r).loopsDecel = r.loopsDecel ∧ (accelUpdate r).index = r.index ∧
    (accelUpdate r).travelDelay = r.travelDelay := by
  unfold accelUpdate; split
  · exact ⟨rfl, rfl, rfl, rfl, rfl⟩
  · exact ⟨rfl, rfl, rfl, rfl, rfl⟩

theorem decelUpdate_fields (r : Regs) :
    (decelUpdate r).loopsAccel = r.loopsAccel ∧ (decelUpdate r).loopsTravel = r.loopsTravel ∧
    (decelUpdate r).loopsDecel = r.loopsDecel ∧ (decelUpdate r).index = r.index ∧
    (decelUpdate r).travelDelay = r.travelDelay := by
  unfold decelUpdate
  exact ⟨rfl, rfl, rfl, rfl, rfl⟩

theorem calculateDelay_loops (r : Regs) (h : r.loops ≠ 0) :
    (calculateDelay r).1.loops = r.loops - 1 := by
  obtain ⟨h1, h2, h3, -, -⟩ := accelUpdate_fields r
  obtain ⟨d1, d2, d3, -, -⟩ := decelUpdate_fields r
  unfold Regs.loops at *
  by_cases ha : r.loopsAccel = 0
  · by_cases ht : r.loopsTravel = 0
    · by_cases hd : r.loopsDecel = 0
      · omega
      · simp only [calculateDelay, ha, ht, hd, ne_eq, not_true, if_false, not_false_iff, if_true,
          d1, d2, d3]
        omega
    · simp only [calculateDelay, ha, ht, ne_eq, not_true, if_false, not_false_iff, if_true]
      omega
  · simp only [calculateDelay, ha, ne_eq, if_true, not_false_iff, h1, h2, h3]
    omega

theorem calculateDelay_done (r : Regs) (h : r.loops = 0) : calculateDelay r = (r, 0) := by
  unfold Regs.loops at h
  unfold calculateDelay
  have h1 : r.loopsAccel = 0 := by omega
  have h2 : r.loopsTravel = 0 := by omega
  have h3 : r.loopsDecel = 0 := by omega
  simp [h1, h2, h3]

theorem load_loops (s : MotionSegment) : (Regs.load s).loops = s.loops := rfl

/-- Complete, undisturbed execution. -/
theorem stepGen_full (fr : Motor → Nat) (estop : Nat → Bool) (L : Nat) :
    ∀ (k : Nat) (r : Regs) (m : Motor → Nat) (status : Nat),
      r.loops = L → (∀ j < L, delayAfter r j ≠ 0) → (∀ j ≤ L, estop (k + j) = false) →
      stepGen fr estop (L + 1) k r m status =
        ((List.range (L + 1)).map (fun j =>
          { mstate := fun i => reg (m i + (j + 1) * fr i)
            status := status - min (j + 1) L
            delay := if j < L then delayAfter r j else 0 }), .done) := by
  induction L with
  | zero =>
    intro k r m status hr hd he
    have h0 := he 0 (by omega)
    simp only [Nat.add_zero] at h0
    simp [stepGen, h0, calculateDelay_done r hr, List.range_succ]
  | succ L ih =>
    intro k r m status hr hd he
    have h0 := he 0 (by omega)
    simp only [Nat.add_zero] at h0
    have hd0 : (calculateDelay r).2 ≠ 0 := hd 0 (by omega)
    have hl : (calculateDelay r).1.loops = L := by
      rw [calculateDelay_loops r (by omega)]; omega
    rw [stepGen]
    simp only [h0, Bool.false_eq_true, if_false, hd0]
    rw [ih (k + 1) _ _ _ hl (fun j hj => hd (j + 1) (by omega))
      (fun j hj => by have := he (j + 1) (by omega); rwa [Nat.add_right_comm, Nat.add_assoc] at *)]
    rw [List.range_succ_eq_map (n := L + 1)]
    simp only [List.map_cons, List.map_map, Prod.mk.injEq, and_true]
    congr 1
    · simp only [Pass.mk.injEq]
      refine ⟨?_, ?_, ?_⟩
      · funext i; simp
      · omega
      · simp [delayAfter]
    · apply List.map_congr_left
      intro j _
      simp only [Function.comp, Pass.mk.injEq]
      refine ⟨?_, ?_, ?_⟩
      · funext i
        unfold reg
        rw [Nat.mod_add_mod]
        congr 1
        rw [Nat.succ_eq_add_one, Nat.add_mul (j + 1) 1]; omega
      · omega
      · simp only [Nat.succ_eq_add_one, Nat.add_lt_add_iff_right, delayAfter]

/-- Whatever the emergency stop and the delays do, the states output are the multiples
of the fractions, for some number `n` of passes not exceeding the loops plus one; no
pass is made once the stop was sampled active, and the segment is `aborted` exactly
in that case. -/
theorem stepGen_prefix (fr : Motor → Nat) (estop : Nat → Bool) :
    ∀ (L k : Nat) (r : Regs) (m : Motor → Nat) (status : Nat), r.loops = L →
      ∃ n ≤ L + 1,
        (∀ i, (stepGen fr estop (L + 1) k r m status).1.map (fun p => p.mstate i) =
          (List.range n).map (fun j => reg (m i + (j + 1) * fr i))) ∧
        (∀ j < n, estop (k + j) = false) ∧
        (((stepGen fr estop (L + 1) k r m status).2 = .done ∧ 0 < n) ∨
         ((stepGen fr estop (L + 1) k r m status).2 = .aborted ∧ estop (k + n) = true)) := by
  intro L
  induction L with
  | zero =>
    intro k r m status hr
    cases he : estop k with
    | true => exact ⟨0, by omega, by simp [stepGen, he], by simp, by simp [stepGen, he]⟩
    | false =>
      refine ⟨1, by omega, ?_, ?_, ?_⟩
      · simp [stepGen, he, calculateDelay_done r hr, List.range_succ]
      · intro j hj; obtain rfl : j = 0 := by omega
        simpa using he
      · simp [stepGen, he, calculateDelay_done r hr]
  | succ L ih =>
    intro k r m status hr
    cases he : estop k with
    | true =>
      refine ⟨0, by omega, ?_, by simp, ?_⟩ <;> rw [stepGen] <;> simp [he]
    | false =>
      by_cases hd0 : (calculateDelay r).2 = 0
      · refine ⟨1, by omega, ?_, ?_, ?_⟩
        · rw [stepGen]; simp [he, hd0, List.range_succ]
        · intro j hj; obtain rfl : j = 0 := by omega
          simpa using he
        · rw [stepGen]; simp [he, hd0]
      · have hl : (calculateDelay r).1.loops = L := by
          rw [calculateDelay_loops r (by omega)]; omega
        obtain ⟨n, hn, h1, h2, h3⟩ := ih (k + 1) (calculateDelay r).1
          (fun i => reg (m i + fr i)) (status - 1) hl
        refine ⟨n + 1, by omega, ?_, ?_, ?_⟩
        · intro i
          rw [stepGen]
          simp only [he, Bool.false_eq_true, if_false, hd0, List.map_cons, h1 i]
          rw [List.range_succ_eq_map (n := n)]
          simp only [List.map_cons, List.map_map]
          congr 1
          · simp
          · apply List.map_congr_left
            intro j _
            simp only [Function.comp]
            unfold reg
            rw [Nat.mod_add_mod]
            congr 1
            rw [Nat.succ_eq_add_one, Nat.add_mul (j + 1) 1]; omega
        · intro j hj
          cases j with
          | zero => simpa using he
          | succ j => 
            have := h2 j (by omega)
            rwa [Nat.add_right_comm, Nat.add_assoc] at this
        · rw [stepGen]
          simp only [he, Bool.false_eq_true, if_false, hd0]
          rcases h3 with ⟨h3, _⟩ | ⟨h3, h4⟩
          · exact .inl ⟨h3, by omega⟩
          · right
            refine ⟨h3, ?_⟩
            rwa [Nat.add_right_comm, Nat.add_assoc] at h4

/-! ## Arithmetic of the encoding -/

/-- Facts about the 1.31 fraction of `d` out of `D`. -/
theorem frac_bounds (d D : Nat) (hD : 0 < D) (hd : d ≤ D) (f : Nat)
    (hf : f = d * (2 ^ 31 - 1) / D) :
    f ≤ 2 ^ 31 - 1 ∧ D * f ≤ d * (2 ^ 31 - 1) ∧ d * (2 ^ 31 - 1) < D * f + D := by
  subst hf
  have h1 := Nat.div_add_mod (d * (2 ^ 31 - 1)) D
  have h2 := Nat.mod_lt (d * (2 ^ 31 - 1)) hD
  refine ⟨?_, by omega, by omega⟩
  apply Nat.div_le_of_le_mul
  exact Nat.mul_le_mul_right _ hd

end BeagleG.StepGen
