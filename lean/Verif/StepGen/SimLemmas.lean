import Verif.StepGen.Lemmas
/-!
# Helper lemmas: the simulation against the firmware
-/
namespace BeagleG.StepGen

open Idiv (reg idiv)

theorem accel_div (r : Regs) :
    idiv (reg (reg (r.cycles * 2) + r.remainder)) (reg (reg (r.index * 4) + 1)) =
      (reg (reg (r.cycles * 2) + r.remainder) / reg (reg (r.index * 4) + 1),
       reg (reg (r.cycles * 2) + r.remainder) % reg (reg (r.index * 4) + 1)) := by
  apply Idiv.C22_idiv_eq
  · unfold reg; omega
  · unfold reg; omega
  · unfold reg; omega

theorem decel_div (r : Regs) :
    idiv (reg (reg (r.cycles * 2) + r.remainder)) (sub32 (reg (r.index * 4)) 1) =
      (reg (reg (r.cycles * 2) + r.remainder) / sub32 (reg (r.index * 4)) 1,
       reg (reg (r.cycles * 2) + r.remainder) % sub32 (reg (r.index * 4)) 1) := by
  apply Idiv.C22_idiv_eq
  · unfold reg; omega
  · unfold sub32 reg; omega
  · unfold sub32 reg; omega

/-- The cycles the PRU subtracts from the delay because it spent them calculating. -/
def correction (r : Regs) : Nat :=
  if r.loopsAccel ≠ 0 then 69 else if r.loopsTravel ≠ 0 then 2 else 70

theorem simDelay_done (r : Regs) (h : r.loops = 0) : simDelay r = none := by
  unfold Regs.loops at h
  have h1 : r.loopsAccel = 0 := by omega
  have h2 : r.loopsTravel = 0 := by omega
  have h3 : r.loopsDecel = 0 := by omega
  simp [simDelay, h1, h2, h3]

theorem simDelay_eq (r : Regs) (h : r.loops ≠ 0) :
    ∃ d, simDelay r = some ((calculateDelay r).1, d) ∧
      (calculateDelay r).2 = sub32 d (correction r) := by
  unfold Regs.loops at h
  by_cases ha : r.loopsAccel = 0
  · by_cases ht : r.loopsTravel = 0
    · have hd : r.loopsDecel ≠ 0 := by omega
      simp only [simDelay, calculateDelay, correction, ha, ht, hd, ne_eq, not_true, if_false,
        not_false_iff, if_true, gt_iff_lt, Nat.lt_irrefl, Nat.pos_of_ne_zero hd, decelUpdate,
        decel_div]
      exact ⟨_, rfl, rfl⟩
    · simp only [simDelay, calculateDelay, correction, ha, ht, ne_eq, not_true, if_false,
        not_false_iff, if_true, gt_iff_lt, Nat.lt_irrefl, Nat.pos_of_ne_zero ht]
      exact ⟨_, rfl, rfl⟩
  · by_cases hi : r.index = 0
    · simp only [simDelay, calculateDelay, correction, ha, ne_eq, if_false,
        not_false_iff, if_true, gt_iff_lt, Nat.pos_of_ne_zero ha, accelUpdate, hi, not_true]
      exact ⟨_, rfl, rfl⟩
    · simp only [simDelay, calculateDelay, correction, ha, ne_eq, if_false,
        not_false_iff, if_true, gt_iff_lt, Nat.pos_of_ne_zero ha, accelUpdate, hi, accel_div]
      exact ⟨_, rfl, rfl⟩

/-- Levels output from state `m` on, over `n` passes. -/
def waveFrom (f m n : Nat) : List Bool :=
  (List.range n).map fun j => (reg (m + (j + 1) * f)).testBit 31

theorem waveFrom_succ (f m n : Nat) :
    waveFrom f m (n + 1) = (reg (m + f)).testBit 31 :: waveFrom f (reg (m + f)) n := by
  unfold waveFrom
  rw [List.range_succ_eq_map]
  simp only [List.map_cons, List.map_map]
  congr 1
  · simp
  · apply List.map_congr_left
    intro j _
    simp only [Function.comp]
    congr 1
    unfold reg
    rw [Nat.mod_add_mod]
    congr 1
    rw [Nat.succ_eq_add_one, Nat.add_mul (j + 1) 1]; omega

/-- The simulation performs all loops, its delays are the firmware's before correction,
and its counters move by the signed number of rising edges. -/
theorem simLoop_full (fr : Motor → Nat) (dir : Motor → Bool) (L : Nat) :
    ∀ (r : Regs) (m : Motor → Nat) (steps : Motor → Int), r.loops = L →
      ∃ ds steps', simLoop fr dir (L + 1) r m steps = some (ds, steps') ∧ ds.length = L ∧
        (∀ i, steps' i = steps i + (if dir i then -1 else 1) *
          (risingEdges ((m i).testBit 31) (waveFrom (fr i) (m i) (L + 1)) : Int)) := by
  induction L with
  | zero =>
    intro r m steps hr
    refine ⟨[], _, by rw [simLoop, simDelay_done r hr], rfl, ?_⟩
    intro i
    rw [waveFrom_succ]
    simp only [waveFrom, List.range_zero, List.map_nil, risingEdges]
    by_cases hb : (!(m i).testBit 31 && (reg (m i + fr i)).testBit 31) = true
    · simp only [hb, if_true]
      split <;> simp
    · simp [hb]
  | succ L ih =>
    intro r m steps hr
    obtain ⟨d, hd, -⟩ := simDelay_eq r (by omega)
    have hl : (calculateDelay r).1.loops = L := by
      rw [calculateDelay_loops r (by omega)]; omega
    obtain ⟨ds, st, h1, h2, h3⟩ := ih (calculateDelay r).1 (fun i => reg (m i + fr i))
      (fun i => if !(m i).testBit 31 && (reg (m i + fr i)).testBit 31 then
        steps i + (if dir i then -1 else 1) else steps i) hl
    refine ⟨d :: ds, st, ?_, by simp [h2], ?_⟩
    · rw [simLoop, hd]
      simp only [h1, Option.map_some]
    · intro i
      rw [h3 i, waveFrom_succ (n := L + 1)]
      simp only [risingEdges]
      generalize risingEdges ((reg (m i + fr i)).testBit 31)
        (waveFrom (fr i) (reg (m i + fr i)) (L + 1)) = x
      by_cases hb : (!(m i).testBit 31 && (reg (m i + fr i)).testBit 31) = true
      · simp only [hb, if_true]
        split <;> simp <;> omega
      · simp only [hb]
        simp

end BeagleG.StepGen
