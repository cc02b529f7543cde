import Verif.Firmware.Step
/-!
# All passes of a segment
-/
namespace BeagleG.Firmware
open Instr Line Lbl
open StepGen (Motor sub32 Regs Outcome)

variable {env : Env} {c : Cape} {prog : List (Instr Nat)}

/-- The passes from `STEP_GEN` on: what they do outside, whether the emergency stop ended them, and the status word. -/
def passes (c : Cape) (env : Env) (fr : Motor → Nat) : (fuel : Nat) → Regs → (Motor → Nat) → (st t n : Nat) → Done × Bool × Nat
  | 0, _, _, st, t, n => (⟨[], t, n⟩, false, st)
  | fuel + 1, g, m, st, t, n =>
    match pass c env fr g m st t n with
    | (d, .aborted) => (d, true, st / 2 ^ 24 * 2 ^ 24)
    | (d, .finished) => (d, false, st)
    | (d, .again g' m' st') => (d.bind fun t n => (passes c env fr fuel g' m' st' t n).1, (passes c env fr fuel g' m' st' d.t d.n).2)

theorem loops_dec (g : Regs) (h : (StepGen.calculateDelay g).2 ≠ 0) : (StepGen.calculateDelay g).1.loops + 1 = g.loops := by
  by_cases h0 : g.loops = 0
  · rw [StepGen.calculateDelay_done g h0] at h
    exact absurd rfl h
  · have := StepGen.calculateDelay_loops g h0
    omega

/-- The instructions carry out the passes. -/
theorem passes_run (hl : Located c prog) (hok : c.Ok) (fr : Motor → Nat) : ∀ (fuel : Nat) (g : Regs) (m : Motor → Nat) (st : Nat) (s : St),
    g.loops < fuel → Ready s.r g m fr st → s.pc = 22 →
    Wp prog env s fun s' =>
      Ran s s' (if (passes c env fr fuel g m st s.t s.n).2.1 then 402 else 401) (passes c env fr fuel g m st s.t s.n).1 passDirty ∧
      ((passes c env fr fuel g m st s.t s.n).2.1 = true → get s'.r hState = stateAbort) ∧
      get s'.r r28 = (passes c env fr fuel g m st s.t s.n).2.2 := by
  intro fuel
  induction fuel with
  | zero => intro g m st s h; omega
  | succ fuel ih =>
    intro g m st s hf hr hpc
    refine (pass_run hl hok s g m fr st hr hpc).trans ?_
    intro s1 h1
    rw [passes]
    cases hp : (pass c env fr g m st s.t s.n).2 with
    | aborted =>
      rw [hp] at h1
      have : pass c env fr g m st s.t s.n = ((pass c env fr g m st s.t s.n).1, .aborted) := by rw [← hp]
      rw [this]
      exact .here ⟨h1.1, fun _ => h1.2.1, h1.2.2⟩
    | finished =>
      rw [hp] at h1
      have : pass c env fr g m st s.t s.n = ((pass c env fr g m st s.t s.n).1, .finished) := by rw [← hp]
      rw [this]
      exact .here ⟨h1.1, fun h => by simp at h, h1.2⟩
    | again g' m' st' =>
      rw [hp] at h1
      have : pass c env fr g m st s.t s.n = ((pass c env fr g m st s.t s.n).1, .again g' m' st') := by rw [← hp]
      have hg : g'.loops < fuel := by
        unfold pass at hp
        simp only at hp
        split at hp
        · simp at hp
        · split at hp
          · simp at hp
          · rename_i hd
            simp only [Next.again.injEq] at hp
            have := loops_dec g hd
            rw [← hp.1]
            omega
      rw [this]
      obtain ⟨h2, h3⟩ := h1
      refine (ih g' m' st' s1 hg h3 h2.pc).mono ?_
      rintro s2 ⟨h4, h5, h6⟩
      have := h2.trans (f := fun t n => (passes c env fr fuel g' m' st' t n).1) h4
      simp only [← h2.t, ← h2.n]
      exact ⟨this, h5, h6⟩

end BeagleG.Firmware
