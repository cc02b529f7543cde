import Verif.Firmware.Pass
import Verif.StepGen.Lemmas
/-!
# One pass of the step generation, put together
-/
namespace BeagleG.Firmware
open Instr Line Lbl
open StepGen (Motor sub32 Regs)

variable {env : Env} {c : Cape} {prog : List (Instr Nat)}

/-- The pins of a cape are words. -/
structure Cape.Ok (c : Cape) : Prop where
  step : ∀ i, c.step i < 2 ^ 32
  dir : ∀ i, c.dir i < 2 ^ 32
  aux : ∀ i, c.aux i < 2 ^ 32
  input : ∀ i, c.input i < 2 ^ 32

theorem Ran.weaken {s s' : St} {pc : Nat} {d : Done} {dirty dirty' : List Nat} (h : Ran s s' pc d dirty)
    (hd : ∀ k, k ∉ dirty' → k ∉ dirty) : Ran s s' pc d dirty' :=
  ⟨h.pc, h.log, h.t, h.n, fun k hk => h.keep k (hd k hk)⟩

/-- Time passes. -/
def Done.wait (k : Nat) : Nat → Nat → Done := fun t n => ⟨[], t + k, n⟩

theorem Calc.ran {s s' : St} {pc k : Nat} {dirty : List Nat} (h : Calc s s' pc k dirty) : Ran s s' pc (Done.wait k s.t s.n) dirty :=
  ⟨h.pc, by rw [h.log]; simp [Done.wait], h.t, h.n, h.keep⟩

theorem Ran.calc {s s1 s2 : St} {pc1 pc2 k : Nat} {d : Done} {dirty : List Nat} (h1 : Ran s s1 pc1 d dirty)
    (h2 : Calc s1 s2 pc2 k dirty) : Ran s s2 pc2 (d.bind (Done.wait k)) dirty :=
  h1.trans h2.ran

/-! ### The status word -/

/-- `UpdateQueueStatus`: the word goes to the start of the memory. -/
def statusDone (env : Env) (st : Nat) (t n : Nat) : Done :=
  ⟨[(t + 2, .store .dram 0 (bytesOf 4 st))], t + 2 + (1 + env.lat n) + 1, n + 1⟩

theorem status_run (a : Nat) (s : St) (hc : CodeAt prog a (instrs adr updateQueueStatus)) (hpc : s.pc = a) :
    Wp prog env s fun s' => Ran s s' (a + 4) (statusDone env (sub32 (get s.r r28) 1) s.t s.n) [0, 1, 28] ∧
      get s'.r r28 = sub32 (get s.r r28) 1 ∧ get s'.r r1 = sub32 (get s.r r1) 2 := by
  obtain ⟨pc, r, cc, n, t, log⟩ := s
  simp only at hpc
  subst hpc
  refine wp_sub (hc.at 0 rfl) fun _ => ?_
  refine wp_movi (hc.at 1 rfl) ?_
  refine wp_store (hc.at 2 rfl) ?_
  refine wp_sub (hc.at 3 rfl) fun _ => .here ⟨⟨rfl, ?_, ?_, rfl, ?_⟩, ?_, ?_⟩
  · simp only [val, get_put_full]
    rw [byteOf_reg _ 28 4 (by decide), put_other _ _ _ _ (by decide), put_full]
    rfl
  · simp only [statusDone]
    rw [movCost_small (by decide)]
  · intro k hk
    simp only [List.mem_cons, List.not_mem_nil, or_false, not_or] at hk
    show put _ _ _ k = r k
    rw [put_other _ _ _ _ hk.2.1, put_other _ _ _ _ hk.1, put_other _ _ _ _ hk.2.2]
  · show get (put _ r1 _) r28 = _
    rw [get_put_other _ _ _ _ (by decide), get_put_other _ _ _ _ (by decide), get_put_full]
    rfl
  · show get (put _ r1 _) r1 = _
    rw [get_put_full, get_put_other _ _ _ _ (by decide), get_put_other _ _ _ _ (by decide)]
    rfl

/-! ### The outputs -/

/-- The step pins and their levels: the top bit of each motor state. -/
def stepPins (c : Cape) (m : Motor → Nat) : List (Nat × Bool) :=
  [(c.step 0, (m 0).testBit 31), (c.step 1, (m 1).testBit 31), (c.step 2, (m 2).testBit 31), (c.step 3, (m 3).testBit 31),
   (c.step 4, (m 4).testBit 31), (c.step 5, (m 5).testBit 31), (c.step 6, (m 6).testBit 31), (c.step 7, (m 7).testBit 31)]

/-- The direction pins and their levels. -/
def dirPins (c : Cape) (b : Nat) : List (Nat × Bool) :=
  [(c.dir 0, b.testBit 0), (c.dir 1, b.testBit 1), (c.dir 2, b.testBit 2), (c.dir 3, b.testBit 3),
   (c.dir 4, b.testBit 4), (c.dir 5, b.testBit 5), (c.dir 6, b.testBit 6), (c.dir 7, b.testBit 7)]

/-- The auxiliary pins and their levels. -/
def auxPins (c : Cape) (b : Nat) : List (Nat × Bool) :=
  [(c.aux 0, b.testBit 0), (c.aux 1, b.testBit 1), (c.aux 2, b.testBit 2), (c.aux 3, b.testBit 3),
   (c.aux 4, b.testBit 4), (c.aux 5, b.testBit 5), (c.aux 6, b.testBit 6), (c.aux 7, b.testBit 7),
   (c.aux 8, b.testBit 8), (c.aux 9, b.testBit 9), (c.aux 10, b.testBit 10), (c.aux 11, b.testBit 11),
   (c.aux 12, b.testBit 12), (c.aux 13, b.testBit 13), (c.aux 14, b.testBit 14), (c.aux 15, b.testBit 15)]

theorem steps_run (hl : Located c prog) (hok : c.Ok) (s : St) (m : Motor → Nat) (hm : ∀ i, get s.r (mState i) = m i) (hpc : s.pc = 633) :
    Wp prog env s fun s' => Ran s s' (get s.r ⟨30, 0, 2⟩) ((outs env (stepPins c m) s.t s.n).bind (Done.wait 1)) [4, 5, 6] := by
  have hc := hl.steps
  have : instrs adr (codeSteps c) = instrs adr (gpioSeq 24 [(mState 0, 31, c.step 0), (mState 1, 31, c.step 1), (mState 2, 31, c.step 2),
      (mState 3, 31, c.step 3), (mState 4, 31, c.step 4), (mState 5, 31, c.step 5), (mState 6, 31, c.step 6), (mState 7, 31, c.step 7)] ++ [ins ret]) := by
    simp only [codeSteps, gpioSeq, List.cons_append, len_cons_lab, List.append_assoc, List.append_nil]
  rw [this] at hc
  refine Wp.mono (gpioSub_run _ 24 633 s ?_ ?_ hpc hc) ?_
  · intro x hx
    simp only [List.mem_cons, List.not_mem_nil, or_false] at hx
    rcases hx with rfl | rfl | rfl | rfl | rfl | rfl | rfl | rfl <;> exact ⟨by simp <;> omega, by simp, hok.step _⟩
  · exact (show ∀ i ≤ 8, gpioAt (24 + i) = 633 + 9 * i ∨ i = 8 by decide)
  · intro s' h
    simp only [List.map_cons, List.map_nil, hm] at h
    exact h

theorem dir_run (hl : Located c prog) (hok : c.Ok) (s : St) (hpc : s.pc = 560) :
    Wp prog env s fun s' => Ran s s' (get s.r ⟨30, 0, 2⟩) ((outs env (dirPins c (get s.r r3)) s.t s.n).bind (Done.wait 1)) [4, 5, 6] := by
  have hc := hl.dir
  have : instrs adr (codeDir c) = instrs adr (gpioSeq 16 [(r3, 0, c.dir 0), (r3, 1, c.dir 1), (r3, 2, c.dir 2),
      (r3, 3, c.dir 3), (r3, 4, c.dir 4), (r3, 5, c.dir 5), (r3, 6, c.dir 6), (r3, 7, c.dir 7)] ++ [ins ret]) := by
    simp only [codeDir, gpioSeq, List.cons_append, len_cons_lab, List.append_assoc, List.append_nil]
  rw [this] at hc
  refine Wp.mono (gpioSub_run _ 16 560 s ?_ ?_ hpc hc) ?_
  · intro x hx
    simp only [List.mem_cons, List.not_mem_nil, or_false] at hx
    rcases hx with rfl | rfl | rfl | rfl | rfl | rfl | rfl | rfl <;> exact ⟨by simp, by simp, hok.dir _⟩
  · exact (show ∀ i ≤ 8, gpioAt (16 + i) = 560 + 9 * i ∨ i = 8 by decide)
  · intro s' h
    exact h

theorem aux_run (hl : Located c prog) (hok : c.Ok) (s : St) (hpc : s.pc = 415) :
    Wp prog env s fun s' => Ran s s' (get s.r ⟨30, 0, 2⟩) ((outs env (auxPins c (get s.r r3)) s.t s.n).bind (Done.wait 1)) [4, 5, 6] := by
  have hc := hl.aux
  have : instrs adr (codeAux c) = instrs adr (gpioSeq 0 [(r3, 0, c.aux 0), (r3, 1, c.aux 1), (r3, 2, c.aux 2),
      (r3, 3, c.aux 3), (r3, 4, c.aux 4), (r3, 5, c.aux 5), (r3, 6, c.aux 6), (r3, 7, c.aux 7), (r3, 8, c.aux 8), (r3, 9, c.aux 9),
      (r3, 10, c.aux 10), (r3, 11, c.aux 11), (r3, 12, c.aux 12), (r3, 13, c.aux 13), (r3, 14, c.aux 14), (r3, 15, c.aux 15)] ++ [ins ret]) := by
    simp only [codeAux, gpioSeq, List.cons_append, len_cons_lab, List.append_assoc, List.append_nil]
  rw [this] at hc
  refine Wp.mono (gpioSub_run _ 0 415 s ?_ ?_ hpc hc) ?_
  · intro x hx
    simp only [List.mem_cons, List.not_mem_nil, or_false] at hx
    rcases hx with rfl | rfl | rfl | rfl | rfl | rfl | rfl | rfl | rfl | rfl | rfl | rfl | rfl | rfl | rfl | rfl <;>
      exact ⟨by simp, by simp, hok.aux _⟩
  · exact (show ∀ i ≤ 16, gpioAt (0 + i) = 415 + 9 * i ∨ i = 16 by decide)
  · intro s' h
    exact h

/-! ### The pass -/

/-- What the registers hold at `STEP_GEN`. -/
structure Ready (r : Nat → Nat) (g : Regs) (m fr : Motor → Nat) (st : Nat) : Prop where
  regs : Match r g
  motor : ∀ i, get r (mState i) = m i
  frac : ∀ i, get r (pFraction i) = fr i
  status : get r r28 = st

/-- How a pass ends. -/
inductive Next where
  | aborted
  | finished
  | again (g : Regs) (m : Motor → Nat) (st : Nat)

/-- The motor states are advanced. -/
def advance (fr m : Motor → Nat) : Motor → Nat := fun i => Idiv.reg (m i + fr i)

/-- One pass: what it does outside, and how it ends. -/
def pass (c : Cape) (env : Env) (fr : Motor → Nat) (g : Regs) (m : Motor → Nat) (st t n : Nat) : Done × Next :=
  let e := estopDone c env (t + 2) n
  if e.2 then
    (((e.1.bind (Done.wait 3)).bind (statusDone env (st / 2 ^ 24 * 2 ^ 24))).bind (Done.wait 2), .aborted)
  else
    let d := (((e.1.bind (Done.wait 10)).bind (outs env (stepPins c (advance fr m)))).bind (Done.wait 1)).bind
      (Done.wait (calcCycles g + 1))
    let delay := (StepGen.calculateDelay g).2
    if delay = 0 then (d, .finished)
    else
      ((d.bind (statusDone env (sub32 st 1))).bind (Done.wait (2 * StepGen.waitRounds delay + 1)),
        .again (StepGen.calculateDelay g).1 (advance fr m) (sub32 st 1))

/-- Registers that a pass may change. -/
def passDirty : List Nat := [0, 1, 3, 4, 5, 6, 7, 8, 9, 10, 20, 21, 22, 23, 24, 25, 26, 27, 28, 30]

theorem adds_run (hl : Located c prog) (s : St) (m fr : Motor → Nat) (hm : ∀ i, get s.r (mState i) = m i)
    (hf : ∀ i, get s.r (pFraction i) = fr i) (hpc : s.pc = 33) :
    Wp prog env s fun s' => Calc s s' 41 8 [20, 21, 22, 23, 24, 25, 26, 27] ∧ ∀ i, get s'.r (mState i) = advance fr m i := by
  obtain ⟨pc, r, cc, n, t, log⟩ := s
  simp only at hpc hm hf
  subst hpc
  have m0 : get r ⟨20, 0, 4⟩ = m 0 := hm 0
  have f0 : get r ⟨12, 0, 4⟩ = fr 0 := hf 0
  have m1 : get r ⟨21, 0, 4⟩ = m 1 := hm 1
  have f1 : get r ⟨13, 0, 4⟩ = fr 1 := hf 1
  have m2 : get r ⟨22, 0, 4⟩ = m 2 := hm 2
  have f2 : get r ⟨14, 0, 4⟩ = fr 2 := hf 2
  have m3 : get r ⟨23, 0, 4⟩ = m 3 := hm 3
  have f3 : get r ⟨15, 0, 4⟩ = fr 3 := hf 3
  have m4 : get r ⟨24, 0, 4⟩ = m 4 := hm 4
  have f4 : get r ⟨16, 0, 4⟩ = fr 4 := hf 4
  have m5 : get r ⟨25, 0, 4⟩ = m 5 := hm 5
  have f5 : get r ⟨17, 0, 4⟩ = fr 5 := hf 5
  have m6 : get r ⟨26, 0, 4⟩ = m 6 := hm 6
  have f6 : get r ⟨18, 0, 4⟩ = fr 6 := hf 6
  have m7 : get r ⟨27, 0, 4⟩ = m 7 := hm 7
  have f7 : get r ⟨19, 0, 4⟩ = fr 7 := hf 7
  refine wp_add (d := ⟨20, 0, 4⟩) (a := ⟨20, 0, 4⟩) (o := .fld ⟨12, 0, 4⟩) (hl.doGen.at 0 rfl) ?_
  refine wp_add (d := ⟨21, 0, 4⟩) (a := ⟨21, 0, 4⟩) (o := .fld ⟨13, 0, 4⟩) (hl.doGen.at 1 rfl) ?_
  refine wp_add (d := ⟨22, 0, 4⟩) (a := ⟨22, 0, 4⟩) (o := .fld ⟨14, 0, 4⟩) (hl.doGen.at 2 rfl) ?_
  refine wp_add (d := ⟨23, 0, 4⟩) (a := ⟨23, 0, 4⟩) (o := .fld ⟨15, 0, 4⟩) (hl.doGen.at 3 rfl) ?_
  refine wp_add (d := ⟨24, 0, 4⟩) (a := ⟨24, 0, 4⟩) (o := .fld ⟨16, 0, 4⟩) (hl.doGen.at 4 rfl) ?_
  refine wp_add (d := ⟨25, 0, 4⟩) (a := ⟨25, 0, 4⟩) (o := .fld ⟨17, 0, 4⟩) (hl.doGen.at 5 rfl) ?_
  refine wp_add (d := ⟨26, 0, 4⟩) (a := ⟨26, 0, 4⟩) (o := .fld ⟨18, 0, 4⟩) (hl.doGen.at 6 rfl) ?_
  refine wp_add (d := ⟨27, 0, 4⟩) (a := ⟨27, 0, 4⟩) (o := .fld ⟨19, 0, 4⟩) (hl.doGen.at 7 rfl) ?_
  simp only [val, get_put_ne, ne_eq, Nat.reduceEqDiff, not_false_eq_true, m0, f0, m1, f1, m2, f2, m3, f3, m4, f4, m5, f5, m6, f6, m7, f7]
  refine .here ⟨⟨rfl, rfl, rfl, rfl, ?_⟩, ?_⟩
  · intro k hk
    simp only [List.mem_cons, List.not_mem_nil, or_false, not_or] at hk
    show put _ _ _ k = r k
    rw [put_ne _ _ _ _ _ _ (by omega), put_ne _ _ _ _ _ _ (by omega), put_ne _ _ _ _ _ _ (by omega), put_ne _ _ _ _ _ _ (by omega), put_ne _ _ _ _ _ _ (by omega), put_ne _ _ _ _ _ _ (by omega), put_ne _ _ _ _ _ _ (by omega), put_ne _ _ _ _ _ _ (by omega)]
  · intro i
    match i with
    | ⟨0, _⟩ =>
      show get _ ⟨20, 0, 4⟩ = _
      simp only [get_put_ne, get_put_full, ne_eq, Nat.reduceEqDiff, not_false_eq_true]
      rfl
    | ⟨1, _⟩ =>
      show get _ ⟨21, 0, 4⟩ = _
      simp only [get_put_ne, get_put_full, ne_eq, Nat.reduceEqDiff, not_false_eq_true]
      rfl
    | ⟨2, _⟩ =>
      show get _ ⟨22, 0, 4⟩ = _
      simp only [get_put_ne, get_put_full, ne_eq, Nat.reduceEqDiff, not_false_eq_true]
      rfl
    | ⟨3, _⟩ =>
      show get _ ⟨23, 0, 4⟩ = _
      simp only [get_put_ne, get_put_full, ne_eq, Nat.reduceEqDiff, not_false_eq_true]
      rfl
    | ⟨4, _⟩ =>
      show get _ ⟨24, 0, 4⟩ = _
      simp only [get_put_ne, get_put_full, ne_eq, Nat.reduceEqDiff, not_false_eq_true]
      rfl
    | ⟨5, _⟩ =>
      show get _ ⟨25, 0, 4⟩ = _
      simp only [get_put_ne, get_put_full, ne_eq, Nat.reduceEqDiff, not_false_eq_true]
      rfl
    | ⟨6, _⟩ =>
      show get _ ⟨26, 0, 4⟩ = _
      simp only [get_put_ne, get_put_full, ne_eq, Nat.reduceEqDiff, not_false_eq_true]
      rfl
    | ⟨7, _⟩ =>
      show get _ ⟨27, 0, 4⟩ = _
      simp only [get_put_full]
      rfl

theorem Ready.match_keep {r r' : Nat → Nat} {g : Regs} (h : Match r g) {dirty : List Nat} (hk : ∀ k, k ∉ dirty → r' k = r k)
    (hd : ∀ k ∈ [3, 7, 8, 9, 10, 11], k ∉ dirty) : Match r' g :=
  h.keep fun k hk' => hk k (hd k hk')

theorem get_keep {r r' : Nat → Nat} {f : Fld} (h : r' f.r = r f.r) : get r' f = get r f := by simp only [get, h]

theorem zero3 (q : Nat → Nat) (k : Nat) :
    putBytes q (Fld.byte r28) 3 (fun _ => 0) k = if k = 28 then get q r28 / 2 ^ 24 * 2 ^ 24 else q k := by
  unfold putBytes Fld.byte
  simp only
  by_cases h : k = 28
  · subst h
    rw [if_neg (by omega), if_pos rfl]
    simp [byteOf, get]
    omega
  · rw [if_pos (by omega), if_neg h]

theorem get_put_byte (r : Nat → Nat) (a v : Nat) : get (put r ⟨a, 0, 1⟩ v) ⟨a, 0, 1⟩ = v % 256 := by
  simp only [get, put, if_true]
  simp
  omega

theorem genStatus (hl : Located c prog) : CodeAt prog 27 (instrs adr updateQueueStatus) := by
  have := hl.gen
  unfold codeStepGen at this
  rw [List.append_assoc, instrs_append, instrs_append] at this
  exact this.append.2.append.1

theorem delayStatus (hl : Located c prog) : CodeAt prog 394 (instrs adr updateQueueStatus) := by
  have := hl.delay
  unfold codeDelay at this
  have h2 := (CodeAt.cons (m := instrs adr (updateQueueStatus ++ [ lab STEP_DELAY, ins (sub r1 r1 (.imm 1)),
    ins (qbne STEP_DELAY r1 (.imm 0)), ins (jmp STEP_GEN) ])) this).2
  rw [instrs_append] at h2
  exact h2.append.1

theorem pass_run (hl : Located c prog) (hok : c.Ok) (s : St) (g : Regs) (m fr : Motor → Nat) (st : Nat) (h : Ready s.r g m fr st)
    (hpc : s.pc = 22) :
    Wp prog env s fun s' =>
      match (pass c env fr g m st s.t s.n).2 with
      | .aborted => Ran s s' 402 (pass c env fr g m st s.t s.n).1 passDirty ∧ get s'.r hState = stateAbort ∧
          get s'.r r28 = st / 2 ^ 24 * 2 ^ 24
      | .finished => Ran s s' 401 (pass c env fr g m st s.t s.n).1 passDirty ∧ get s'.r r28 = st
      | .again g' m' st' => Ran s s' 22 (pass c env fr g m st s.t s.n).1 passDirty ∧ Ready s'.r g' m' fr st' := by
  obtain ⟨pc, r, cc, n, t, log⟩ := s
  simp only at hpc h
  subst hpc
  refine wp_movi (hl.gen.at 0 rfl) ?_
  refine wp_call (hl.gen.at 1 rfl) ?_
  have hr0 : get (put (put r r0 0) ⟨30, 0, 2⟩ (22 + 1 + 1)) r0 = 0 := by
    rw [get_put_other _ _ _ _ (by decide), get_put_full]
  refine (estop_run hl ⟨706, put (put r r0 0) ⟨30, 0, 2⟩ (22 + 1 + 1), cc, n, t + 1 + 1, log⟩ (hok.input 6) rfl hr0).trans ?_
  rintro ⟨pc1, q, c1, n1, t1, log1⟩ ⟨h1, h2⟩
  simp only at h1 h2
  rw [get_put_low] at h1
  have hpc1 : pc1 = 24 := h1.pc
  subst hpc1
  have hq : ∀ k, k ∉ [0, 4, 5, 6, 30] → q k = r k := by
    intro k hk
    have := h1.keep k (fun h => hk (by simp only [List.mem_cons, List.not_mem_nil, or_false] at h ⊢; omega))
    simp only [List.mem_cons, List.not_mem_nil, or_false, not_or] at hk
    refine Eq.trans this ?_
    show put _ _ _ k = r k
    rw [put_other _ _ _ _ hk.2.2.2.2, put_other _ _ _ _ hk.1]
  have hran : Ran ⟨22, r, cc, n, t, log⟩ ⟨24, q, c1, n1, t1, log1⟩ 24 (estopDone c env (t + 2) n).1 [0, 4, 5, 6, 30] :=
    ⟨rfl, h1.log, h1.t, h1.n, hq⟩
  have hst : get q r28 = st := by rw [get_keep (hq 28 (by decide)), h.status]
  unfold pass
  simp only
  rw [show t + 1 + 1 = t + 2 from rfl] at h2
  cases he : (estopDone c env (t + 2) n).2
  · rw [he] at h2
    simp only [Bool.false_eq_true, if_false] at h2 ⊢
    refine wp_qbne (hl.gen.at 2 rfl) true (by rw [h2]; simp [val]) ?_
    refine (adds_run hl ⟨33, q, c1, n1, t1 + 1, log1⟩ m fr (fun i => ?_) (fun i => ?_) rfl).trans ?_
    · rw [show get q (mState i) = get r (mState i) from get_keep (hq _ (by
        simp only [List.mem_cons, List.not_mem_nil, or_false]; omega))]
      exact h.motor i
    · rw [show get q (pFraction i) = get r (pFraction i) from get_keep (hq _ (by
        simp only [List.mem_cons, List.not_mem_nil, or_false]; omega))]
      exact h.frac i
    rintro ⟨pc2, q2, c2, n2, t2, log2⟩ ⟨h3, h4⟩
    have hpc2 : pc2 = 41 := h3.pc
    subst hpc2
    refine wp_call (hl.doGen.at 8 rfl) ?_
    have hm2 : ∀ i, get (put q2 ⟨30, 0, 2⟩ (41 + 1)) (mState i) = advance fr m i := by
      intro i
      rw [get_put_other _ _ _ _ (by simp only; omega)]
      exact h4 i
    refine (steps_run hl hok ⟨633, put q2 ⟨30, 0, 2⟩ (41 + 1), c2, n2, t2 + 1, log2⟩ _ hm2 rfl).trans ?_
    rintro s3 h5
    simp only at h5
    rw [get_put_low] at h5
    have hk3 : ∀ k, k ∉ [0, 4, 5, 6, 20, 21, 22, 23, 24, 25, 26, 27, 30] → s3.r k = r k := by
      intro k hk
      simp only [List.mem_cons, List.not_mem_nil, or_false, not_or] at hk
      rw [h5.keep k (by simp only [List.mem_cons, List.not_mem_nil, or_false]; omega)]
      show put _ _ _ k = r k
      rw [put_ne _ _ _ _ _ _ (by omega)]
      refine (h3.keep k (by simp only [List.mem_cons, List.not_mem_nil, or_false]; omega)).trans ?_
      exact hq k (by simp only [List.mem_cons, List.not_mem_nil, or_false]; omega)
    have hm3 : Match s3.r g := h.regs.keep fun k hk => hk3 k (by
      simp only [List.mem_cons, List.not_mem_nil, or_false] at hk ⊢; omega)
    have hmot3 : ∀ i, get s3.r (mState i) = advance fr m i := by
      intro i
      rw [← hm2 i]
      refine get_keep (h5.keep _ ?_)
      simp only [List.mem_cons, List.not_mem_nil, or_false]; omega
    have hran3 : Ran ⟨22, r, cc, n, t, log⟩ s3 42
        ((((estopDone c env (t + 2) n).1.bind (Done.wait 10)).bind (outs env (stepPins c (advance fr m)))).bind (Done.wait 1))
        passDirty := by
      have e1 : (estopDone c env (t + 2) n).1.t = t1 := h1.t.symm
      have e2 : (estopDone c env (t + 2) n).1.n = n1 := h1.n.symm
      have e3 : log1 = log ++ (estopDone c env (t + 2) n).1.log := h1.log
      have e4 : t2 = t1 + 10 - 1 := by have := h3.t; simp only at this; omega
      have e5 : log2 = log1 := h3.log
      have e6 : n2 = n1 := h3.n
      subst e5 e6
      refine ⟨h5.pc, ?_, ?_, ?_, ?_⟩
      · rw [h5.log]
        simp only [Done.bind, Done.wait, e1, e2, e3, e4]
        simp only [List.append_nil, List.append_assoc]
        rfl
      · rw [h5.t]
        simp only [Done.bind, Done.wait, e1, e2, e4]
        rfl
      · rw [h5.n]
        simp only [Done.bind, Done.wait, e1, e2, e4]
        rfl
      · intro k hk
        refine hk3 k fun h => hk ?_
        simp only [passDirty, List.mem_cons, List.not_mem_nil, or_false] at h ⊢
        omega
    refine (calculateDelay_run hl s3 g hm3 h5.pc).trans ?_
    rintro s4 ⟨h6, h7, h8⟩
    have hpc4 := h6.pc
    have hk4 : ∀ k, k ∉ passDirty → s4.r k = r k := by
      intro k hk
      rw [h6.keep k (fun h => hk (by simp only [calcDirty, passDirty, List.mem_cons, List.not_mem_nil, or_false] at h ⊢; omega))]
      exact hran3.keep k hk
    have hmot4 : ∀ i, get s4.r (mState i) = advance fr m i := by
      intro i
      rw [← hmot3 i]
      refine get_keep (h6.keep _ ?_)
      simp only [calcDirty, List.mem_cons, List.not_mem_nil, or_false]; omega
    have hst4 : get s4.r r28 = st := by
      rw [← h.status]
      exact get_keep ((h6.keep 28 (by decide)).trans (hk3 28 (by decide)))
    have hfr4 : ∀ i, get s4.r (pFraction i) = fr i := by
      intro i
      rw [← h.frac i]
      refine get_keep (hk4 _ ?_)
      simp only [passDirty, List.mem_cons, List.not_mem_nil, or_false]; omega
    have hran4 := hran3.calc (h6.weaken (dirty' := passDirty) (by
      intro k hk h
      exact hk (by simp only [calcDirty, passDirty, List.mem_cons, List.not_mem_nil, or_false] at h ⊢; omega)))
    obtain ⟨pc4, q4, c4, n4, t4, log4⟩ := s4
    simp only at hpc4 h7 h8 hmot4 hst4 hfr4
    subst hpc4
    by_cases hd : (StepGen.calculateDelay g).2 = 0
    · refine wp_qbeq (hl.delay.at 0 rfl) true (by rw [h8, hd]; simp [val]) (.here ?_)
      rw [if_pos hd]
      refine ⟨⟨rfl, ?_, ?_, ?_, hk4⟩, hst4⟩
      · rw [show log4 = _ from hran4.log]
        simp [Done.bind, Done.wait]
      · simp only [show t4 = _ from hran4.t, Done.bind, Done.wait]
        omega
      · simp only [show n4 = _ from hran4.n, Done.bind, Done.wait]
    · refine wp_qbeq (hl.delay.at 0 rfl) false (by rw [h8]; simp [val, hd]) ?_
      rw [if_neg hd]
      have hran5 : Ran ⟨22, r, cc, n, t, log⟩ ⟨394, q4, c4, n4, t4 + 1, log4⟩ 394
          (((((estopDone c env (t + 2) n).1.bind (Done.wait 10)).bind (outs env (stepPins c (advance fr m)))).bind (Done.wait 1)).bind
            (Done.wait (calcCycles g + 1))) passDirty := by
        refine ⟨rfl, ?_, ?_, ?_, hk4⟩
        · rw [show log4 = _ from hran4.log]
          simp [Done.bind, Done.wait]
        · simp only [show t4 = _ from hran4.t, Done.bind, Done.wait]
          omega
        · simp only [show n4 = _ from hran4.n, Done.bind, Done.wait]
      refine (status_run 394 ⟨394, q4, c4, n4, t4 + 1, log4⟩ (delayStatus hl) rfl).trans ?_
      rintro s5 ⟨h9, h10, h11⟩
      simp only at h9 h10 h11
      rw [hst4] at h9 h10
      rw [h8] at h11
      have hran6 := hran5.trans (f := statusDone env (sub32 st 1)) (h9.weaken (by
        intro k hk h
        exact hk (by simp only [passDirty, List.mem_cons, List.not_mem_nil, or_false] at h ⊢; omega)))
      refine (delay_run' hl s5 h9.pc).mono ?_
      rintro s6 h12
      have hw : (if get s5.r r1 = 0 then 2 ^ 32 else get s5.r r1) = StepGen.waitRounds (StepGen.calculateDelay g).2 := by
        rw [h11]; rfl
      rw [hw] at h12
      have hran7 := hran6.calc (h12.weaken (by
        intro k hk h
        exact hk (by simp only [passDirty, List.mem_cons, List.not_mem_nil, or_false] at h ⊢; omega)))
      have hk56 : ∀ k, k ∉ [0, 1, 28] → s6.r k = q4 k := by
        intro k hk
        rw [h12.keep k (fun h => hk (by simp only [List.mem_cons, List.not_mem_nil, or_false] at h ⊢; omega)), h9.keep k hk]
      refine ⟨hran7, ?_, ?_, ?_, ?_⟩
      · exact h7.keep fun k hk => hk56 k (by simp only [List.mem_cons, List.not_mem_nil, or_false] at hk ⊢; omega)
      · intro i
        rw [← hmot4 i]
        refine get_keep (hk56 _ ?_)
        simp only [List.mem_cons, List.not_mem_nil, or_false]; omega
      · intro i
        rw [← hfr4 i]
        refine get_keep (hk56 _ ?_)
        simp only [List.mem_cons, List.not_mem_nil, or_false]; omega
      · rw [← h10]
        exact get_keep (h12.keep 28 (by decide))
  · rw [he] at h2
    simp only [if_true] at h2 ⊢
    refine wp_qbne (hl.gen.at 2 rfl) false (by rw [h2]; simp [val]) ?_
    refine wp_zero (hl.gen.at 3 rfl) ?_
    refine wp_add (hl.gen.at 4 rfl) ?_
    have hz : get (put (putBytes q (Fld.byte r28) 3 fun _ => 0) r28 (get (putBytes q (Fld.byte r28) 3 fun _ => 0) r28 +
        val (putBytes q (Fld.byte r28) 3 fun _ => 0) (.imm 1))) r28 = st / 2 ^ 24 * 2 ^ 24 + 1 := by
      rw [get_put_full, get_full, zero3, if_pos rfl, hst]
      simp only [val]
      have hlt : st < 2 ^ 32 := by rw [← hst]; exact get_lt q 28
      omega
    have hzk : ∀ v k, k ≠ 28 → put (putBytes q (Fld.byte r28) 3 fun _ => 0) r28 v k = q k := by
      intro v k hk
      rw [put_ne _ _ _ _ _ _ hk, zero3, if_neg hk]
    refine (status_run 27 _ (genStatus hl) rfl).trans ?_
    rintro ⟨pc5, q5, c5, n5, t5, log5⟩ ⟨h9, h10, -⟩
    simp only at h9 h10
    rw [hz] at h9 h10
    have hsub : sub32 (st / 2 ^ 24 * 2 ^ 24 + 1) 1 = st / 2 ^ 24 * 2 ^ 24 := by
      have hlt : st < 2 ^ 32 := by rw [← hst]; exact get_lt q 28
      simp only [sub32, Idiv.reg]
      omega
    rw [hsub] at h9 h10
    have hpc5 : pc5 = 31 := h9.pc
    subst hpc5
    refine wp_movi (hl.gen.at 9 rfl) ?_
    refine wp_jmp (hl.gen.at 10 rfl) (.here ⟨⟨rfl, ?_, ?_, ?_, ?_⟩, ?_, ?_⟩)
    · rw [show log5 = _ from h9.log, show log1 = _ from hran.log]
      simp only [Done.bind, Done.wait, ← hran.t, ← hran.n, List.append_nil, List.append_assoc]
    · rw [show t5 = _ from h9.t]
      simp only [Done.bind, Done.wait, ← hran.t, ← hran.n]
      rfl
    · rw [show n5 = _ from h9.n]
      simp only [Done.bind, Done.wait, ← hran.t, ← hran.n]
    · intro k hk
      simp only [passDirty, List.mem_cons, List.not_mem_nil, or_false, not_or] at hk
      show put _ _ _ k = r k
      rw [put_ne _ _ _ _ _ _ (by omega)]
      refine (h9.keep k (by simp only [List.mem_cons, List.not_mem_nil, or_false]; omega)).trans ?_
      refine (hzk _ k (by omega)).trans (hq k ?_)
      simp only [List.mem_cons, List.not_mem_nil, or_false]; omega
    · rw [get_put_byte]
      rfl
    · rw [← h10]
      exact get_put_ne _ _ _ _ _ _ _ _ (by decide)

end BeagleG.Firmware
