import Verif.Firmware.Queue
/-!
# A round through the queue, and the program from its start
-/
namespace BeagleG.Firmware
open Instr Line Lbl
open StepGen (Motor sub32 Regs MotionSegment)

variable {env : Env} {c : Cape} {prog : List (Instr Nat)}

/-! ### The end of a segment -/

/-- `r2 < QUEUE_LEN * QUEUE_ELEMENT_SIZE` after the step to the next element. -/
def noWrap (a : Nat) : Bool := decide ((a + elementSize) % 2 ^ 32 < queueLen * elementSize)

/-- Where the next element is read, motor-interface-pru.p 291-297. -/
def nextSlot (a : Nat) : Nat := if noWrap a then (a + elementSize) % 2 ^ 32 else queueOffset

/-- The position in the upper byte of the status word moves on. -/
def nextStatus (a st : Nat) : Nat := if noWrap a then st % 2 ^ 24 + (st / 2 ^ 24 + 1) % 256 * 2 ^ 24 else 0

/-- From `STEP_GEN_ABORTED` to `QUEUE_READ`; `b` is the state left behind. -/
def endDone (env : Env) (a b : Nat) (t n : Nat) : Done :=
  ((storeDone env a [b] t n).bind (eventDone 35)).bind (Done.wait (if noWrap a then 4 else 7))

theorem state_byte (r : Nat → Nat) : ((List.range 1).map fun j => byteOf r (Fld.byte hState + j)) = [get r hState] := by
  simp [byteOf, get, Fld.byte]

theorem end_run (hl : Located c prog) (s : St) (a b st : Nat) (hb : get s.r hState = b) (ha : get s.r r2 = a) (hst : get s.r r28 = st)
    (hpc : s.pc = 402) :
    Wp prog env s fun s' => Ran s s' 5 (endDone env a b s.t s.n) [1, 2, 28] ∧ get s'.r r2 = nextSlot a ∧ get s'.r r28 = nextStatus a st := by
  obtain ⟨pc, r, cc, n, t, log⟩ := s
  simp only at hpc ha hst hb
  subst hpc
  refine wp_store (hl.done.at 1 rfl) ?_
  refine wp_event (hl.done.at 2 rfl) ?_
  refine wp_add (hl.done.at 3 rfl) ?_
  refine wp_add (hl.done.at 4 rfl) ?_
  refine wp_movi (hl.done.at 5 rfl) ?_
  rw [state_byte, hb, movCost_small (show queueLen * elementSize < 2 ^ 16 by decide)]
  simp only [val, ha]
  have hr28 : get (put r r2 (a + elementSize)) ⟨28, 3, 1⟩ = st / 2 ^ 24 := by
    rw [get_put_other _ _ _ _ (by decide), ← hst]
    simp only [get]
    omega
  rw [hr28]
  generalize hq : put (put (put r r2 (a + elementSize)) ⟨28, 3, 1⟩ (st / 2 ^ 24 + 1)) r1 (queueLen * elementSize) = q
  have q1 : get q r1 = queueLen * elementSize := by rw [← hq, get_put_full]; rfl
  have q2 : get q r2 = (a + elementSize) % 2 ^ 32 := by
    rw [← hq, get_put_other _ _ _ _ (by decide), get_put_other _ _ _ _ (by decide), get_put_full]
  have q28 : get q r28 = st % 2 ^ 24 + (st / 2 ^ 24 + 1) % 256 * 2 ^ 24 := by
    rw [← hq, get_put_other _ _ _ _ (by decide)]
    simp only [get, put] at hst ⊢
    simp at hst ⊢
    omega
  have hk : ∀ k, k ∉ [1, 2, 28] → q k = r k := by
    intro k hk
    simp only [List.mem_cons, List.not_mem_nil, or_false, not_or] at hk
    rw [← hq, put_ne _ _ _ _ _ _ hk.1, put_ne _ _ _ _ _ _ hk.2.2, put_ne _ _ _ _ _ _ hk.2.1]
  refine wp_qblt (hl.done.at 6 rfl) (noWrap a) (decide_eq_decide.mpr (by
    show get q r2 < get q r1 ↔ _
    rw [q1, q2])) ?_
  cases hw : noWrap a
  · refine wp_movi (hl.done.at 7 rfl) ?_
    refine wp_zero (hl.done.at 8 rfl) ?_
    refine wp_jmp (hl.done.at 9 rfl) (.here ⟨⟨rfl, ?_, ?_, rfl, ?_⟩, ?_, ?_⟩)
    · simp only [endDone, storeDone, eventDone, Done.bind, Done.wait, List.append_nil, List.append_assoc]
    · simp only [endDone, storeDone, eventDone, Done.bind, Done.wait, hw, movCost_small (show queueOffset < 2 ^ 16 by decide)]
      simp
    · intro k hk'
      have := hk k hk'
      simp only [List.mem_cons, List.not_mem_nil, or_false, not_or] at hk'
      simp only [putBytes_reg]
      rw [if_neg hk'.2.2, put_ne _ _ _ _ _ _ hk'.2.1, this]
    · simp only [nextSlot, hw]
      rw [get_full, putBytes_reg, if_neg (by decide), put_full]
      rfl
    · simp only [nextStatus, hw]
      rw [get_full, putBytes_reg, if_pos rfl]
      rfl
  · refine .here ⟨⟨rfl, ?_, ?_, rfl, hk⟩, ?_, ?_⟩
    · simp only [endDone, storeDone, eventDone, Done.bind, Done.wait, List.append_nil, List.append_assoc]
    · simp only [endDone, storeDone, eventDone, Done.bind, Done.wait, hw]
      simp
    · simp only [nextSlot, hw]
      exact q2
    · simp only [nextStatus, hw]
      exact q28

/-! ### Nothing to do, and the end of the program -/

theorem header_run (hl : Located c prog) (s : St) (a : Nat) (ha : get s.r r2 = a) (hpc : s.pc = 5) :
    Wp prog env s fun s' => Ran s s' 6 (loadDone env a headerSize s.t s.n) [1] ∧ get s'.r hState = env.ans s.n 0 % 256 := by
  obtain ⟨pc, r, cc, n, t, log⟩ := s
  simp only at hpc ha
  subst hpc
  refine wp_load (hl.read.at 0 rfl) (.here ⟨⟨rfl, ?_, rfl, rfl, ?_⟩, (putBytes_header r (env.ans n)).1⟩)
  · simp only [loadDone, answer, val, ha]
  · intro k hk
    simp only [List.mem_cons, List.not_mem_nil, or_false] at hk
    exact putBytes_out _ _ _ _ _ (by simp only [Fld.byte, headerSize]; omega)

/-- `QUEUE_READ` finds nothing. -/
theorem poll_run (hl : Located c prog) (s : St) (a : Nat) (ha : get s.r r2 = a) (hpc : s.pc = 5)
    (hs : env.ans s.n 0 % 256 = stateEmpty ∨ env.ans s.n 0 % 256 = stateAbort) :
    Wp prog env s fun s' =>
      Ran s s' 5 ((loadDone env a headerSize s.t s.n).bind (Done.wait (if env.ans s.n 0 % 256 = stateEmpty then 1 else 2))) [1] := by
  refine (header_run hl s a ha hpc).trans ?_
  rintro ⟨pc1, q, c1, n1, t1, log1⟩ ⟨h1, h2⟩
  have hpc1 : pc1 = 6 := h1.pc
  subst hpc1
  simp only at h2
  have e1 := h1.log
  have e2 := h1.t
  have e3 := h1.n
  have e4 := h1.keep
  simp only at e1 e2 e3 e4
  by_cases h0 : env.ans s.n 0 % 256 = stateEmpty
  · refine wp_qbeq (hl.read.at 1 rfl) true (by rw [h2, h0]; rfl) (.here ⟨rfl, ?_, ?_, ?_, e4⟩)
    · simp only [e1, Done.bind, Done.wait, List.append_nil]
    · simp only [e2, Done.bind, Done.wait, h0, if_true]
    · simp only [e3, Done.bind, Done.wait]
  · have h3 : env.ans s.n 0 % 256 = stateAbort := hs.resolve_left h0
    refine wp_qbeq (hl.read.at 1 rfl) false (by rw [h2, h3]; rfl) ?_
    refine wp_qbeq (hl.read.at 2 rfl) true (by rw [h2, h3]; rfl) (.here ⟨rfl, ?_, ?_, ?_, e4⟩)
    · simp only [e1, Done.bind, Done.wait, List.append_nil]
    · simp only [e2, Done.bind, Done.wait, h0, if_false]
    · simp only [e3, Done.bind, Done.wait]

/-- `QUEUE_READ` finds `STATE_EXIT`. -/
def exitDone (env : Env) (a : Nat) (t n : Nat) : Done :=
  (((loadDone env a headerSize t n).bind (Done.wait 4)).bind (storeDone env a [stateEmpty])).bind (eventDone 35)

theorem exit_run (hl : Located c prog) (s : St) (a : Nat) (ha : get s.r r2 = a) (hpc : s.pc = 5)
    (hs : env.ans s.n 0 % 256 = stateExit) :
    Wp prog env s fun s' => Ran s s' 414 (exitDone env a s.t s.n) [1] ∧ step prog env s' = none := by
  refine (header_run hl s a ha hpc).trans ?_
  rintro ⟨pc1, q, c1, n1, t1, log1⟩ ⟨h1, h2⟩
  have hpc1 : pc1 = 6 := h1.pc
  subst hpc1
  simp only at h2
  have e1 := h1.log
  have e2 := h1.t
  have e3 := h1.n
  have e4 := h1.keep
  simp only at e1 e2 e3 e4
  refine wp_qbeq (hl.read.at 1 rfl) false (by rw [h2, hs]; rfl) ?_
  refine wp_qbeq (hl.read.at 2 rfl) false (by rw [h2, hs]; rfl) ?_
  refine wp_qbeq (hl.read.at 3 rfl) true (by rw [h2, hs]; rfl) ?_
  refine wp_movi (hl.done.at 10 rfl) ?_
  refine wp_store (hl.done.at 11 rfl) ?_
  refine wp_event (hl.done.at 12 rfl) (.here ⟨⟨rfl, ?_, ?_, ?_, ?_⟩, ?_⟩)
  · rw [state_byte, get_put_byte]
    have : val (put q hState stateEmpty) (.fld r2) = a := by
      simp only [val]
      rw [get_put_other _ _ _ _ (by decide), ← ha]
      exact get_keep (e4 2 (by decide))
    rw [this]
    simp only [e1, e2, e3, exitDone, Done.bind, Done.wait, storeDone, eventDone, List.append_nil, List.append_assoc,
      movCost_small (show stateEmpty < 2 ^ 16 by decide)]
    rfl
  · simp only [e2, e3, exitDone, Done.bind, Done.wait, storeDone, eventDone, movCost_small (show stateEmpty < 2 ^ 16 by decide)]
  · simp only [e3, exitDone, Done.bind, Done.wait, storeDone, eventDone]
  · intro k hk
    show put _ _ _ k = s.r k
    rw [put_ne _ _ _ _ _ _ (by simpa using hk), e4 k hk]
  · show step prog env ⟨414, _, _, _, _, _⟩ = none
    have : prog[414]? = some halt := hl.done.at 13 rfl
    simp only [step, this, exec]

/-! ### A round -/

/-- The program is back at `QUEUE_READ`, or has ended. -/
inductive Out where
  | next (a st : Nat)
  | halted

/-- What a segment does: passes, state byte, event. -/
def slotDone (c : Cape) (env : Env) (a st : Nat) (seg : MotionSegment) (t n : Nat) : Done × Out :=
  let go := passes c env seg.fractions (seg.loops + 1) (Regs.load seg) (fun _ => 0) ((st + seg.loops) % 2 ^ 32)
  let d := fetchDone c env a st seg t n
  let x := go d.t d.n
  (((d.bind fun t n => (go t n).1).bind (Done.wait (if x.2.1 then 0 else 1))).bind (endDone env a (if x.2.1 then stateAbort else stateEmpty)),
    .next (nextSlot a) (nextStatus a x.2.2))

/-- One round from `QUEUE_READ` on with r2 = `a` and r28 = `st`. -/
def round (c : Cape) (env : Env) (a st t n : Nat) : Done × Out :=
  if env.ans n 0 % 256 = stateEmpty ∨ env.ans n 0 % 256 = stateAbort then
    ((loadDone env a headerSize t n).bind (Done.wait (if env.ans n 0 % 256 = stateEmpty then 1 else 2)), .next a st)
  else if env.ans n 0 % 256 = stateExit then (exitDone env a t n, .halted)
  else slotDone c env a st (segment c env a t n) t n

/-- Registers that a round may change. -/
def roundDirty : List Nat := 2 :: fetchDirty

theorem slot_run (hl : Located c prog) (hok : c.Ok) (s : St) (a st : Nat) (seg : MotionSegment) (hsg : segment c env a s.t s.n = seg)
    (ha : get s.r r2 = a) (hst : get s.r r28 = st) (hpc : s.pc = 5)
    (hs : env.ans s.n 0 % 256 ≠ stateEmpty ∧ env.ans s.n 0 % 256 ≠ stateAbort ∧ env.ans s.n 0 % 256 ≠ stateExit) :
    Wp prog env s fun s' => Ran s s' 5 (slotDone c env a st seg s.t s.n).1 roundDirty ∧
      (slotDone c env a st seg s.t s.n).2 = .next (get s'.r r2) (get s'.r r28) := by
  refine (fetch_run hl hok s a st seg hsg ha hst hpc hs).trans ?_
  rintro s1 ⟨h1, h2⟩
  have hl1 : (Regs.load seg).loops < seg.loops + 1 := by
    rw [StepGen.load_loops]
    omega
  refine (passes_run hl hok seg.fractions (seg.loops + 1) (Regs.load seg) (fun _ => 0) _ s1 hl1 h2 h1.pc).trans ?_
  rintro s2 ⟨h3, h4, h5⟩
  have ha2 : get s2.r r2 = a := by rw [← ha, get_keep (h3.keep 2 (by decide)), get_keep (h1.keep 2 (by decide))]
  have ht := h1.t
  have hn := h1.n
  have hd1 : ∀ k, k ∉ roundDirty → k ∉ fetchDirty := fun k hk h => hk (List.mem_cons_of_mem _ h)
  have hd2 : ∀ k, k ∉ roundDirty → k ∉ passDirty := fun k hk h => hk (by
    simp only [passDirty, roundDirty, fetchDirty, List.mem_cons, List.not_mem_nil, or_false] at h ⊢; omega)
  have hd3 : ∀ k, k ∉ roundDirty → k ∉ [1, 2, 28] := fun k hk h => hk (by
    simp only [roundDirty, fetchDirty, List.mem_cons, List.not_mem_nil, or_false] at h ⊢; omega)
  unfold slotDone
  simp only
  rw [← ht, ← hn]
  have h6 := (h1.weaken hd1).trans (f := fun t n => (passes c env seg.fractions (seg.loops + 1) (Regs.load seg) (fun _ => 0)
    ((st + seg.loops) % 2 ^ 32) t n).1) (h3.weaken hd2)
  clear h1 h3
  generalize hx : (passes c env seg.fractions (seg.loops + 1) (Regs.load seg) (fun _ => 0) ((st + seg.loops) % 2 ^ 32) s1.t s1.n).2 = x at h4 h5 h6 ⊢
  generalize ((fetchDone c env a st seg s.t s.n).bind fun t n => (passes c env seg.fractions (seg.loops + 1) (Regs.load seg) (fun _ => 0)
    ((st + seg.loops) % 2 ^ 32) t n).1) = d at h6 ⊢
  obtain ⟨ab, st'⟩ := x
  simp only at h4 h5 h6 ⊢
  cases ab
  · simp only [Bool.false_eq_true, if_false] at h6 ⊢
    obtain ⟨pc2, q, c2, n2, t2, log2⟩ := s2
    have hpc2 : pc2 = 401 := h6.pc
    subst hpc2
    refine wp_movi (hl.done.at 0 rfl) ?_
    have h7 : Ran s ⟨402, put q hState stateEmpty, c2, n2, t2 + 1, log2⟩ 402 (d.bind (Done.wait 1)) roundDirty := by
      refine ⟨rfl, ?_, ?_, ?_, ?_⟩
      · simp only [show log2 = _ from h6.log, Done.bind, Done.wait, List.append_nil]
      · simp only [show t2 = _ from h6.t, Done.bind, Done.wait]
      · simp only [show n2 = _ from h6.n, Done.bind, Done.wait]
      · intro k hk
        show put _ _ _ k = _
        rw [put_ne _ _ _ _ _ _ (fun h => hk (by subst h; decide))]
        exact h6.keep k hk
    refine (end_run hl ⟨402, put q hState stateEmpty, c2, n2, t2 + 1, log2⟩ a stateEmpty st' (get_put_byte _ _ _)
      (by rw [get_put_other _ _ _ _ (by decide)]; exact ha2) (by rw [get_put_other _ _ _ _ (by decide)]; exact h5) rfl).mono ?_
    rintro s3 ⟨h8, h9, h10⟩
    exact ⟨h7.trans (h8.weaken hd3), by rw [h9, h10]⟩
  · simp only [if_true] at h6 ⊢
    refine (end_run hl s2 a stateAbort st' (h4 rfl) ha2 h5 h6.pc).mono ?_
    rintro s3 ⟨h8, h9, h10⟩
    refine ⟨?_, by rw [h9, h10]⟩
    refine Ran.trans (s1 := s2) (pc1 := 402) ⟨h6.pc, ?_, ?_, ?_, h6.keep⟩ (h8.weaken hd3)
    · rw [h6.log]; simp [Done.bind, Done.wait]
    · rw [h6.t]; simp [Done.bind, Done.wait]
    · rw [h6.n]; simp [Done.bind, Done.wait]

/-- One round of the program. -/
theorem round_run (hl : Located c prog) (hok : c.Ok) (s : St) (a st : Nat) (ha : get s.r r2 = a) (hst : get s.r r28 = st) (hpc : s.pc = 5) :
    Wp prog env s fun s' =>
      match (round c env a st s.t s.n).2 with
      | .next a' st' => Ran s s' 5 (round c env a st s.t s.n).1 roundDirty ∧ get s'.r r2 = a' ∧ get s'.r r28 = st'
      | .halted => Ran s s' 414 (round c env a st s.t s.n).1 roundDirty ∧ step prog env s' = none := by
  have hd : ∀ k, k ∉ roundDirty → k ∉ [1] := fun k hk h => hk (by
    simp only [roundDirty, fetchDirty, List.mem_cons, List.not_mem_nil, or_false] at h ⊢; omega)
  unfold round
  by_cases h1 : env.ans s.n 0 % 256 = stateEmpty ∨ env.ans s.n 0 % 256 = stateAbort
  · rw [if_pos h1]
    refine (poll_run hl s a ha hpc h1).mono ?_
    intro s' h
    refine ⟨h.weaken hd, ?_, ?_⟩
    · rw [← ha]; exact get_keep (h.keep 2 (by decide))
    · rw [← hst]; exact get_keep (h.keep 28 (by decide))
  · rw [if_neg h1]
    by_cases h2 : env.ans s.n 0 % 256 = stateExit
    · rw [if_pos h2]
      refine (exit_run hl s a ha hpc h2).mono ?_
      rintro s' ⟨h, h'⟩
      exact ⟨h.weaken hd, h'⟩
    · rw [if_neg h2]
      refine (slot_run hl hok s a st _ rfl ha hst hpc ⟨fun h => h1 (.inl h), fun h => h1 (.inr h), h2⟩).mono ?_
      rintro s' ⟨h, h'⟩
      rw [h']
      exact ⟨h, rfl, rfl⟩

/-! ### The start -/

/-- `INIT`: bit 4 of the configuration register 4 (`STANDBY_INIT` of `SYSCFG`) is cleared, the other bits are kept. -/
def initDone (env : Env) (t n : Nat) : Done :=
  let w := word (env.ans n)
  ⟨[(t, .load .cfg 4 (answer env n 4)), (t + (1 + env.lat n) + 1, .store .cfg 4 (bytesOf 4 (if w.testBit 4 then w - 16 else w)))],
    t + (1 + env.lat n) + 1 + (1 + env.lat (n + 1)) + 2, n + 2⟩

theorem init_run (hl : Located c prog) (s : St) (hpc : s.pc = 0) :
    Wp prog env s fun s' => Ran s s' 5 (initDone env s.t s.n) [0, 2, 28] ∧ get s'.r r2 = queueOffset ∧ get s'.r r28 = 0 := by
  obtain ⟨pc, r, cc, n, t, log⟩ := s
  simp only at hpc
  subst hpc
  refine wp_load (hl.init.at 0 rfl) ?_
  refine wp_clr (hl.init.at 1 rfl) ?_
  refine wp_store (hl.init.at 2 rfl) ?_
  have hg : get (putBytes r (Fld.byte r0) 4 (env.ans n)) r0 = word (env.ans n) := by
    rw [get_full, putBytes_reg, if_pos rfl, Nat.mod_eq_of_lt (word_lt _)]
  have hv : val (putBytes r (Fld.byte r0) 4 (env.ans n)) (.imm 4) % 32 = 4 := rfl
  rw [hv, hg]
  have hlt : (if (word (env.ans n)).testBit 4 = true then word (env.ans n) - 2 ^ 4 else word (env.ans n)) < 2 ^ 32 := by
    have := word_lt (env.ans n)
    split <;> omega
  generalize hw : (if (word (env.ans n)).testBit 4 = true then word (env.ans n) - 2 ^ 4 else word (env.ans n)) = w at hlt
  refine wp_movi (hl.init.at 3 rfl) ?_
  refine wp_movi (hl.init.at 4 rfl) (.here ⟨⟨rfl, ?_, ?_, rfl, ?_⟩, ?_, ?_⟩)
  · rw [byteOf_reg _ 0 4 (by decide), put_full, Nat.mod_eq_of_lt hlt, ← hw]
    simp only [initDone, answer, val, List.append_assoc]
    rfl
  · simp only [initDone, movCost_small (show queueOffset < 2 ^ 16 by decide), movCost_small (show 0 < 2 ^ 16 by decide)]
  · intro k hk
    simp only [List.mem_cons, List.not_mem_nil, or_false, not_or] at hk
    show put _ _ _ k = r k
    rw [put_ne _ _ _ _ _ _ hk.2.2, put_ne _ _ _ _ _ _ hk.2.1, put_ne _ _ _ _ _ _ hk.1, putBytes_reg, if_neg hk.1]
  · rw [get_put_other _ _ _ _ (by decide), get_put_full]
    rfl
  · rw [get_put_full]

/-- `k` rounds, or fewer if the program ends. -/
def rounds (c : Cape) (env : Env) : (k a st t n : Nat) → Done × Out
  | 0, a, st, t, n => (⟨[], t, n⟩, .next a st)
  | k + 1, a, st, t, n =>
    match round c env a st t n with
    | (d, .halted) => (d, .halted)
    | (d, .next a' st') => (d.bind fun t n => (rounds c env k a' st' t n).1, (rounds c env k a' st' d.t d.n).2)

theorem rounds_run (hl : Located c prog) (hok : c.Ok) : ∀ (k : Nat) (s : St) (a st : Nat), get s.r r2 = a → get s.r r28 = st → s.pc = 5 →
    Wp prog env s fun s' =>
      match (rounds c env k a st s.t s.n).2 with
      | .next a' st' => Ran s s' 5 (rounds c env k a st s.t s.n).1 roundDirty ∧ get s'.r r2 = a' ∧ get s'.r r28 = st'
      | .halted => Ran s s' 414 (rounds c env k a st s.t s.n).1 roundDirty ∧ step prog env s' = none := by
  intro k
  induction k with
  | zero =>
    intro s a st ha hst hpc
    exact .here ⟨⟨hpc, by simp [rounds], rfl, rfl, fun _ _ => rfl⟩, ha, hst⟩
  | succ k ih =>
    intro s a st ha hst hpc
    refine (round_run hl hok s a st ha hst hpc).trans ?_
    intro s1 h1
    rw [rounds]
    cases hp : (round c env a st s.t s.n).2 with
    | halted =>
      rw [hp] at h1
      have : round c env a st s.t s.n = ((round c env a st s.t s.n).1, .halted) := by rw [← hp]
      rw [this]
      exact .here h1
    | next a' st' =>
      rw [hp] at h1
      have : round c env a st s.t s.n = ((round c env a st s.t s.n).1, .next a' st') := by rw [← hp]
      rw [this]
      obtain ⟨h2, h3, h4⟩ := h1
      refine (ih s1 a' st' h3 h4 h2.pc).mono ?_
      intro s2 h5
      simp only [← h2.t, ← h2.n]
      cases hr : (rounds c env k a' st' s1.t s1.n).2 with
      | halted =>
        rw [hr] at h5
        exact ⟨h2.trans (f := fun t n => (rounds c env k a' st' t n).1) h5.1, h5.2⟩
      | next a2 st2 =>
        rw [hr] at h5
        exact ⟨h2.trans (f := fun t n => (rounds c env k a' st' t n).1) h5.1, h5.2⟩

/-- The program from its first instruction: `INIT` and `k` rounds. -/
def programDone (c : Cape) (env : Env) (k t n : Nat) : Done × Out :=
  let d := initDone env t n
  (d.bind fun t n => (rounds c env k queueOffset 0 t n).1, (rounds c env k queueOffset 0 d.t d.n).2)

theorem program_run (hok : c.Ok) (k : Nat) (s : St) (hpc : s.pc = 0) :
    Wp (firmware c) env s fun s' =>
      s'.log = s.log ++ (programDone c env k s.t s.n).1.log ∧ s'.t = (programDone c env k s.t s.n).1.t ∧
      match (programDone c env k s.t s.n).2 with
      | .next a st => s'.pc = 5 ∧ get s'.r r2 = a ∧ get s'.r r28 = st
      | .halted => step (firmware c) env s' = none := by
  refine (init_run (located c) s hpc).trans ?_
  rintro s1 ⟨h1, h2, h3⟩
  refine (rounds_run (located c) hok k s1 _ _ h2 h3 h1.pc).mono ?_
  intro s2 h4
  unfold programDone
  simp only [← h1.t, ← h1.n]
  cases hr : (rounds c env k queueOffset 0 s1.t s1.n).2 with
  | halted =>
    rw [hr] at h4
    obtain ⟨h5, h6⟩ := h4
    refine ⟨?_, ?_, h6⟩
    · rw [h5.log, h1.log, h1.t, h1.n, List.append_assoc]; rfl
    · rw [h5.t, h1.t, h1.n]; rfl
  | next a st =>
    rw [hr] at h4
    obtain ⟨h5, h6, h7⟩ := h4
    refine ⟨?_, ?_, h5.pc, h6, h7⟩
    · rw [h5.log, h1.log, h1.t, h1.n, List.append_assoc]; rfl
    · rw [h5.t, h1.t, h1.n]; rfl

end BeagleG.Firmware
