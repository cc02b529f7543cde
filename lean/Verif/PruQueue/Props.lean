import Verif.PruQueue.MoreLemmas
/-!
# C23-C26, C51: the queue between host and firmware

All theorems quantify over every interleaving: a run is an arbitrary list of actions of client,
host, firmware and environment. `N` is the number of payload bytes of a slot (53 in the code).
-/
namespace BeagleG.PruQueue

variable {N : Nat} {loops : List Nat → Nat}

/-! ### C23: FIFO, no loss, no duplication, no torn element -/

/-- **C23.** At any time of any execution, what the firmware took from the queue (the contents of
its registers) is exactly a prefix, in order, of the elements for which `Enqueue` returned true. -/
theorem C23_fifo (hN : 0 < N) (as : List Action) (s : Sys) (hr : run N loops init as = some s) :
    s.consumed.map Prod.fst <+: accepted s := by
  rw [(inv_run hN as hr).mem.fifo]
  exact List.take_prefix _ _

/-- **C23.** While the firmware works on an element, its registers hold the whole element that is
next in order; in particular it never acts on a partially written slot. -/
theorem C23_never_torn (hN : 0 < N) (as : List Action) (s : Sys) (regs : List Nat) (left : Nat)
    (hr : run N loops init as = some s) (hp : s.pru = .sample regs left ∨ s.pru = .pass regs left) :
    (accepted s)[s.consumed.length]? = some (.seg regs) ∧ regs.length = N := by
  have h := inv_run hN as hr
  have h2 := h.pru
  have : (accepted s)[s.consumed.length]? = some (.seg regs) := by
    rcases hp with hp | hp <;> (rw [hp] at h2; exact h2.2)
  exact ⟨this, h.mem.len _ (List.mem_of_getElem? this)⟩

/-- **C23.** Whenever the host writes payload bytes or the state of a slot, that slot is free: its
state is `EMPTY`, the firmware does not work on it, and it holds none of the elements that are
accepted but not yet executed. -/
theorem C23_never_overwrites (hN : 0 < N) (as : List Action) (s : Sys) (w : Nat) (e : Elem) (k : Nat)
    (hr : run N loops init as = some s)
    (hh : s.host = .copyState w e ∨ s.host = .copy w e k) :
    s.slot w = .empty ∧ (inExecution s → s.ppos ≠ w) ∧
    ∀ j, s.consumed.length ≤ j → j < (accepted s).length → j % 16 ≠ w := by
  have h := inv_run hN as hr
  have hw : s.slot w = .empty ∧ w = (accepted s).length % 16 := by
    have h1 := h.host
    rcases hh with hh | hh
    · simp only [HostOK, hh] at h1; exact ⟨h1.2.2.2, h1.1⟩
    · simp only [HostOK, hh] at h1; exact ⟨h1.2.2.2.1, h1.1⟩
  have hroom := h.mem.room (.inl (hw.2 ▸ hw.1))
  have hj : ∀ j, s.consumed.length ≤ j → j < (accepted s).length → j % 16 ≠ w := by
    intro j h1 h2; omega
  refine ⟨hw.1, ?_, hj⟩
  intro hx
  have h2 := h.pru
  have : s.ppos = s.consumed.length % 16 ∧ s.consumed.length < (accepted s).length := by
    unfold inExecution at hx
    cases e : s.pru <;> simp only [e] at hx h2 <;>
      first
      | exact ⟨h2.1, (List.getElem?_eq_some_iff.1 h2.2).1⟩
      | simp at hx
  rw [this.1]
  exact hj _ (Nat.le_refl _) this.2

/-- **C23.** At most 16 elements are outstanding. -/
theorem C23_bounded (hN : 0 < N) (as : List Action) (s : Sys) (hr : run N loops init as = some s) :
    s.consumed.length ≤ (accepted s).length ∧
    (accepted s).length ≤ s.consumed.length + 16 :=
  ⟨(inv_run hN as hr).mem.le1, (inv_run hN as hr).mem.le2⟩

/-- A client call of `Enqueue` that goes through without waiting: 4 host steps for one byte. -/
def enq (b : Nat) : List Action := [.callEnqueue [b], .host, .host, .host, .host]

/-- The firmware executing one element with `n` loops. -/
def exec (n : Nat) : List Action :=
  [.pru, .pru, .pru] ++ (List.replicate (2 * n) .pru) ++ [.pru, .pru, .pru, .pru, .pru]

/-- Non-vacuity: two elements, the first with two loops executed while the host copies the second. -/
example : ((run 1 (fun p => p.getD 0 0) init
      (enq 2 ++ [.callEnqueue [7], .host, .pru, .pru, .pru] ++ List.replicate 4 .pru ++
        [.host, .pru, .pru, .host, .pru, .host, .pru, .pru])).map
      fun s => (accepted s, s.consumed, s.passes)) =
    some ([.seg [2], .seg [7]], [(.seg [2], .executed)], 3) := by decide +kernel

/-! ### C24: pending elements -/

/-- Actions of the firmware and the environment. -/
def notHost : Action → Bool
  | .pru | .pruEarly | .estop _ => true
  | _ => false

theorem notHost_run (hN : 0 < N) (as : List Action) : ∀ s s', Inv N s → (∀ a ∈ as, notHost a = true) →
    run N loops s as = some s' →
    Inv N s' ∧ s'.host = s.host ∧ s'.hpos = s.hpos ∧ s'.results = s.results ∧
      s.consumed.length ≤ s'.consumed.length := by
  induction as with
  | nil =>
    intro s s' h _ hr
    simp only [run, Option.some.injEq] at hr
    subst hr
    exact ⟨h, rfl, rfl, rfl, Nat.le_refl _⟩
  | cons a as ih =>
    intro s s' h ha hr
    simp only [run] at hr
    cases e : step N loops s a with
    | none => simp [e] at hr
    | some s1 =>
      rw [e] at hr
      obtain ⟨g0, g1, g2, g3, g4⟩ := ih s1 s' (inv_step hN h e)
        (fun x hx => ha x (List.mem_cons_of_mem _ hx)) hr
      have hlen : s1.host = s.host ∧ s1.hpos = s.hpos ∧ s1.results = s.results ∧
          s.consumed.length ≤ s1.consumed.length := by
        have hpru : ∀ early, pruStep N loops early s = some s1 → s1.host = s.host ∧ s1.hpos = s.hpos ∧
            s1.results = s.results ∧ s.consumed.length ≤ s1.consumed.length := by
          intro early hs
          obtain ⟨-, -, k3, k4, k5, -⟩ := pru_wake h hs 0
          refine ⟨k3, k4, k5, ?_⟩
          unfold pruStep at hs
          cases ep : s.pru <;> simp only [ep] at hs <;>
            first
            | (injection hs with hs; subst hs; simp)
            | (split at hs <;> injection hs with hs <;> subst hs <;> simp)
            | simp at hs
        cases a with
        | pru => exact hpru _ e
        | pruEarly => exact hpru _ e
        | estop on =>
          simp only [step] at e; injection e with e; subst e
          exact ⟨rfl, rfl, rfl, Nat.le_refl _⟩
        | _ => have := ha _ List.mem_cons_self; simp [notHost] at this
      exact ⟨g0, g1.trans hlen.1, g2.trans hlen.2.1, g3.trans hlen.2.2.1, Nat.le_trans hlen.2.2.2 g4⟩

theorem all_inv (hN : 0 < N) (as : List Action) {s : Sys} (hr : run N loops init as = some s) :
    Inv N s ∧ ExitInv s ∧ WakeInv s ∧ StatInv s :=
  run_induction (fun s => Inv N s ∧ ExitInv s ∧ WakeInv s ∧ StatInv s)
    (fun _ _ _ h hs => ⟨inv_step hN h.1 hs, exit_step h.1 h.2.1 hs, wake_step h.1 h.2.2.1 hs,
      stat_step h.1 h.2.2.2 hs⟩) as init s
    ⟨inv_init N, exit_init, wake_init, stat_init⟩ hr

/-- **C24 (partial).** `GetPendingElements` reads the status (state `s1`), then, possibly after
arbitrary progress of the firmware, the state of the last slot, and returns `n`. Then `n = 0` only
if all accepted elements have been taken by the firmware. Otherwise `n` counts the elements from the
one the status read refers to (the one in execution, or the last one finished) to the last accepted;
in particular it never under-reports the elements outstanding at the end of the call.

Missing to the full property: the case where at the time of reading all 16 slots are occupied and the
firmware has not yet published the status of the oldest of them, see
`C24_pending_underreports`. -/
theorem C24_pending_partial (hN : 0 < N) (as1 as2 : List Action) (s1 s4 : Sys)
    (hr1 : run N loops init as1 = some s1) (hh : s1.host = .pend1)
    (has : ∀ a ∈ as2, notHost a = true)
    (hr2 : run N loops s1 ([.host] ++ as2 ++ [.host]) = some s4)
    (hroom : (accepted s1).length < s1.consumed.length + 16 ∨ inExecution s1 = true) :
    ∃ n, s4.results = s1.results ++ [.pending n s1.status.2] ∧ accepted s4 = accepted s1 ∧
      (n = 0 → s4.consumed.map Prod.fst = accepted s4) ∧
      (n ≠ 0 → n = (accepted s4).length - publishedElem s1 ∧
        publishedElem s1 ≤ s4.consumed.length ∧
        (accepted s4).length - s4.consumed.length ≤ n) := by
  obtain ⟨hi, hx, -, hst⟩ := all_inv hN as1 hr1
  have hho := hi.host
  simp only [HostOK, hh] at hho
  obtain ⟨hp16, hpa, hsh⟩ := hho
  have hnx : ∀ j : Nat, (accepted s1)[j]? ≠ some .exit := by
    intro j hj
    have := (hx.last j hj).2.2
    rw [hsh] at this
    simp at this
  have hidx : s1.status.1 = publishedElem s1 % 16 := by
    apply hst
    · intro h; exact hnx _ (hx.stop (.inl h)).2
    · intro h; exact hnx _ (hx.stop (.inr h)).2
    · intro h
      rcases hx.off h with h | h <;> rw [hh] at h <;> simp at h
  -- first read
  simp only [List.cons_append, List.nil_append, run, step, hostStep, hh, Option.bind_some] at hr2
  -- progress
  have hi2 : Inv N { s1 with host := .pend2 s1.status.1 s1.status.2 } :=
    inv_host hi (by simp only [hostStep, hh])
  have hsplit : ∀ (l : List Action) (s s' : Sys), run N loops s (l ++ [.host]) = some s' →
      ∃ s3, run N loops s l = some s3 ∧ hostStep N s3 = some s' := by
    intro l
    induction l with
    | nil =>
      intro s s' h
      simp only [List.nil_append, run, step] at h
      cases e : hostStep N s with
      | none => simp [e] at h
      | some x => rw [e] at h; exact ⟨s, rfl, by simpa [run, e] using h⟩
    | cons a l ih =>
      intro s s' h
      simp only [List.cons_append, run] at h ⊢
      cases e : step N loops s a with
      | none => simp [e] at h
      | some x =>
        rw [e] at h
        exact ih x s' h
  obtain ⟨s3, h3, h4⟩ := hsplit _ _ _ hr2
  obtain ⟨hi3, e1, e2, e3, e4⟩ := notHost_run hN as2 _ _ hi2 has h3
  simp only at e1 e2 e3 e4
  have hacc3 : accepted s3 = accepted s1 := accepted_congr e3
  -- second read
  simp only [hostStep, e1] at h4
  injection h4 with h4
  refine ⟨pendingCount s3.hpos s1.status.1 (s3.slot (ringOffset s3.hpos 1)), ?_, ?_, ?_, ?_⟩
  · rw [← h4]; simp only [ret]; rw [e3]
  · rw [← h4, accepted_ret]; simp [hacc3]
  · intro hn
    have hempty : s3.slot (ringOffset s3.hpos 1) = .empty := by
      by_contra hc
      unfold pendingCount at hn
      rw [if_neg hc] at hn
      split at hn
      · simp [queueLen] at hn
      · contradiction
    have hall := hi3.mem.all_consumed s3.hpos (by omega) (by rw [e2, hacc3]; exact hpa) (.inl hempty)
    rw [← h4, accepted_ret]
    simp only [List.append_nil]
    show s3.consumed.map Prod.fst = accepted s3
    rw [hi3.mem.fifo, hall, List.take_length]
  · intro hn
    have hc4 : s4.consumed = s3.consumed := by rw [← h4]; rfl
    have ha4 : (accepted s4).length = (accepted s1).length := by
      rw [← h4, accepted_ret]; simp [hacc3]
    have hle1 := hi.mem.le1
    have hle2 := hi.mem.le2
    have hle3 := hi3.mem.le1
    rw [hacc3] at hle3
    have hne : s3.slot (ringOffset s3.hpos 1) ≠ .empty := by
      intro hc; unfold pendingCount at hn; rw [if_pos hc] at hn; exact hn rfl
    -- at least one element was accepted
    have hpos : 0 < (accepted s1).length := by
      by_contra hc
      have hz : (accepted s1).length = 0 := by omega
      have hz3 : s3.consumed.length = 0 := by omega
      have : ringOffset s3.hpos 1 = 15 := by
        unfold ringOffset queueLen; omega
      rw [this] at hne
      exact hne (hi3.mem.fresh 15 (by rw [hacc3]; omega) (by omega))
    have hk : publishedElem s1 ≤ s1.consumed.length ∧ publishedElem s1 < (accepted s1).length ∧
        (accepted s1).length ≤ publishedElem s1 + 16 := by
      unfold publishedElem
      cases hx : inExecution s1 with
      | true =>
        have hlt : s1.consumed.length < (accepted s1).length := by
          have h2 := hi.pru
          unfold inExecution at hx
          cases e : s1.pru <;> simp only [e] at hx h2 <;>
            first
            | exact (List.getElem?_eq_some_iff.1 h2.2).1
            | simp at hx
        simp only [if_true]; omega
      | false =>
        have := hroom.resolve_right (by simp [hx])
        simp only [Bool.false_eq_true, if_false]; omega
    have hval : pendingCount s3.hpos s1.status.1 (s3.slot (ringOffset s3.hpos 1)) =
        (accepted s1).length - publishedElem s1 := by
      unfold pendingCount
      rw [if_neg hne, hidx]
      unfold ringOffset queueLen
      split <;> omega
    rw [hval, ha4, hc4]
    omega

/-- **C24, the counterexample.** All 16 slots occupied, the firmware finishes the first element, the
host at once fills the slot that became free and asks for the pending elements before the firmware
has published the status of the next one: the answer is 1 although 16 elements are outstanding. (The
shadow queue of `MotionQueueMotorOperations` is then cut to one entry and positions reported until
the queue has drained are wrong.) -/
theorem C24_pending_underreports : ∃ as s,
    run 1 (fun _ => 0) init as = some s ∧ s.results.getLast? = some (.pending 1 0) ∧
    (accepted s).length - s.consumed.length = 16 := by
  refine ⟨((List.range 16).map enq).flatten ++ [.pru, .pru, .pru, .pru, .pru, .pru] ++ enq 16 ++
    [.callPending, .host, .host], ?_⟩
  generalize e : run 1 (fun _ => 0) init (((List.range 16).map enq).flatten ++
    [.pru, .pru, .pru, .pru, .pru, .pru] ++ enq 16 ++ [.callPending, .host, .host]) = r
  have h : (r.map fun s => (s.results.getLast?, (accepted s).length - s.consumed.length)) =
      some (some (.pending 1 0), 16) := by
    rw [← e]; decide +kernel
  cases r with
  | none => simp at h
  | some s =>
    simp only [Option.map_some, Option.some.injEq, Prod.mk.injEq] at h
    exact ⟨s, rfl, h.1, h.2⟩

/-- **C24**: count and loops are not read at the same instant. Between the two reads the firmware can
finish everything; the call then returns "nothing pending" together with the loops left of an
element that is long gone (cf. `MotorOps.C27_torn_reading_overshoots`). -/
theorem C24_torn_read : ∃ as s,
    run 1 (fun p => p.getD 0 0) init as = some s ∧ s.results.getLast? = some (.pending 0 5) := by
  refine ⟨enq 5 ++ enq 1 ++ [.pru, .pru, .pru, .callPending, .host] ++ List.replicate 15 .pru ++
    exec 1 ++ [.host], ?_⟩
  generalize e : run 1 (fun p => p.getD 0 0) init (enq 5 ++ enq 1 ++
    [.pru, .pru, .pru, .callPending, .host] ++ List.replicate 15 .pru ++ exec 1 ++ [.host]) = r
  have h : (r.map fun s => s.results.getLast?) = some (some (.pending 0 5)) := by
    rw [← e]; decide +kernel
  cases r with
  | none => simp at h
  | some s =>
    simp only [Option.map_some, Option.some.injEq] at h
    exact ⟨s, rfl, h⟩

/-- Non-vacuity of `C24_pending_partial`: two elements accepted, the first in execution. -/
example : ((run 1 (fun p => p.getD 0 0) init
      (enq 5 ++ enq 1 ++ [.pru, .pru, .pru, .pru, .pru, .callPending])).map
        fun s => (decide (s.host = .pend1), inExecution s)) = some (true, true) ∧
    ((run 1 (fun p => p.getD 0 0) init
      (enq 5 ++ enq 1 ++ [.pru, .pru, .pru, .pru, .pru, .callPending, .host, .pru, .host])).map
        fun s => s.results.getLast?) = some (some (.pending 2 4)) := by decide +kernel

/-- The loop counter of the firmware, as long as no pass yields the stop value early. -/
def LoopInv (s : Sys) : Prop :=
  match s.pru with
  | .sample _ left | .pass _ left => s.r28 = left ∧ s.status.2 = left
  | .disabled => True
  | _ => s.r28 = 0 ∧ s.status.2 = 0

/-- **C24**, the progress value: unless a segment was stopped early (C20), the published counter is
exactly the number of loops left of the element in execution, and 0 between elements. -/
theorem C24_loops_left (as : List Action) (hearly : Action.pruEarly ∉ as) (s : Sys)
    (hr : run N loops init as = some s) (hd : s.pru ≠ .disabled) :
    s.status.2 = match s.pru with
      | .sample _ left | .pass _ left => left
      | _ => 0 := by
  have key : ∀ (as : List Action) (s s' : Sys), Action.pruEarly ∉ as → LoopInv s →
      run N loops s as = some s' → LoopInv s' := by
    intro as
    induction as with
    | nil => intro s s' _ h hr; simp only [run, Option.some.injEq] at hr; exact hr ▸ h
    | cons a as ih =>
      intro s s' hne h hr
      simp only [run] at hr
      cases e : step N loops s a with
      | none => simp [e] at hr
      | some s1 =>
        rw [e] at hr
        refine ih s1 s' (fun hm => hne (List.mem_cons_of_mem _ hm)) ?_ hr
        have ha' : a ≠ .pruEarly := fun h => hne (h ▸ List.mem_cons_self)
        by_cases ha : a = .pru
        · subst ha
          simp only [step] at e
          unfold pruStep at e
          unfold LoopInv at h
          cases ep : s.pru with
          | halted => simp [ep] at e
          | disabled => simp [ep] at e
          | poll =>
            simp only [ep] at e h
            cases es : s.slot s.ppos <;> simp only [es] at e <;> injection e with e <;> subst e <;>
              simp [LoopInv, ep, h]
          | publish regs =>
            simp only [ep] at e h; injection e with e; subst e
            simp [LoopInv, h]
          | sample regs left =>
            simp only [ep] at e h
            split at e <;> injection e with e <;> subst e <;> simp [LoopInv, h]
          | pass regs left =>
            simp only [ep] at e h
            split at e
            · rename_i h0
              injection e with e; subst e
              simp at h0
              simp [LoopInv, h, h0]
            · injection e with e; subst e
              simp [LoopInv, h]
          | advance =>
            simp only [ep] at e h
            split at e <;> injection e with e <;> subst e <;> simp [LoopInv, h]
          | load d => simp only [ep] at e h; injection e with e; subst e; simp [LoopInv, h]
          | mark regs o => simp only [ep] at e h; injection e with e; subst e; simp [LoopInv, h]
          | signal => simp only [ep] at e h; injection e with e; subst e; simp [LoopInv, h]
          | finish => simp only [ep] at e h; injection e with e; subst e; simp [LoopInv, h]
          | finishSignal => simp only [ep] at e h; injection e with e; subst e; simp [LoopInv, h]
        · obtain ⟨-, h2, -, h4, -, h6, -⟩ := step_frame ha ha' e
          rcases h6 with h6 | h6
          · unfold LoopInv at h ⊢; rw [h6, h2, h4]; exact h
          · unfold LoopInv; rw [h6]; trivial
  have := key as init s hearly (by simp [LoopInv, init]) hr
  unfold LoopInv at this
  cases e : s.pru <;> simp_all

/-! ### C25: waiting and shutting down -/

/-- **C25.** When `WaitQueueEmpty` returns, all elements accepted before were taken by the firmware;
if it returns because the last slot is empty, the last element was executed to its end. -/
theorem C25_wait_queue_empty (hN : 0 < N) (as : List Action) (s s' : Sys)
    (hr : run N loops init as = some s) (hs : step N loops s .host = some s')
    (hres : s'.results = s.results ++ [.drained] ∨ s'.results = s.results ++ [.drainedAbort]) :
    s'.consumed.map Prod.fst = accepted s' ∧
    (s'.results = s.results ++ [.drained] → ∀ x, s'.consumed.getLast? = some x → x.2 = .executed) ∧
    (s'.results = s.results ++ [.drainedAbort] → ∃ x, s'.consumed.getLast? = some x ∧ x.2 = .aborted) := by
  have hi := inv_run hN as hr
  have hho := hi.host
  have main : s.hpos ≤ 16 → s.hpos % 16 = (accepted s).length % 16 → ∀ st : SlotState,
      s.slot (ringOffset s.hpos 1) = st → (st = .empty ∨ st = .abort) → s'.consumed = s.consumed →
      accepted s' = accepted s →
      s'.consumed.map Prod.fst = accepted s' ∧
      (st = .empty → ∀ x, s'.consumed.getLast? = some x → x.2 = .executed) ∧
      (st = .abort → ∃ x, s'.consumed.getLast? = some x ∧ x.2 = .aborted) := by
    intro h16 hp st hslot hst hc ha
    have hall := hi.mem.all_consumed _ h16 hp (by rw [hslot]; exact hst)
    refine ⟨by rw [hc, ha, hi.mem.fifo, hall, List.take_length], ?_, ?_⟩
    · intro he x hx
      rw [hc, List.getLast?_eq_getElem?] at hx
      have hlt := (List.getElem?_eq_some_iff.1 hx).1
      have := hi.mem.past _ _ hx (by omega)
      have e : ringOffset s.hpos 1 = (s.consumed.length - 1) % 16 := by
        unfold ringOffset queueLen; omega
      rw [← e, hslot, he] at this
      cases hx2 : x.2 with
      | executed => rfl
      | aborted => rw [hx2] at this; simp [Outcome.state] at this
    · intro he
      have hne : 0 < (accepted s).length := by
        by_contra h0
        have e : ringOffset s.hpos 1 = 15 := by unfold ringOffset queueLen; omega
        have := hi.mem.fresh 15 (by omega) (by omega)
        rw [← e, hslot, he] at this
        simp at this
      have hlt : s.consumed.length - 1 < s.consumed.length := by omega
      refine ⟨s.consumed[s.consumed.length - 1], ?_, ?_⟩
      · rw [hc, List.getLast?_eq_getElem?, List.getElem?_eq_getElem hlt]
      · have := hi.mem.past _ _ (List.getElem?_eq_getElem hlt) (by omega)
        have e : ringOffset s.hpos 1 = (s.consumed.length - 1) % 16 := by
          unfold ringOffset queueLen; omega
        rw [← e, hslot, he] at this
        generalize s.consumed[s.consumed.length - 1] = x at this
        cases hx2 : x.2 with
        | aborted => rfl
        | executed => rw [hx2] at this; simp [Outcome.state] at this
  have hacc : ∀ r, accepted (ret s r) = accepted s ∨ ∃ e, r = .accepted e := by
    intro r
    cases r with
    | accepted e => exact .inr ⟨e, rfl⟩
    | _ => left; rw [accepted_ret]; simp
  simp only [step] at hs
  cases e : s.host with
  | wcheck =>
    simp only [HostOK, e] at hho
    simp only [hostStep, e] at hs
    split at hs
    · rename_i h0
      injection hs with hs; subst hs
      have := main hho.1 hho.2 _ h0 (.inl rfl) rfl (by rw [accepted_ret]; simp)
      exact ⟨this.1, fun _ => this.2.1 rfl, fun h => by simp [ret] at h⟩
    · injection hs with hs; subst hs; simp at hres
  | wcheckAbort =>
    simp only [HostOK, e] at hho
    simp only [hostStep, e] at hs
    split at hs
    · rename_i h0
      injection hs with hs; subst hs
      have := main hho.1 hho.2 _ h0 (.inr rfl) rfl (by rw [accepted_ret]; simp)
      exact ⟨this.1, fun h => by simp [ret] at h, fun _ => this.2.2 rfl⟩
    · injection hs with hs; subst hs; simp at hres
  | clearing k =>
    cases k <;> simp only [hostStep, e] at hs <;> injection hs with hs <;> subst hs <;>
      simp at hres
  | _ =>
    simp only [hostStep, e] at hs
    exfalso
    first
    | (injection hs with hs; subst hs; simp [ret] at hres)
    | (split at hs <;> first
        | (injection hs with hs; subst hs; simp [ret] at hres)
        | (simp at hs))
    | (simp at hs)

/-- **C25.** If the emergency stop was never active, everything the firmware took was executed to the
end and no call ever reports an abort. Together with `C25_wait_queue_empty`: when `WaitQueueEmpty`
returns, everything enqueued was executed completely. -/
theorem C25_no_abort_without_estop (as : List Action) (hne : Action.estop true ∉ as) (s : Sys)
    (hr : run N loops init as = some s) :
    (∀ x ∈ s.consumed, x.2 = .executed) ∧ Result.drainedAbort ∉ s.results ∧
    (∀ e, Result.refused e ∉ s.results) ∧ ∀ i, s.slot i ≠ .abort := by
  let P : Sys → Prop := fun s => s.estop = false ∧ (∀ x ∈ s.consumed, x.2 = .executed) ∧
    Result.drainedAbort ∉ s.results ∧ (∀ e, Result.refused e ∉ s.results) ∧
    (∀ i, s.slot i ≠ .abort) ∧ (∀ regs, s.pru ≠ .mark regs .aborted) ∧ ∀ e, s.host ≠ .clearAbort e
  have hupd : ∀ (f : Nat → SlotState) i v, (∀ i, f i ≠ .abort) → v ≠ .abort →
      ∀ j, upd f i v j ≠ .abort := by
    intro f i v h hv j; unfold upd; split
    · exact hv
    · exact h j
  have hstep : ∀ s s' a, a ≠ .estop true → P s → step N loops s a = some s' → P s' := by
    intro s s' a ha hP hs
    obtain ⟨p1, p2, p3, p4, p5, p6, p7⟩ := hP
    have hpru : ∀ early, pruStep N loops early s = some s' → P s' := by
      intro early hs
      unfold pruStep at hs
      cases ep : s.pru with
      | halted => simp [ep] at hs
      | disabled => simp [ep] at hs
      | poll =>
        simp only [ep] at hs
        cases es : s.slot s.ppos <;> simp only [es] at hs <;> injection hs with hs <;> subst hs <;>
          exact ⟨p1, p2, p3, p4, p5, by simp [ep], p7⟩
      | sample regs left =>
        simp only [ep] at hs
        simp only [p1, Bool.false_eq_true, if_false] at hs
        injection hs with hs; subst hs
        exact ⟨rfl, p2, p3, p4, p5, by simp, p7⟩
      | pass regs left =>
        simp only [ep] at hs
        split at hs <;> injection hs with hs <;> subst hs <;>
          exact ⟨p1, p2, p3, p4, p5, by simp, p7⟩
      | advance =>
        simp only [ep] at hs
        split at hs <;> injection hs with hs <;> subst hs <;>
          exact ⟨p1, p2, p3, p4, p5, by simp, p7⟩
      | mark regs o =>
        cases o with
        | aborted => exact absurd ep (p6 regs)
        | executed =>
          simp only [ep] at hs; injection hs with hs; subst hs
          refine ⟨p1, ?_, p3, p4, hupd _ _ _ p5 (by simp [Outcome.state]), by simp, p7⟩
          intro x hx
          rcases List.mem_append.1 hx with hx | hx
          · exact p2 x hx
          · simp at hx; rw [hx]
      | finish =>
        simp only [ep] at hs; injection hs with hs; subst hs
        refine ⟨p1, ?_, p3, p4, hupd _ _ _ p5 (by simp), by simp, p7⟩
        intro x hx
        rcases List.mem_append.1 hx with hx | hx
        · exact p2 x hx
        · simp at hx; rw [hx]
      | load d => simp only [ep] at hs; injection hs with hs; subst hs; exact ⟨p1, p2, p3, p4, p5, by simp, p7⟩
      | publish regs => simp only [ep] at hs; injection hs with hs; subst hs; exact ⟨p1, p2, p3, p4, p5, by simp, p7⟩
      | signal => simp only [ep] at hs; injection hs with hs; subst hs; exact ⟨p1, p2, p3, p4, p5, by simp, p7⟩
      | finishSignal => simp only [ep] at hs; injection hs with hs; subst hs; exact ⟨p1, p2, p3, p4, p5, by simp, p7⟩
    cases a with
    | pru => exact hpru _ hs
    | pruEarly => exact hpru _ hs
    | estop on =>
      cases on with
      | true => exact absurd rfl ha
      | false =>
        simp only [step] at hs; injection hs with hs; subst hs
        exact ⟨rfl, p2, p3, p4, p5, p6, p7⟩
    | host =>
      simp only [step] at hs
      unfold hostStep at hs
      have hret : ∀ s1 r, s1.estop = false → s1.consumed = s.consumed → s1.results = s.results →
          (∀ i, s1.slot i ≠ .abort) → s1.pru = s.pru → r ≠ .drainedAbort → (∀ e, r ≠ .refused e) →
          P (ret s1 r) := by
        intro s1 r g1 g2 g3 g4 g5 g6 g7
        refine ⟨g1, by simp only [ret]; rw [g2]; exact p2, ?_, ?_, g4, ?_, ?_⟩
        · simp only [ret]; rw [g3]
          simp only [List.mem_append, List.mem_singleton, not_or]
          exact ⟨p3, fun h => g6 h.symm⟩
        · intro e; simp only [ret]; rw [g3]
          simp only [List.mem_append, List.mem_singleton, not_or]
          exact ⟨p4 e, fun h => g7 e h.symm⟩
        · intro regs; simp only [ret]; rw [g5]; exact p6 regs
        · intro e; simp only [ret]; split
          · cases r <;> simp
          · simp
      cases e : s.host with
      | idle => simp [e] at hs
      | dead => simp [e] at hs
      | check el =>
        simp only [e] at hs
        split at hs <;> injection hs with hs <;> subst hs <;>
          exact ⟨p1, p2, p3, p4, p5, p6, by simp⟩
      | checkAbort el =>
        simp only [e, p5 s.hpos, if_false] at hs
        injection hs with hs; subst hs
        exact ⟨p1, p2, p3, p4, p5, p6, by simp⟩
      | clearAbort el => exact absurd e (p7 el)
      | blocked k =>
        simp only [e] at hs
        split at hs
        · injection hs with hs; subst hs; exact ⟨p1, p2, p3, p4, p5, p6, by simp⟩
        · simp at hs
      | clearing k =>
        cases k <;> simp only [e] at hs <;> injection hs with hs <;> subst hs <;>
          exact ⟨p1, p2, p3, p4, p5, p6, by simp⟩
      | copyState w el =>
        simp only [e] at hs; injection hs with hs; subst hs
        exact ⟨p1, p2, p3, p4, hupd _ _ _ p5 (by simp), p6, by simp⟩
      | copy w el k =>
        simp only [e] at hs
        split at hs <;> injection hs with hs <;> subst hs
        · exact ⟨p1, p2, p3, p4, p5, p6, by simp⟩
        · exact hret _ _ p1 rfl rfl (hupd _ _ _ p5 (kind_ne_abort _)) rfl (by simp) (by simp)
      | wcheck =>
        simp only [e] at hs
        split at hs <;> injection hs with hs <;> subst hs
        · exact hret _ _ p1 rfl rfl p5 rfl (by simp) (by simp)
        · exact ⟨p1, p2, p3, p4, p5, p6, by simp⟩
      | wcheckAbort =>
        simp only [e, p5 (ringOffset s.hpos 1), if_false] at hs
        injection hs with hs; subst hs
        exact ⟨p1, p2, p3, p4, p5, p6, by simp⟩
      | pend1 =>
        simp only [e] at hs; injection hs with hs; subst hs
        exact ⟨p1, p2, p3, p4, p5, p6, by simp⟩
      | pend2 i k =>
        simp only [e] at hs; injection hs with hs; subst hs
        exact hret _ _ p1 rfl rfl p5 rfl (by simp) (by simp)
      | off =>
        simp only [e] at hs; injection hs with hs; subst hs
        exact ⟨p1, p2, p3, p4, p5, by simp, by simp⟩
      | motorsOff =>
        simp only [e] at hs; injection hs with hs; subst hs
        exact ⟨p1, p2, by simpa using p3, by simpa using p4, p5, p6, by simp⟩
    | _ =>
      simp only [step] at hs
      split at hs
      · injection hs with hs; subst hs
        first
        | exact ⟨p1, p2, p3, p4, p5, p6, p7⟩
        | exact ⟨p1, p2, p3, p4, p5, p6, by simp⟩
      · simp at hs
  have key : ∀ (as : List Action) (s s' : Sys), Action.estop true ∉ as → P s →
      run N loops s as = some s' → P s' := by
    intro as
    induction as with
    | nil => intro s s' _ h hr; simp only [run, Option.some.injEq] at hr; exact hr ▸ h
    | cons a as ih =>
      intro s s' hne h hr
      simp only [run] at hr
      cases e : step N loops s a with
      | none => simp [e] at hr
      | some s1 =>
        rw [e] at hr
        exact ih s1 s' (fun hm => hne (List.mem_cons_of_mem _ hm))
          (hstep s s1 a (fun h => hne (h ▸ List.mem_cons_self)) h e) hr
  obtain ⟨-, q2, q3, q4, q5, -⟩ := key as init s hne
    ⟨rfl, by simp [init], by simp [init], by simp [init], by simp [init], by simp [init],
      by simp [init]⟩ hr
  exact ⟨q2, q3, q4, q5⟩

/-- **C25.** When `Shutdown(true)` has returned, the motors are disabled, the firmware is stopped and
every accepted element (including the exit marker, if it was accepted) was taken by the firmware; and
this stays so. -/
theorem C25_shutdown (hN : 0 < N) (as : List Action) (s : Sys) (hr : run N loops init as = some s)
    (hres : Result.shutdown ∈ s.results) :
    s.motors = false ∧ s.pru = .disabled ∧ s.consumed.map Prod.fst = accepted s := by
  let P : Sys → Prop := fun s => Inv N s ∧ (Result.shutdown ∈ s.results → s.host = .dead) ∧
    (s.host = .dead → s.motors = false) ∧ (s.host = .motorsOff ∨ s.host = .dead → s.pru = .disabled)
  have hstep : ∀ s s' a, P s → step N loops s a = some s' → P s' := by
    intro s s' a ⟨hi, p1, p2, p3⟩ hs
    refine ⟨inv_step hN hi hs, ?_⟩
    have hpru : ∀ early, pruStep N loops early s = some s' →
        (Result.shutdown ∈ s'.results → s'.host = .dead) ∧ (s'.host = .dead → s'.motors = false) ∧
        (s'.host = .motorsOff ∨ s'.host = .dead → s'.pru = .disabled) := by
      intro early hs
      obtain ⟨-, -, k3, -, k5, -, -, k8⟩ := pru_wake hi hs 0
      rw [k3, k5, k8]
      refine ⟨p1, p2, ?_⟩
      intro h
      have := p3 h
      simp [pruStep, this] at hs
    cases a with
    | pru => exact hpru _ hs
    | pruEarly => exact hpru _ hs
    | estop on =>
      simp only [step] at hs; injection hs with hs; subst hs; exact ⟨p1, p2, p3⟩
    | host =>
      simp only [step] at hs
      unfold hostStep at hs
      have hret : ∀ s1 r, s1.results = s.results → s.host ≠ .dead → r ≠ .shutdown →
          (Result.shutdown ∈ (ret s1 r).results → (ret s1 r).host = .dead) ∧
          ((ret s1 r).host = .dead → (ret s1 r).motors = false) ∧
          ((ret s1 r).host = .motorsOff ∨ (ret s1 r).host = .dead → (ret s1 r).pru = .disabled) := by
        intro s1 r g1 g2 g3
        have hne : (ret s1 r).host ≠ .dead ∧ (ret s1 r).host ≠ .motorsOff := by
          simp only [ret]; split
          · cases r <;> simp
          · simp
        refine ⟨?_, fun h => absurd h hne.1, fun h => ?_⟩
        · intro h
          simp only [ret] at h
          rw [g1] at h
          rcases List.mem_append.1 h with h | h
          · exact absurd (p1 h) g2
          · simp at h; exact absurd h.symm g3
        · rcases h with h | h
          · exact absurd h hne.2
          · exact absurd h hne.1
      have hkeep : ∀ s1 : Sys, s1.results = s.results → s.host ≠ .dead → s1.host ≠ .dead →
          s1.host ≠ .motorsOff →
          (Result.shutdown ∈ s1.results → s1.host = .dead) ∧ (s1.host = .dead → s1.motors = false) ∧
          (s1.host = .motorsOff ∨ s1.host = .dead → s1.pru = .disabled) := by
        intro s1 g1 g2 g3 g4
        refine ⟨fun h => absurd (p1 (g1 ▸ h)) g2, fun h => absurd h g3, fun h => ?_⟩
        rcases h with h | h
        · exact absurd h g4
        · exact absurd h g3
      cases e : s.host with
      | off =>
        simp only [e] at hs; injection hs with hs; subst hs
        exact ⟨fun h => by have := p1 h; rw [e] at this; simp at this, by simp, by simp⟩
      | motorsOff =>
        have hd := p3 (.inl e)
        simp only [e] at hs; injection hs with hs; subst hs
        exact ⟨fun _ => rfl, fun _ => rfl, fun _ => hd⟩
      | clearing k =>
        cases k <;> simp only [e] at hs <;> injection hs with hs <;> subst hs <;>
          exact hkeep _ rfl (by simp [e]) (by simp) (by simp)
      | _ =>
        simp only [e] at hs
        first
        | (injection hs with hs; subst hs; exact hkeep _ rfl (by simp [e]) (by simp) (by simp))
        | (injection hs with hs; subst hs; exact hret _ _ rfl (by simp [e]) (by simp))
        | (split at hs <;> first
            | (injection hs with hs; subst hs; exact hkeep _ rfl (by simp [e]) (by simp) (by simp))
            | (injection hs with hs; subst hs; exact hret _ _ rfl (by simp [e]) (by simp))
            | simp at hs)
        | simp at hs
    | _ =>
      simp only [step] at hs
      split at hs
      · rename_i hc
        have hid : s.host = .idle := by first | exact hc | exact hc.1
        injection hs with hs; subst hs
        refine ⟨fun h => ?_, fun h => ?_, fun h => ?_⟩
        · have := p1 h; rw [hid] at this; simp at this
        · exfalso; simp [hid] at h
        · exfalso; simp [hid] at h
      · simp at hs
  obtain ⟨hi, q1, q2, q3⟩ := run_induction P hstep as init s
    ⟨inv_init N, by simp [init], by simp [init], by simp [init]⟩ hr
  have hd := q1 hres
  have hho := hi.host
  simp only [HostOK, hd] at hho
  refine ⟨q2 hd, q3 (.inr hd), ?_⟩
  rw [hi.mem.fifo, hho, List.take_length]

/-- Non-vacuity: wait for two elements, then shut down. -/
example : ((run 1 (fun p => p.getD 0 0) init
      ([.callMotorEnable true] ++ enq 1 ++ enq 0 ++ exec 1 ++ [.callWait, .host, .host] ++ exec 0 ++
        [.host, .host, .host] ++ [.callShutdown, .host, .host, .host, .host] ++ [.pru, .pru, .pru] ++
        [.host, .host, .host])).map
      fun s => (s.results, s.motors, s.consumed)) =
    some ([.accepted (.seg [1]), .accepted (.seg [0]), .drained, .accepted .exit, .drained, .shutdown],
      false, [(.seg [1], .executed), (.seg [0], .executed), (.exit, .executed)]) := by
  decide +kernel

end BeagleG.PruQueue
