import Verif.PruQueue.Lemmas
/-!
# Further invariants: exit marker, wake-ups, published status, abort accounting
-/
namespace BeagleG.PruQueue

/-- The host handles an element. -/
def HostPc.carries : HostPc → Option Elem
  | .check e | .checkAbort e | .clearAbort e | .copyState _ e | .copy _ e _
  | .blocked (.enq e) | .clearing (.enq e) => some e
  | _ => none

/-- The host is past the last `Enqueue`. -/
def HostPc.late : HostPc → Bool
  | .wcheck | .wcheckAbort | .blocked .wait | .clearing .wait | .off | .motorsOff | .dead => true
  | _ => false

/-- `EXIT` is enqueued by `Shutdown` only, and last. -/
structure ExitInv (s : Sys) : Prop where
  carry : s.host.carries = some .exit → s.shutting = true
  quiet : s.shutting = true → s.host ≠ .idle ∧ s.host ≠ .pend1 ∧ ∀ i k, s.host ≠ .pend2 i k
  last : ∀ j : Nat, (accepted s)[j]? = some .exit →
    j + 1 = (accepted s).length ∧ s.host.late = true ∧ s.shutting = true
  stop : s.pru = .finishSignal ∨ s.pru = .halted → s.consumed.length = (accepted s).length ∧
    (accepted s)[s.consumed.length - 1]? = some .exit
  off : s.pru = .disabled → s.host = .motorsOff ∨ s.host = .dead

theorem accepted_congr {s s' : Sys} (h : s'.results = s.results) : accepted s' = accepted s := by
  unfold accepted; rw [h]

theorem exit_init : ExitInv init := by
  refine ⟨?_, ?_, ?_, ?_, ?_⟩ <;> simp [init, HostPc.carries, accepted]

theorem exit_host {N : Nat} {s s' : Sys} (h : ExitInv s)
    (hs : hostStep N s = some s') : ExitInv s' := by
  obtain ⟨h1, h2, h3, h4, h5⟩ := h
  unfold hostStep at hs
  cases e : s.host with
  | idle => simp [e] at hs
  | dead => simp [e] at hs
  | check el =>
    simp only [e] at hs
    rw [e] at h1 h2 h3 h5
    split at hs <;> injection hs with hs <;> subst hs <;>
      exact ⟨h1, fun _ => by simp, fun j hj => absurd (h3 j hj).2.1 (by simp [HostPc.late]), h4,
        fun hp => by simpa using h5 hp⟩
  | checkAbort el =>
    simp only [e] at hs
    rw [e] at h1 h2 h3 h5
    split at hs <;> injection hs with hs <;> subst hs <;>
      exact ⟨h1, fun _ => by simp, fun j hj => absurd (h3 j hj).2.1 (by simp [HostPc.late]), h4,
        fun hp => by simpa using h5 hp⟩
  | clearAbort el =>
    simp only [e] at hs
    rw [e] at h1 h2 h3 h5
    injection hs with hs; subst hs
    have hacc := accepted_ret_other s
      { s with slot := upd s.slot s.hpos .empty, host := .clearAbort el } (.refused el) rfl (by simp)
    refine ⟨?_, ?_, ?_, ?_, ?_⟩
    · intro hc; simp only [ret] at hc; split at hc <;> simp [HostPc.carries] at hc
    · intro hsh
      have hsh' : s.shutting = true := hsh
      simp [ret, hsh']
    · rw [hacc]
      intro j hj
      exact absurd (h3 j hj).2.1 (by simp [HostPc.late])
    · rw [hacc]; exact h4
    · intro hp; simpa using h5 hp
  | blocked k =>
    simp only [e] at hs
    rw [e] at h1 h2 h3 h5
    split at hs
    · injection hs with hs; subst hs
      cases k
      · exact ⟨h1, fun _ => by simp, fun j hj => absurd (h3 j hj).2.1 (by simp [HostPc.late]), h4,
          fun hp => by simpa using h5 hp⟩
      · exact ⟨by simp [HostPc.carries], fun _ => by simp, fun j hj => h3 j hj, h4,
          fun hp => by simpa using h5 hp⟩
    · simp at hs
  | clearing k =>
    cases k with
    | enq el =>
      simp only [e] at hs
      rw [e] at h1 h2 h3 h5
      injection hs with hs; subst hs
      exact ⟨h1, fun _ => by simp, fun j hj => absurd (h3 j hj).2.1 (by simp [HostPc.late]), h4,
        fun hp => by simpa using h5 hp⟩
    | wait =>
      simp only [e] at hs
      rw [e] at h1 h2 h3 h5
      injection hs with hs; subst hs
      exact ⟨by simp [HostPc.carries], fun _ => by simp, fun j hj => h3 j hj, h4,
        fun hp => by simpa using h5 hp⟩
  | copyState w el =>
    simp only [e] at hs
    rw [e] at h1 h2 h3 h5
    injection hs with hs; subst hs
    exact ⟨h1, fun _ => by simp, fun j hj => absurd (h3 j hj).2.1 (by simp [HostPc.late]), h4,
      fun hp => by simpa using h5 hp⟩
  | copy w el k =>
    simp only [e] at hs
    rw [e] at h1 h2 h3 h5
    split at hs
    · injection hs with hs; subst hs
      exact ⟨h1, fun _ => by simp, fun j hj => absurd (h3 j hj).2.1 (by simp [HostPc.late]), h4,
        fun hp => by simpa using h5 hp⟩
    · injection hs with hs; subst hs
      have hacc := accepted_ret_acc s
        { s with slot := upd s.slot w el.kind, host := .copy w el k } el rfl
      refine ⟨?_, ?_, ?_, ?_, ?_⟩
      · intro hc; simp only [ret] at hc; split at hc <;> simp [HostPc.carries] at hc
      · intro hsh
        have hsh' : s.shutting = true := hsh
        simp [ret, hsh']
      · rw [hacc]
        intro j hj
        by_cases hja : j < (accepted s).length
        · rw [List.getElem?_append_left hja] at hj
          exact absurd (h3 j hj).2.1 (by simp [HostPc.late])
        · have hlen := (List.getElem?_eq_some_iff.1 hj).1
          simp at hlen
          have hje : j = (accepted s).length := by omega
          subst hje
          simp at hj
          subst hj
          have hsh : s.shutting = true := h1 rfl
          refine ⟨by simp, ?_, hsh⟩
          simp [ret, hsh, HostPc.late]
      · intro hp
        obtain ⟨g1, g2⟩ := h4 hp
        exact absurd (h3 _ g2).2.1 (by simp [HostPc.late])
      · intro hp; simpa using h5 hp
  | wcheck =>
    simp only [e] at hs
    rw [e] at h1 h2 h3 h5
    split at hs
    · injection hs with hs; subst hs
      have hacc : accepted (ret s .drained) = accepted s := by rw [accepted_ret]; simp
      refine ⟨?_, ?_, ?_, ?_, ?_⟩
      · intro hc; simp only [ret] at hc; split at hc <;> simp [HostPc.carries] at hc
      · intro hsh
        have hsh' : s.shutting = true := hsh
        simp [ret, hsh']
      · rw [hacc]
        intro j hj
        obtain ⟨g1, g2, g3⟩ := h3 j hj
        exact ⟨g1, by simp [ret, g3, HostPc.late], g3⟩
      · rw [hacc]; exact h4
      · intro hp; simpa using h5 hp
    · injection hs with hs; subst hs
      exact ⟨by simp [HostPc.carries], fun _ => by simp, fun j hj => h3 j hj, h4,
        fun hp => by simpa using h5 hp⟩
  | wcheckAbort =>
    simp only [e] at hs
    rw [e] at h1 h2 h3 h5
    split at hs
    · injection hs with hs; subst hs
      have hacc : accepted (ret s .drainedAbort) = accepted s := by rw [accepted_ret]; simp
      refine ⟨?_, ?_, ?_, ?_, ?_⟩
      · intro hc; simp only [ret] at hc; split at hc <;> simp [HostPc.carries] at hc
      · intro hsh
        have hsh' : s.shutting = true := hsh
        simp [ret, hsh']
      · rw [hacc]
        intro j hj
        obtain ⟨g1, g2, g3⟩ := h3 j hj
        exact ⟨g1, by simp [ret, g3, HostPc.late], g3⟩
      · rw [hacc]; exact h4
      · intro hp; simpa using h5 hp
    · injection hs with hs; subst hs
      exact ⟨by simp [HostPc.carries], fun _ => by simp, fun j hj => h3 j hj, h4,
        fun hp => by simpa using h5 hp⟩
  | pend1 =>
    simp only [e] at hs
    rw [e] at h1 h2 h3 h5
    injection hs with hs; subst hs
    exact ⟨by simp [HostPc.carries], fun hsh => absurd rfl (h2 hsh).2.1,
      fun j hj => absurd (h3 j hj).2.1 (by simp [HostPc.late]), h4, fun hp => by simpa using h5 hp⟩
  | pend2 i k =>
    simp only [e] at hs
    rw [e] at h1 h2 h3 h5
    injection hs with hs; subst hs
    have hacc : ∀ n, accepted (ret s (.pending n k)) = accepted s := by
      intro n; rw [accepted_ret]; simp
    refine ⟨?_, ?_, ?_, ?_, ?_⟩
    · intro hc; simp only [ret] at hc; split at hc <;> simp [HostPc.carries] at hc
    · intro hsh
      exact absurd rfl ((h2 hsh).2.2 i k)
    · rw [hacc]
      intro j hj
      exact absurd (h3 j hj).2.1 (by simp [HostPc.late])
    · rw [hacc]; exact h4
    · intro hp; simpa using h5 hp
  | off =>
    simp only [e] at hs
    rw [e] at h1 h2 h3 h5
    injection hs with hs; subst hs
    exact ⟨by simp [HostPc.carries], fun _ => by simp,
      fun j hj => ⟨(h3 j hj).1, rfl, (h3 j hj).2.2⟩, by simp, by simp⟩
  | motorsOff =>
    simp only [e] at hs
    rw [e] at h1 h2 h3 h5
    injection hs with hs; subst hs
    have hacc : ∀ s1 : Sys, s1.results = s.results ++ [Result.shutdown] →
        accepted s1 = accepted s := by
      intro s1 hh
      unfold accepted
      rw [hh]
      simp
    refine ⟨by simp [HostPc.carries], fun _ => by simp, ?_, ?_, by simp⟩
    · rw [hacc _ rfl]; exact fun j hj => ⟨(h3 j hj).1, rfl, (h3 j hj).2.2⟩
    · rw [hacc _ rfl]; exact h4

theorem exit_pru {N : Nat} {loops : List Nat → Nat} {early : Bool} {s s' : Sys}
    (hi : Inv N s) (h : ExitInv s) (hs : pruStep N loops early s = some s') : ExitInv s' := by
  obtain ⟨h1, h2, h3, h4, h5⟩ := h
  unfold pruStep at hs
  cases e : s.pru with
  | halted => simp [e] at hs
  | disabled => simp [e] at hs
  | finish =>
    simp only [e] at hs
    injection hs with hs; subst hs
    have hp := hi.pru
    simp only [PruOK, e] at hp
    refine ⟨h1, h2, h3, ?_, by simp⟩
    intro _
    have := (h3 _ hp.2).1
    show (s.consumed ++ [(Elem.exit, Outcome.executed)]).length = (accepted s).length ∧
      (accepted s)[(s.consumed ++ [(Elem.exit, Outcome.executed)]).length - 1]? = some Elem.exit
    simp only [List.length_append, List.length_singleton, Nat.add_sub_cancel]
    exact ⟨this, hp.2⟩
  | finishSignal =>
    simp only [e] at hs
    injection hs with hs; subst hs
    exact ⟨h1, h2, h3, fun _ => h4 (.inl e), by simp⟩
  | poll =>
    simp only [e] at hs
    cases es : s.slot s.ppos <;> simp only [es] at hs <;> injection hs with hs <;> subst hs
    · exact ⟨h1, h2, h3, h4, h5⟩
    · exact ⟨h1, h2, h3, by simp, by simp⟩
    · exact ⟨h1, h2, h3, by simp, by simp⟩
    · exact ⟨h1, h2, h3, h4, h5⟩
  | load d =>
    simp only [e] at hs; injection hs with hs; subst hs
    exact ⟨h1, h2, h3, by simp, by simp⟩
  | publish regs =>
    simp only [e] at hs; injection hs with hs; subst hs
    exact ⟨h1, h2, h3, by simp, by simp⟩
  | sample regs left =>
    simp only [e] at hs
    split at hs <;> injection hs with hs <;> subst hs <;> exact ⟨h1, h2, h3, by simp, by simp⟩
  | pass regs left =>
    simp only [e] at hs
    split at hs <;> injection hs with hs <;> subst hs <;> exact ⟨h1, h2, h3, by simp, by simp⟩
  | mark regs o =>
    simp only [e] at hs; injection hs with hs; subst hs
    exact ⟨h1, h2, h3, by simp, by simp⟩
  | signal =>
    simp only [e] at hs; injection hs with hs; subst hs
    exact ⟨h1, h2, h3, by simp, by simp⟩
  | advance =>
    simp only [e] at hs
    split at hs <;> injection hs with hs <;> subst hs <;> exact ⟨h1, h2, h3, by simp, by simp⟩

theorem exit_step {N : Nat} {loops : List Nat → Nat} {s s' : Sys} {a : Action}
    (hi : Inv N s) (h : ExitInv s) (hs : step N loops s a = some s') : ExitInv s' := by
  cases a with
  | host => exact exit_host h hs
  | pru => exact exit_pru hi h hs
  | pruEarly => exact exit_pru hi h hs
  | estop on =>
    simp only [step] at hs; injection hs with hs; subst hs
    exact ⟨h.carry, h.quiet, h.last, h.stop, h.off⟩
  | callEnqueue bytes =>
    simp only [step] at hs
    split at hs
    · rename_i hc
      injection hs with hs; subst hs
      have h3 := h.last
      have h5 := h.off
      rw [hc.1] at h3 h5
      refine ⟨by simp [HostPc.carries], fun _ => by simp,
        fun j hj => absurd (h3 j hj).2.1 (by simp [HostPc.late]), h.stop, fun hp => by simpa using h5 hp⟩
    · simp at hs
  | callShutdown =>
    simp only [step] at hs
    split at hs
    · rename_i hc
      injection hs with hs; subst hs
      have h3 := h.last
      have h5 := h.off
      rw [hc] at h3 h5
      refine ⟨fun _ => rfl, fun _ => by simp,
        fun j hj => absurd (h3 j hj).2.1 (by simp [HostPc.late]), h.stop, fun hp => by simpa using h5 hp⟩
    · simp at hs
  | callWait =>
    simp only [step] at hs
    split at hs
    · rename_i hc
      injection hs with hs; subst hs
      have h3 := h.last
      have h5 := h.off
      rw [hc] at h3 h5
      refine ⟨by simp [HostPc.carries], fun _ => by simp,
        fun j hj => absurd (h3 j hj).2.1 (by simp [HostPc.late]), h.stop, fun hp => by simpa using h5 hp⟩
    · simp at hs
  | callPending =>
    simp only [step] at hs
    split at hs
    · rename_i hc
      injection hs with hs; subst hs
      have h2 := h.quiet
      have h3 := h.last
      have h5 := h.off
      rw [hc] at h2 h3 h5
      refine ⟨by simp [HostPc.carries], fun hsh => absurd rfl (h2 hsh).1,
        fun j hj => absurd (h3 j hj).2.1 (by simp [HostPc.late]), h.stop, fun hp => by simpa using h5 hp⟩
    · simp at hs
  | callMotorEnable on =>
    simp only [step] at hs
    split at hs
    · injection hs with hs; subst hs
      exact ⟨h.carry, h.quiet, h.last, h.stop, h.off⟩
    · simp at hs

/-! ### Wake-ups -/

/-- A wake-up for a change of slot `i` is pending or still to come. -/
def WakeUp (s : Sys) (i : Nat) : Prop :=
  s.event = true ∨ s.slot i = .filled ∨ s.slot i = .exit ∨ s.pru = .signal ∨ s.pru = .finishSignal

/-- Whoever waits will be woken. -/
def WakeInv (s : Sys) : Prop :=
  match s.host with
  | .checkAbort _ => s.slot s.hpos = .abort ∨ WakeUp s s.hpos
  | .blocked (.enq _) => WakeUp s s.hpos
  | .wcheckAbort => s.slot (ringOffset s.hpos 1) = .abort ∨ WakeUp s (ringOffset s.hpos 1)
  | .blocked .wait => WakeUp s (ringOffset s.hpos 1)
  | _ => True

theorem wake_init : WakeInv init := trivial

theorem wake_host {N : Nat} {s s' : Sys} (h : WakeInv s) (hs : hostStep N s = some s') :
    WakeInv s' := by
  unfold hostStep at hs
  cases e : s.host with
  | idle => simp [e] at hs
  | dead => simp [e] at hs
  | check el =>
    simp only [e] at hs
    split at hs
    · injection hs with hs; subst hs; trivial
    · rename_i h0
      injection hs with hs; subst hs
      show s.slot s.hpos = .abort ∨ WakeUp _ s.hpos
      unfold WakeUp
      cases es : s.slot s.hpos <;> simp_all
  | checkAbort el =>
    simp only [e] at hs
    simp only [WakeInv, e] at h
    split at hs
    · injection hs with hs; subst hs; trivial
    · rename_i h0
      injection hs with hs; subst hs
      exact h.resolve_left h0
  | clearAbort el =>
    simp only [e] at hs; injection hs with hs; subst hs
    unfold WakeInv ret
    cases s.shutting <;> simp
  | blocked k =>
    simp only [e] at hs
    split at hs
    · injection hs with hs; subst hs; trivial
    · simp at hs
  | clearing k =>
    cases k <;> simp only [e] at hs <;> injection hs with hs <;> subst hs <;> trivial
  | copyState w el => simp only [e] at hs; injection hs with hs; subst hs; trivial
  | copy w el k =>
    simp only [e] at hs
    split at hs
    · injection hs with hs; subst hs; trivial
    · injection hs with hs; subst hs
      unfold WakeInv ret
      cases s.shutting <;> simp
  | wcheck =>
    simp only [e] at hs
    split at hs
    · injection hs with hs; subst hs
      unfold WakeInv ret
      cases s.shutting <;> simp
    · rename_i h0
      injection hs with hs; subst hs
      show s.slot (ringOffset s.hpos 1) = .abort ∨ WakeUp _ (ringOffset s.hpos 1)
      unfold WakeUp
      cases es : s.slot (ringOffset s.hpos 1) <;> simp_all
  | wcheckAbort =>
    simp only [e] at hs
    simp only [WakeInv, e] at h
    split at hs
    · injection hs with hs; subst hs
      unfold WakeInv ret
      cases s.shutting <;> simp
    · rename_i h0
      injection hs with hs; subst hs
      exact h.resolve_left h0
  | pend1 => simp only [e] at hs; injection hs with hs; subst hs; trivial
  | pend2 i k =>
    simp only [e] at hs; injection hs with hs; subst hs
    unfold WakeInv ret
    cases s.shutting <;> simp
  | off => simp only [e] at hs; injection hs with hs; subst hs; trivial
  | motorsOff => simp only [e] at hs; injection hs with hs; subst hs; trivial

/-- A firmware step keeps wake-ups alive and leaves aborted slots alone. -/
theorem pru_wake {N : Nat} {loops : List Nat → Nat} {early : Bool} {s s' : Sys}
    (hi : Inv N s) (hs : pruStep N loops early s = some s') (i : Nat) :
    (WakeUp s i → WakeUp s' i) ∧ (s.slot i = .abort → s'.slot i = .abort) ∧
    s'.host = s.host ∧ s'.hpos = s.hpos ∧ s'.results = s.results ∧ s'.shutting = s.shutting ∧
    s'.estop = s.estop ∧ s'.motors = s.motors := by
  have hp := hi.pru
  have hf := hi.mem.full
  unfold pruStep at hs
  cases e : s.pru with
  | halted => simp [e] at hs
  | disabled => simp [e] at hs
  | finish =>
    simp only [e] at hs; injection hs with hs; subst hs
    simp only [PruOK, e] at hp
    have hk := (hf _ _ (Nat.le_refl _) hp.2).1
    rw [← hp.1] at hk
    refine ⟨fun _ => by simp [WakeUp], ?_, rfl, rfl, rfl, rfl, rfl, rfl⟩
    intro ha
    show upd s.slot s.ppos .empty i = .abort
    unfold upd
    split
    · rename_i hii; rw [hii, hk] at ha; simp [Elem.kind] at ha
    · exact ha
  | finishSignal =>
    simp only [e] at hs; injection hs with hs; subst hs
    exact ⟨fun _ => .inl rfl, id, rfl, rfl, rfl, rfl, rfl, rfl⟩
  | poll =>
    simp only [e] at hs
    cases es : s.slot s.ppos <;> simp only [es] at hs <;> injection hs with hs <;> subst hs <;>
      refine ⟨?_, id, rfl, rfl, rfl, rfl, rfl, rfl⟩ <;> simp [WakeUp, e]
  | load d =>
    simp only [e] at hs; injection hs with hs; subst hs
    exact ⟨by simp [WakeUp, e], id, rfl, rfl, rfl, rfl, rfl, rfl⟩
  | publish regs =>
    simp only [e] at hs; injection hs with hs; subst hs
    exact ⟨by simp [WakeUp, e], id, rfl, rfl, rfl, rfl, rfl, rfl⟩
  | sample regs left =>
    simp only [e] at hs
    split at hs <;> injection hs with hs <;> subst hs <;>
      exact ⟨by simp [WakeUp, e], id, rfl, rfl, rfl, rfl, rfl, rfl⟩
  | pass regs left =>
    simp only [e] at hs
    split at hs <;> injection hs with hs <;> subst hs <;>
      exact ⟨by simp [WakeUp, e], id, rfl, rfl, rfl, rfl, rfl, rfl⟩
  | mark regs o =>
    simp only [e] at hs; injection hs with hs; subst hs
    simp only [PruOK, e] at hp
    have hk := (hf _ _ (Nat.le_refl _) hp.2).1
    rw [← hp.1] at hk
    refine ⟨fun _ => by simp [WakeUp], ?_, rfl, rfl, rfl, rfl, rfl, rfl⟩
    intro ha
    show upd s.slot s.ppos o.state i = .abort
    unfold upd
    split
    · rename_i hii; rw [hii, hk] at ha; simp [Elem.kind] at ha
    · exact ha
  | signal =>
    simp only [e] at hs; injection hs with hs; subst hs
    exact ⟨fun _ => .inl rfl, id, rfl, rfl, rfl, rfl, rfl, rfl⟩
  | advance =>
    simp only [e] at hs
    split at hs <;> injection hs with hs <;> subst hs <;>
      exact ⟨by simp [WakeUp, e], id, rfl, rfl, rfl, rfl, rfl, rfl⟩

theorem wake_pru {N : Nat} {loops : List Nat → Nat} {early : Bool} {s s' : Sys}
    (hi : Inv N s) (h : WakeInv s) (hs : pruStep N loops early s = some s') : WakeInv s' := by
  have k := fun i => pru_wake hi hs i
  obtain ⟨-, -, k3, k4, -⟩ := k 0
  unfold WakeInv at h ⊢
  rw [k3, k4]
  cases e : s.host with
  | checkAbort el =>
    simp only [e] at h
    exact h.imp (k _).2.1 (k _).1
  | wcheckAbort =>
    simp only [e] at h
    exact h.imp (k _).2.1 (k _).1
  | blocked c =>
    cases c with
    | enq el => simp only [e] at h; exact (k _).1 h
    | wait => simp only [e] at h; exact (k _).1 h
  | _ => trivial

theorem wake_step {N : Nat} {loops : List Nat → Nat} {s s' : Sys} {a : Action}
    (hi : Inv N s) (h : WakeInv s) (hs : step N loops s a = some s') : WakeInv s' := by
  cases a with
  | host => exact wake_host h hs
  | pru => exact wake_pru hi h hs
  | pruEarly => exact wake_pru hi h hs
  | estop on =>
    simp only [step] at hs; injection hs with hs; subst hs; exact h
  | callEnqueue bytes =>
    simp only [step] at hs
    split at hs
    · injection hs with hs; subst hs; trivial
    · simp at hs
  | callShutdown =>
    simp only [step] at hs
    split at hs
    · injection hs with hs; subst hs; trivial
    · simp at hs
  | callWait =>
    simp only [step] at hs
    split at hs
    · injection hs with hs; subst hs; trivial
    · simp at hs
  | callPending =>
    simp only [step] at hs
    split at hs
    · injection hs with hs; subst hs; trivial
    · simp at hs
  | callMotorEnable on =>
    simp only [step] at hs
    split at hs
    · injection hs with hs; subst hs; exact h
    · simp at hs

/-! ### Published status -/

/-- The firmware has published the status of the element it works on. -/
def inExecution (s : Sys) : Bool :=
  match s.pru with
  | .sample _ _ | .pass _ _ | .mark _ _ => true
  | _ => false

/-- Number (counted from 0) of the element the published status refers to. -/
def publishedElem (s : Sys) : Nat :=
  if inExecution s then s.consumed.length else s.consumed.length - 1

/-- Without an exit marker the published index is that of `publishedElem`. -/
def StatInv (s : Sys) : Prop :=
  s.pru ≠ .finishSignal → s.pru ≠ .halted → s.pru ≠ .disabled →
    s.status.1 = publishedElem s % 16

theorem stat_init : StatInv init := by intro _ _ _; rfl

theorem stat_pru {N : Nat} {loops : List Nat → Nat} {early : Bool} {s s' : Sys}
    (hi : Inv N s) (h : StatInv s) (hs : pruStep N loops early s = some s') : StatInv s' := by
  have hp := hi.pru
  unfold pruStep at hs
  cases e : s.pru with
  | halted => simp [e] at hs
  | disabled => simp [e] at hs
  | finish => simp only [e] at hs; injection hs with hs; subst hs; intro h1; simp at h1
  | finishSignal => simp only [e] at hs; injection hs with hs; subst hs; intro h1 h2; simp at h2
  | poll =>
    have h' := h (by simp [e]) (by simp [e]) (by simp [e])
    simp only [publishedElem, inExecution, e] at h'
    simp only [e] at hs
    cases es : s.slot s.ppos <;> simp only [es] at hs <;> injection hs with hs <;> subst hs
    · exact h
    · intro _ _ _; exact h'
    · intro _ _ _; exact h'
    · exact h
  | load d =>
    have h' := h (by simp [e]) (by simp [e]) (by simp [e])
    simp only [publishedElem, inExecution, e] at h'
    simp only [e] at hs; injection hs with hs; subst hs
    intro _ _ _; exact h'
  | publish regs =>
    simp only [e] at hs; injection hs with hs; subst hs
    simp only [PruOK, e] at hp
    intro _ _ _; exact hp.1
  | sample regs left =>
    have h' := h (by simp [e]) (by simp [e]) (by simp [e])
    simp only [publishedElem, inExecution, e] at h'
    simp only [PruOK, e] at hp
    simp only [e] at hs
    split at hs <;> injection hs with hs <;> subst hs <;> intro _ _ _
    · exact hp.1
    · exact h'
  | pass regs left =>
    have h' := h (by simp [e]) (by simp [e]) (by simp [e])
    simp only [publishedElem, inExecution, e] at h'
    simp only [PruOK, e] at hp
    simp only [e] at hs
    split at hs <;> injection hs with hs <;> subst hs <;> intro _ _ _
    · exact h'
    · exact hp.1
  | mark regs o =>
    have h' := h (by simp [e]) (by simp [e]) (by simp [e])
    simp only [publishedElem, inExecution, e] at h'
    simp only [e] at hs; injection hs with hs; subst hs
    intro _ _ _
    simp only [publishedElem, inExecution, List.length_append, List.length_singleton]
    exact h'
  | signal =>
    have h' := h (by simp [e]) (by simp [e]) (by simp [e])
    simp only [publishedElem, inExecution, e] at h'
    simp only [e] at hs; injection hs with hs; subst hs
    intro _ _ _; exact h'
  | advance =>
    have h' := h (by simp [e]) (by simp [e]) (by simp [e])
    simp only [publishedElem, inExecution, e] at h'
    simp only [e] at hs
    split at hs <;> injection hs with hs <;> subst hs <;> intro _ _ _ <;> exact h'

/-- The host never touches what the firmware owns. -/
theorem host_frame {N : Nat} {s s' : Sys} (hs : hostStep N s = some s') :
    s'.consumed = s.consumed ∧ s'.status = s.status ∧ s'.passes = s.passes ∧ s'.r28 = s.r28 ∧
    s'.ppos = s.ppos ∧ s'.estop = s.estop ∧ (s'.pru = s.pru ∨ s'.pru = .disabled) := by
  unfold hostStep at hs
  cases e : s.host with
  | clearing k =>
    cases k <;> simp only [e] at hs <;> injection hs with hs <;> subst hs <;>
      exact ⟨rfl, rfl, rfl, rfl, rfl, rfl, .inl rfl⟩
  | off =>
    simp only [e] at hs; injection hs with hs; subst hs
    exact ⟨rfl, rfl, rfl, rfl, rfl, rfl, .inr rfl⟩
  | _ =>
    simp only [e] at hs
    first
    | (injection hs with hs; subst hs; exact ⟨rfl, rfl, rfl, rfl, rfl, rfl, .inl rfl⟩)
    | (split at hs <;> first
        | (injection hs with hs; subst hs; exact ⟨rfl, rfl, rfl, rfl, rfl, rfl, .inl rfl⟩)
        | simp at hs)
    | simp at hs

theorem step_frame {N : Nat} {loops : List Nat → Nat} {s s' : Sys} {a : Action}
    (ha : a ≠ .pru) (ha' : a ≠ .pruEarly) (hs : step N loops s a = some s') :
    s'.consumed = s.consumed ∧ s'.status = s.status ∧ s'.passes = s.passes ∧ s'.r28 = s.r28 ∧
    s'.ppos = s.ppos ∧ (s'.pru = s.pru ∨ s'.pru = .disabled) ∧
    ((∀ b, a ≠ .estop b) → s'.estop = s.estop) := by
  cases a with
  | host =>
    obtain ⟨h1, h2, h3, h4, h5, h6, h7⟩ := host_frame hs
    exact ⟨h1, h2, h3, h4, h5, h7, fun _ => h6⟩
  | pru => exact absurd rfl ha
  | pruEarly => exact absurd rfl ha'
  | estop on =>
    simp only [step] at hs; injection hs with hs; subst hs
    exact ⟨rfl, rfl, rfl, rfl, rfl, .inl rfl, fun h => absurd rfl (h on)⟩
  | _ =>
    simp only [step] at hs
    split at hs
    · injection hs with hs; subst hs
      exact ⟨rfl, rfl, rfl, rfl, rfl, .inl rfl, fun _ => rfl⟩
    · simp at hs

theorem stat_step {N : Nat} {loops : List Nat → Nat} {s s' : Sys} {a : Action}
    (hi : Inv N s) (h : StatInv s) (hs : step N loops s a = some s') : StatInv s' := by
  by_cases ha : a = .pru
  · subst ha; exact stat_pru hi h hs
  · by_cases ha' : a = .pruEarly
    · subst ha'; exact stat_pru hi h hs
    · obtain ⟨h1, h2, -, -, -, h6, -⟩ := step_frame ha ha' hs
      intro p1 p2 p3
      have e : s'.pru = s.pru := h6.resolve_right p3
      rw [e] at p1 p2 p3
      have := h p1 p2 p3
      rw [h2, this]
      unfold publishedElem inExecution
      rw [e, h1]

end BeagleG.PruQueue
