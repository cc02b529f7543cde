import Verif.PruQueue.Model
import Mathlib.Tactic.ByContra
import Mathlib.Tactic.Tauto
/-!
# The invariant of the host/firmware queue
-/
namespace BeagleG.PruQueue

/-- Shared memory against the ghost history: `acc` accepted, `con` consumed elements. -/
structure Mem (N : Nat) (slot : Nat → SlotState) (cell : Nat → Nat → Nat) (acc : List Elem)
    (con : List (Elem × Outcome)) : Prop where
  le1 : con.length ≤ acc.length
  le2 : acc.length ≤ con.length + 16
  len : ∀ e ∈ acc, (e.bytes N).length = N
  full : ∀ (j : Nat) (e : Elem), con.length ≤ j → acc[j]? = some e →
    slot (j % 16) = e.kind ∧ ∀ k, k < N → cell (j % 16) k = (e.bytes N).getD k 0
  free : ∀ j : Nat, acc.length ≤ j → j < con.length + 16 →
    slot (j % 16) = .empty ∨ slot (j % 16) = .abort
  past : ∀ (j : Nat) (x : Elem × Outcome), con[j]? = some x → acc.length < j + 16 →
    slot (j % 16) = x.2.state
  fifo : con.map Prod.fst = acc.take con.length
  fresh : ∀ j : Nat, acc.length ≤ j → j < 16 → slot j = .empty

/-- What holds of the host, given where it is; `a` elements accepted, `c` taken. -/
def HostOK (N : Nat) (host : HostPc) (hpos : Nat) (slot : Nat → SlotState) (cell : Nat → Nat → Nat)
    (a c : Nat) (shutting : Bool) : Prop :=
  match host with
  | .idle | .pend1 | .pend2 _ _ => hpos ≤ 16 ∧ hpos % 16 = a % 16 ∧ shutting = false
  | .wcheck | .wcheckAbort | .blocked .wait | .clearing .wait =>
    hpos ≤ 16 ∧ hpos % 16 = a % 16
  | .check e | .checkAbort e | .blocked (.enq e) | .clearing (.enq e) =>
    hpos = a % 16 ∧ (e.bytes N).length = N
  | .clearAbort e => hpos = a % 16 ∧ (e.bytes N).length = N ∧ slot hpos = .abort
  | .copyState w e => w = a % 16 ∧ hpos = w + 1 ∧ (e.bytes N).length = N ∧ slot w = .empty
  | .copy w e k => w = a % 16 ∧ hpos = w + 1 ∧ (e.bytes N).length = N ∧ slot w = .empty ∧
      ∀ k', k' < k → cell w k' = (e.bytes N).getD k' 0
  | .off | .motorsOff | .dead => c = a

/-- What holds of the firmware, given where it is; `c` elements taken. -/
def PruOK (pru : PruPc) (ppos : Nat) (acc : List Elem) (c : Nat) : Prop :=
  match pru with
  | .poll => ppos = c % 16
  | .load d => ppos = c % 16 ∧ ∃ p, acc[c]? = some (.seg p) ∧ d = p.getD 0 0
  | .publish regs => ppos = c % 16 ∧ acc[c]? = some (.seg regs)
  | .sample regs _ => ppos = c % 16 ∧ acc[c]? = some (.seg regs)
  | .pass regs _ => ppos = c % 16 ∧ acc[c]? = some (.seg regs)
  | .mark regs _ => ppos = c % 16 ∧ acc[c]? = some (.seg regs)
  | .finish => ppos = c % 16 ∧ acc[c]? = some .exit
  | .signal => 0 < c ∧ ppos = (c - 1) % 16
  | .advance => 0 < c ∧ ppos = (c - 1) % 16
  | .finishSignal | .halted | .disabled => True

/-- Holds in all reachable states. -/
structure Inv (N : Nat) (s : Sys) : Prop where
  mem : Mem N s.slot s.cell (accepted s) s.consumed
  host : HostOK N s.host s.hpos s.slot s.cell (accepted s).length s.consumed.length s.shutting
  pru : PruOK s.pru s.ppos (accepted s) s.consumed.length

theorem kind_ne_empty (e : Elem) : e.kind ≠ .empty := by cases e <;> simp [Elem.kind]
theorem kind_ne_abort (e : Elem) : e.kind ≠ .abort := by cases e <;> simp [Elem.kind]

/-- A slot at the host's position that is empty or aborted is free. -/
theorem Mem.room {N slot cell acc con} (h : Mem N slot cell acc con)
    (hs : slot (acc.length % 16) = .empty ∨ slot (acc.length % 16) = .abort) :
    acc.length < con.length + 16 := by
  by_contra hc
  have h2 := h.le2
  have hlt : con.length < acc.length := by omega
  have := (h.full con.length acc[con.length] (Nat.le_refl _) (List.getElem?_eq_getElem hlt)).1
  have e : con.length % 16 = acc.length % 16 := by omega
  rw [e] at this
  rw [this] at hs
  rcases hs with hs | hs
  · exact kind_ne_empty _ hs
  · exact kind_ne_abort _ hs

/-- If the last slot is not occupied everything is consumed. -/
theorem Mem.all_consumed {N slot cell acc con} (h : Mem N slot cell acc con) (hpos : Nat)
    (h16 : hpos ≤ 16) (hp : hpos % 16 = acc.length % 16)
    (hs : slot (ringOffset hpos 1) = .empty ∨ slot (ringOffset hpos 1) = .abort) :
    con.length = acc.length := by
  by_contra hc
  have h1 := h.le1
  have hlt : acc.length - 1 < acc.length := by omega
  have := (h.full (acc.length - 1) acc[acc.length - 1] (by omega)
    (List.getElem?_eq_getElem hlt)).1
  have e : ringOffset hpos 1 = (acc.length - 1) % 16 := by
    unfold ringOffset queueLen; omega
  rw [e, this] at hs
  rcases hs with hs | hs
  · exact kind_ne_empty _ hs
  · exact kind_ne_abort _ hs

theorem Mem.publish {N slot cell acc con} (h : Mem N slot cell acc con) (e : Elem)
    (hl : (e.bytes N).length = N) (hs : slot (acc.length % 16) = .empty)
    (hc : ∀ k, k < N → cell (acc.length % 16) k = (e.bytes N).getD k 0) :
    Mem N (upd slot (acc.length % 16) e.kind) cell (acc ++ [e]) con := by
  have hroom := h.room (.inl hs)
  have h1 := h.le1
  refine ⟨by simp; omega, by simp; omega, ?_, ?_, ?_, ?_, ?_, ?_⟩
  · intro x hx
    rcases List.mem_append.1 hx with hx | hx
    · exact h.len x hx
    · simp at hx; subst hx; exact hl
  · intro j x hj hx
    by_cases hja : j < acc.length
    · rw [List.getElem?_append_left hja] at hx
      have := h.full j x hj hx
      refine ⟨?_, this.2⟩
      unfold upd
      rw [if_neg (by omega)]
      exact this.1
    · have hlen := (List.getElem?_eq_some_iff.1 hx).1
      simp at hlen
      have hje : j = acc.length := by omega
      subst hje
      simp at hx
      subst hx
      exact ⟨by simp [upd], hc⟩
  · intro j hj hj2
    simp at hj
    unfold upd
    rw [if_neg (by omega)]
    exact h.free j (by omega) hj2
  · intro j x hx hj
    simp at hj
    have hjc := (List.getElem?_eq_some_iff.1 hx).1
    unfold upd
    rw [if_neg (by omega)]
    exact h.past j x hx (by omega)
  · rw [h.fifo, List.take_append_of_le_length h1]
  · intro j hj hj2
    simp at hj
    unfold upd
    rw [if_neg (by omega)]
    exact h.fresh j (by omega) hj2

theorem Mem.clear {N slot cell acc con} (h : Mem N slot cell acc con)
    (hs : slot (acc.length % 16) = .abort ∨ slot (acc.length % 16) = .empty) :
    Mem N (upd slot (acc.length % 16) .empty) cell acc con := by
  have hroom := h.room (by tauto)
  have h1 := h.le1
  refine ⟨h1, h.le2, h.len, ?_, ?_, ?_, h.fifo, ?_⟩
  · intro j x hj hx
    have hja := (List.getElem?_eq_some_iff.1 hx).1
    have := h.full j x hj hx
    refine ⟨?_, this.2⟩
    unfold upd
    rw [if_neg (by omega)]
    exact this.1
  · intro j hj hj2
    unfold upd
    split
    · exact .inl rfl
    · exact h.free j hj hj2
  · intro j x hx hj
    have hjc := (List.getElem?_eq_some_iff.1 hx).1
    unfold upd
    rw [if_neg (by omega)]
    exact h.past j x hx hj
  · intro j hj hj2
    unfold upd
    split
    · rfl
    · exact h.fresh j hj hj2

theorem Mem.write {N slot cell acc con} (h : Mem N slot cell acc con)
    (hs : slot (acc.length % 16) = .empty) (f : Nat → Nat) :
    Mem N slot (upd cell (acc.length % 16) f) acc con := by
  have hroom := h.room (.inl hs)
  refine ⟨h.le1, h.le2, h.len, ?_, h.free, h.past, h.fifo, h.fresh⟩
  intro j x hj hx
  have hja := (List.getElem?_eq_some_iff.1 hx).1
  have := h.full j x hj hx
  refine ⟨this.1, ?_⟩
  unfold upd
  rw [if_neg (by omega)]
  exact this.2

theorem Mem.consume {N slot cell acc con} (h : Mem N slot cell acc con) (e : Elem) (o : Outcome)
    (he : acc[con.length]? = some e) :
    Mem N (upd slot (con.length % 16) o.state) cell acc (con ++ [(e, o)]) := by
  have hlt := (List.getElem?_eq_some_iff.1 he).1
  have h2 := h.le2
  refine ⟨by simp; omega, by simp; omega, h.len, ?_, ?_, ?_, ?_, ?_⟩
  · intro j x hj hx
    simp at hj
    have hja := (List.getElem?_eq_some_iff.1 hx).1
    have := h.full j x (by omega) hx
    refine ⟨?_, this.2⟩
    unfold upd
    rw [if_neg (by omega)]
    exact this.1
  · intro j hj hj2
    simp at hj2
    unfold upd
    split
    · cases o <;> simp [Outcome.state]
    · exact h.free j hj (by omega)
  · intro j x hx hj
    by_cases hjc : j < con.length
    · rw [List.getElem?_append_left hjc] at hx
      unfold upd
      rw [if_neg (by omega)]
      exact h.past j x hx hj
    · have hlen := (List.getElem?_eq_some_iff.1 hx).1
      simp at hlen
      have hje : j = con.length := by omega
      subst hje
      simp at hx
      subst hx
      simp [upd]
  · rw [List.map_append, h.fifo]
    simp only [List.map_cons, List.map_nil, List.length_append, List.length_singleton]
    rw [List.take_add_one, he]
    rfl
  · intro j hj hj2
    unfold upd
    rw [if_neg (by omega)]
    exact h.fresh j hj hj2

/-- The host does not notice that the firmware consumes an element. -/
theorem HostOK.consume {N host hpos slot cell acc con shutting}
    (hm : Mem N slot cell acc con)
    (h : HostOK N host hpos slot cell acc.length con.length shutting) (o : Outcome)
    (hlt : con.length < acc.length) :
    HostOK N host hpos (upd slot (con.length % 16) o.state) cell acc.length (con.length + 1)
      shutting := by
  cases host with
  | clearAbort e =>
    simp only [HostOK] at h ⊢
    obtain ⟨h1, h2, h3⟩ := h
    have := hm.room (.inr (h1 ▸ h3))
    refine ⟨h1, h2, ?_⟩
    unfold upd
    rw [if_neg (by omega)]
    exact h3
  | copyState w e =>
    simp only [HostOK] at h ⊢
    obtain ⟨h1, h2, h3, h4⟩ := h
    have := hm.room (.inl (h1 ▸ h4))
    refine ⟨h1, h2, h3, ?_⟩
    unfold upd
    rw [if_neg (by omega)]
    exact h4
  | copy w e k =>
    simp only [HostOK] at h ⊢
    obtain ⟨h1, h2, h3, h4, h5⟩ := h
    have := hm.room (.inl (h1 ▸ h4))
    refine ⟨h1, h2, h3, ?_, h5⟩
    unfold upd
    rw [if_neg (by omega)]
    exact h4
  | off => simp only [HostOK] at h; omega
  | motorsOff => simp only [HostOK] at h; omega
  | dead => simp only [HostOK] at h; omega
  | blocked k => cases k <;> exact h
  | clearing k => cases k <;> exact h
  | _ => exact h

/-- The firmware does not notice that the host publishes an element. -/
theorem PruOK.publish {pru ppos acc c} (h : PruOK pru ppos acc c) (e : Elem) :
    PruOK pru ppos (acc ++ [e]) c := by
  have key : ∀ x, acc[c]? = some x → (acc ++ [e])[c]? = some x := by
    intro x hx
    have := (List.getElem?_eq_some_iff.1 hx).1
    rw [List.getElem?_append_left this, hx]
  cases pru with
  | load d =>
    obtain ⟨h1, p, h2, h3⟩ := h
    exact ⟨h1, p, key _ h2, h3⟩
  | publish regs => exact ⟨h.1, key _ h.2⟩
  | sample regs _ => exact ⟨h.1, key _ h.2⟩
  | pass regs _ => exact ⟨h.1, key _ h.2⟩
  | mark regs _ => exact ⟨h.1, key _ h.2⟩
  | finish => exact ⟨h.1, key _ h.2⟩
  | _ => exact h

theorem accepted_ret (s : Sys) (r : Result) :
    accepted (ret s r) = accepted s ++ (match r with | .accepted e => [e] | _ => []) := by
  unfold accepted ret
  rw [List.filterMap_append]
  cases r <;> rfl

theorem accepted_ret_other (s s1 : Sys) (r : Result) (h : s1.results = s.results)
    (hr : ∀ e, r ≠ .accepted e) : accepted (ret s1 r) = accepted s := by
  rw [accepted_ret]
  have : accepted s1 = accepted s := by unfold accepted; rw [h]
  cases r <;> simp_all

theorem accepted_ret_acc (s s1 : Sys) (e : Elem) (h : s1.results = s.results) :
    accepted (ret s1 (.accepted e)) = accepted s ++ [e] := by
  rw [accepted_ret]
  have : accepted s1 = accepted s := by unfold accepted; rw [h]
  rw [this]

theorem inv_init (N : Nat) : Inv N init := by
  refine ⟨⟨?_, ?_, ?_, ?_, ?_, ?_, ?_, ?_⟩, ?_, ?_⟩
  · simp [init, accepted]
  · simp [init, accepted]
  · simp [init, accepted]
  · intro j e _ h; simp [init, accepted] at h
  · intro j _ _; exact .inl rfl
  · intro j x h; simp [init] at h
  · simp [init, accepted]
  · intro j _ _; rfl
  · simp [HostOK, init, accepted]
  · simp [PruOK, init]

theorem inv_host {N : Nat} {s s' : Sys} (h : Inv N s) (hs : hostStep N s = some s') : Inv N s' := by
  obtain ⟨hm, hh, hp⟩ := h
  unfold hostStep at hs
  cases e : s.host with
  | idle => simp [e] at hs
  | dead => simp [e] at hs
  | check el =>
    simp only [e] at hs
    simp only [HostOK, e] at hh
    split at hs
    · rename_i h0
      injection hs with hs; subst hs
      exact ⟨hm, ⟨hh.1, rfl, hh.2, h0⟩, hp⟩
    · injection hs with hs; subst hs
      exact ⟨hm, hh, hp⟩
  | checkAbort el =>
    simp only [e] at hs
    simp only [HostOK, e] at hh
    split at hs
    · rename_i h0
      injection hs with hs; subst hs
      exact ⟨hm, ⟨hh.1, hh.2, h0⟩, hp⟩
    · injection hs with hs; subst hs
      exact ⟨hm, hh, hp⟩
  | clearAbort el =>
    simp only [e] at hs
    simp only [HostOK, e] at hh
    injection hs with hs; subst hs
    obtain ⟨h1, h2, h3⟩ := hh
    have hacc := accepted_ret_other s
      { s with slot := upd s.slot s.hpos .empty, host := .clearAbort el } (.refused el) rfl (by simp)
    refine ⟨?_, ?_, ?_⟩
    · rw [hacc]
      show Mem N (upd s.slot s.hpos .empty) s.cell (accepted s) s.consumed
      rw [h1]
      rw [h1] at h3
      exact hm.clear (.inl h3)
    · rw [hacc]
      simp only [ret]
      split
      · simp only [HostOK]; omega
      · rename_i hsh
        simp only [HostOK]
        refine ⟨by omega, by omega, by simpa using hsh⟩
    · rw [hacc]; exact hp
  | blocked k =>
    simp only [e] at hs
    split at hs
    · injection hs with hs; subst hs
      refine ⟨hm, ?_, hp⟩
      rw [e] at hh
      cases k <;> exact hh
    · simp at hs
  | clearing k =>
    cases k with
    | enq el =>
      simp only [e] at hs
      injection hs with hs; subst hs
      rw [e] at hh
      exact ⟨hm, hh, hp⟩
    | wait =>
      simp only [e] at hs
      injection hs with hs; subst hs
      rw [e] at hh
      exact ⟨hm, hh, hp⟩
  | copyState w el =>
    simp only [e] at hs
    simp only [HostOK, e] at hh
    injection hs with hs; subst hs
    obtain ⟨h1, h2, h3, h4⟩ := hh
    subst h1
    refine ⟨hm.clear (.inr h4), ?_, hp⟩
    simp only [HostOK]
    exact ⟨rfl, h2, h3, by simp [upd], by intro k hk; omega⟩
  | copy w el k =>
    simp only [e] at hs
    simp only [HostOK, e] at hh
    obtain ⟨h1, h2, h3, h4, h5⟩ := hh
    subst h1
    split at hs
    · injection hs with hs; subst hs
      refine ⟨hm.write h4 _, ?_, hp⟩
      simp only [HostOK]
      refine ⟨rfl, h2, h3, h4, ?_⟩
      intro k' hk'
      simp only [upd, if_true]
      split
      · rename_i hkk; rw [hkk]
      · exact h5 k' (by omega)
    · rename_i hk
      injection hs with hs; subst hs
      have hacc := accepted_ret_acc s
        { s with slot := upd s.slot ((accepted s).length % 16) el.kind,
                 host := .copy ((accepted s).length % 16) el k } el rfl
      refine ⟨?_, ?_, ?_⟩
      · rw [hacc]
        exact hm.publish el h3 h4 (fun k' hk' => h5 k' (by omega))
      · rw [hacc]
        simp only [ret]
        split
        · simp only [HostOK, List.length_append, List.length_singleton]; omega
        · rename_i hsh
          simp only [HostOK, List.length_append, List.length_singleton]
          refine ⟨by omega, by omega, by simpa using hsh⟩
      · rw [hacc]
        exact hp.publish el
  | wcheck =>
    simp only [e] at hs
    simp only [HostOK, e] at hh
    split at hs
    · rename_i h0
      injection hs with hs; subst hs
      have hacc : accepted (ret s .drained) = accepted s := by rw [accepted_ret]; simp
      refine ⟨by rw [hacc]; exact hm, ?_, by rw [hacc]; exact hp⟩
      rw [hacc]
      simp only [ret]
      split
      · exact hm.all_consumed _ hh.1 hh.2 (.inl h0)
      · rename_i hsh
        exact ⟨hh.1, hh.2, by simpa using hsh⟩
    · injection hs with hs; subst hs
      exact ⟨hm, hh, hp⟩
  | wcheckAbort =>
    simp only [e] at hs
    simp only [HostOK, e] at hh
    split at hs
    · rename_i h0
      injection hs with hs; subst hs
      have hacc : accepted (ret s .drainedAbort) = accepted s := by rw [accepted_ret]; simp
      refine ⟨by rw [hacc]; exact hm, ?_, by rw [hacc]; exact hp⟩
      rw [hacc]
      simp only [ret]
      split
      · exact hm.all_consumed _ hh.1 hh.2 (.inr h0)
      · rename_i hsh
        exact ⟨hh.1, hh.2, by simpa using hsh⟩
    · injection hs with hs; subst hs
      exact ⟨hm, hh, hp⟩
  | pend1 =>
    simp only [e] at hs
    injection hs with hs; subst hs
    rw [e] at hh
    exact ⟨hm, hh, hp⟩
  | pend2 i k =>
    simp only [e] at hs
    simp only [HostOK, e] at hh
    injection hs with hs; subst hs
    have hacc : ∀ n, accepted (ret s (.pending n k)) = accepted s := by
      intro n; rw [accepted_ret]; simp
    refine ⟨by rw [hacc]; exact hm, ?_, by rw [hacc]; exact hp⟩
    rw [hacc]
    simp only [ret, hh.2.2, Bool.false_eq_true, if_false]
    exact ⟨hh.1, hh.2.1, rfl⟩
  | off =>
    simp only [e] at hs
    injection hs with hs; subst hs
    rw [e] at hh
    exact ⟨hm, hh, trivial⟩
  | motorsOff =>
    simp only [e] at hs
    injection hs with hs; subst hs
    rw [e] at hh
    have hacc : ∀ s1 : Sys, s1.results = s.results ++ [Result.shutdown] →
        accepted s1 = accepted s := by
      intro s1 h1
      unfold accepted
      rw [h1]
      simp
    refine ⟨?_, ?_, ?_⟩
    · rw [hacc _ rfl]; exact hm
    · rw [hacc _ rfl]; exact hh
    · rw [hacc _ rfl]; exact hp

theorem inv_pru {N : Nat} (hN : 0 < N) {loops : List Nat → Nat} {early : Bool} {s s' : Sys}
    (h : Inv N s) (hs : pruStep N loops early s = some s') : Inv N s' := by
  obtain ⟨hm, hh, hp⟩ := h
  unfold pruStep at hs
  -- an occupied slot at the reading position is the next unconsumed element
  have key : s.ppos = s.consumed.length % 16 → s.slot s.ppos ≠ .empty → s.slot s.ppos ≠ .abort →
      ∃ el, (accepted s)[s.consumed.length]? = some el ∧ s.slot s.ppos = el.kind ∧
        ∀ k, k < N → s.cell s.ppos k = (el.bytes N).getD k 0 := by
    intro h1 h2 h3
    have hlt : s.consumed.length < (accepted s).length := by
      by_contra hc
      have := hm.le1
      rcases hm.free s.consumed.length (by omega) (by omega) with hf | hf
      · rw [← h1] at hf; exact h2 hf
      · rw [← h1] at hf; exact h3 hf
    refine ⟨_, List.getElem?_eq_getElem hlt, ?_⟩
    have := hm.full s.consumed.length _ (Nat.le_refl _) (List.getElem?_eq_getElem hlt)
    rw [← h1] at this
    exact this
  cases e : s.pru with
  | poll =>
    simp only [e] at hs
    simp only [PruOK, e] at hp
    cases es : s.slot s.ppos with
    | empty =>
      simp only [es] at hs; injection hs with hs; subst hs
      exact ⟨hm, hh, by rw [e]; exact hp⟩
    | abort =>
      simp only [es] at hs; injection hs with hs; subst hs
      exact ⟨hm, hh, by rw [e]; exact hp⟩
    | exit =>
      simp only [es] at hs; injection hs with hs; subst hs
      obtain ⟨el, h1, h2, -⟩ := key hp (by simp [es]) (by simp [es])
      refine ⟨hm, hh, hp, ?_⟩
      show (accepted s)[s.consumed.length]? = _
      rw [h1]
      cases el with
      | seg p => rw [es] at h2; simp [Elem.kind] at h2
      | exit => rfl
    | filled =>
      simp only [es] at hs; injection hs with hs; subst hs
      obtain ⟨el, h1, h2, h3⟩ := key hp (by simp [es]) (by simp [es])
      refine ⟨hm, hh, hp, ?_⟩
      cases el with
      | seg p => exact ⟨p, h1, by rw [h3 0 hN]; rfl⟩
      | exit => rw [es] at h2; simp [Elem.kind] at h2
  | load d =>
    simp only [e] at hs
    simp only [PruOK, e] at hp
    injection hs with hs; subst hs
    obtain ⟨h1, p, h2, h3⟩ := hp
    refine ⟨hm, hh, h1, ?_⟩
    show (accepted s)[s.consumed.length]? = _
    rw [h2]
    congr 2
    have hf := (hm.full s.consumed.length _ (Nat.le_refl _) h2).2
    rw [← h1] at hf
    have hlen : p.length = N := hm.len _ (List.mem_of_getElem? h2)
    apply List.ext_getElem
    · simp; omega
    · intro k hk hk'
      cases k with
      | zero => simp [h3, List.getElem?_eq_getElem hk]
      | succ k =>
        have := hf (k + 1) (by omega)
        simp only [List.getElem_cons_succ, List.getElem_map, List.getElem_range]
        rw [this]
        simp [Elem.bytes, List.getD_eq_getElem?_getD, List.getElem?_eq_getElem hk]
  | publish regs =>
    simp only [e] at hs
    rw [e] at hp
    injection hs with hs; subst hs
    exact ⟨hm, hh, hp⟩
  | sample regs left =>
    simp only [e] at hs
    rw [e] at hp
    split at hs
    · injection hs with hs; subst hs
      exact ⟨hm, hh, hp⟩
    · injection hs with hs; subst hs
      exact ⟨hm, hh, hp⟩
  | pass regs left =>
    simp only [e] at hs
    rw [e] at hp
    split at hs
    · injection hs with hs; subst hs
      exact ⟨hm, hh, hp⟩
    · injection hs with hs; subst hs
      exact ⟨hm, hh, hp⟩
  | mark regs o =>
    simp only [e] at hs
    simp only [PruOK, e] at hp
    injection hs with hs; subst hs
    obtain ⟨h1, h2⟩ := hp
    have hlt := (List.getElem?_eq_some_iff.1 h2).1
    refine ⟨?_, ?_, ?_⟩
    · show Mem N (upd s.slot s.ppos _) s.cell (accepted s) (s.consumed ++ [(Elem.seg regs, o)])
      rw [h1]
      exact hm.consume _ o h2
    · show HostOK N s.host s.hpos (upd s.slot s.ppos _) s.cell (accepted s).length
        (s.consumed ++ [(Elem.seg regs, o)]).length s.shutting
      rw [h1]
      simpa using hh.consume hm o hlt
    · show 0 < (s.consumed ++ [(Elem.seg regs, o)]).length ∧
        s.ppos = ((s.consumed ++ [(Elem.seg regs, o)]).length - 1) % 16
      simpa using h1
  | signal =>
    simp only [e] at hs
    rw [e] at hp
    injection hs with hs; subst hs
    exact ⟨hm, hh, hp⟩
  | advance =>
    simp only [e] at hs
    simp only [PruOK, e] at hp
    have h16 : queueLen = 16 := rfl
    by_cases hlt : s.ppos + 1 < queueLen
    · rw [if_pos hlt] at hs
      injection hs with hs; subst hs
      refine ⟨hm, hh, ?_⟩
      show s.ppos + 1 = s.consumed.length % 16
      omega
    · rw [if_neg hlt] at hs
      injection hs with hs; subst hs
      refine ⟨hm, hh, ?_⟩
      show 0 = s.consumed.length % 16
      omega
  | finish =>
    simp only [e] at hs
    simp only [PruOK, e] at hp
    injection hs with hs; subst hs
    obtain ⟨h1, h2⟩ := hp
    have hlt := (List.getElem?_eq_some_iff.1 h2).1
    refine ⟨?_, ?_, trivial⟩
    · show Mem N (upd s.slot s.ppos .empty) s.cell (accepted s) (s.consumed ++ [(.exit, .executed)])
      rw [h1]
      exact hm.consume _ .executed h2
    · show HostOK N s.host s.hpos (upd s.slot s.ppos .empty) s.cell (accepted s).length
        (s.consumed ++ [(Elem.exit, Outcome.executed)]).length s.shutting
      rw [h1]
      simpa [Outcome.state] using hh.consume hm .executed hlt
  | finishSignal =>
    simp only [e] at hs
    injection hs with hs; subst hs
    exact ⟨hm, hh, trivial⟩
  | halted => simp [e] at hs
  | disabled => simp [e] at hs

theorem inv_step {N : Nat} (hN : 0 < N) {loops : List Nat → Nat} {s s' : Sys} {a : Action}
    (h : Inv N s) (hs : step N loops s a = some s') : Inv N s' := by
  cases a with
  | host => exact inv_host h hs
  | pru => exact inv_pru hN h hs
  | pruEarly => exact inv_pru hN h hs
  | estop on =>
    simp only [step] at hs
    injection hs with hs; subst hs
    exact ⟨h.mem, h.host, h.pru⟩
  | callEnqueue bytes =>
    simp only [step] at hs
    split at hs
    · rename_i hc
      injection hs with hs; subst hs
      have hh := h.host
      simp only [HostOK, hc.1] at hh
      refine ⟨h.mem, ?_, h.pru⟩
      exact ⟨by simp only [queueLen]; exact hh.2.1, hc.2⟩
    · simp at hs
  | callShutdown =>
    simp only [step] at hs
    split at hs
    · rename_i hc
      injection hs with hs; subst hs
      have hh := h.host
      simp only [HostOK, hc] at hh
      refine ⟨h.mem, ?_, h.pru⟩
      exact ⟨by simp only [queueLen]; exact hh.2.1, by simp [Elem.bytes]⟩
    · simp at hs
  | callWait =>
    simp only [step] at hs
    split at hs
    · rename_i hc
      injection hs with hs; subst hs
      have hh := h.host
      simp only [HostOK, hc] at hh
      exact ⟨h.mem, ⟨hh.1, hh.2.1⟩, h.pru⟩
    · simp at hs
  | callPending =>
    simp only [step] at hs
    split at hs
    · rename_i hc
      injection hs with hs; subst hs
      have hh := h.host
      simp only [HostOK, hc] at hh
      exact ⟨h.mem, hh, h.pru⟩
    · simp at hs
  | callMotorEnable on =>
    simp only [step] at hs
    split at hs
    · injection hs with hs; subst hs
      exact ⟨h.mem, h.host, h.pru⟩
    · simp at hs

/-- `P` holds in every reachable state if it holds initially and is preserved. -/
theorem run_induction {N : Nat} {loops : List Nat → Nat} (P : Sys → Prop)
    (hP : ∀ s s' a, P s → step N loops s a = some s' → P s') (as : List Action) :
    ∀ s s', P s → run N loops s as = some s' → P s' := by
  induction as with
  | nil => intro s s' h hr; simp only [run, Option.some.injEq] at hr; exact hr ▸ h
  | cons a as ih =>
    intro s s' h hr
    simp only [run] at hr
    cases e : step N loops s a with
    | none => simp [e] at hr
    | some s1 =>
      rw [e] at hr
      exact ih s1 s' (hP s s1 a h e) hr

theorem inv_run {N : Nat} (hN : 0 < N) {loops : List Nat → Nat} (as : List Action) {s : Sys}
    (hr : run N loops init as = some s) : Inv N s :=
  run_induction (Inv N) (fun _ _ _ h hs => inv_step hN h hs) as init s (inv_init N) hr

end BeagleG.PruQueue
