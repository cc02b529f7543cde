import Verif.PruQueue.Props
/-!
# C26: emergency stop; C51: no lost wake-ups
-/
namespace BeagleG.PruQueue

variable {N : Nat} {loops : List Nat → Nat}

/-! ### C26: stepping stops -/

/-- The firmware has sampled the stop input as inactive for the pass it is in, or has just finished
the element. -/
def pastSample (s : Sys) : Bool :=
  match s.pru with
  | .pass _ _ | .mark _ .executed => true
  | _ => false

/-- The firmware is about to do a pass of the step generation. -/
def inPass (s : Sys) : Bool :=
  match s.pru with
  | .pass _ _ => true
  | _ => false

/-- A motion segment executed to its end. -/
def ranSegment : Elem × Outcome → Bool
  | (.seg _, .executed) => true
  | _ => false

theorem stop_step {s s' : Sys} {a : Action} (ha : a ≠ .estop false) (he : s.estop = true)
    (hs : step N loops s a = some s') :
    s'.estop = true ∧ s'.passes + (inPass s').toNat ≤ s.passes + (inPass s).toNat ∧
    ∃ new, s'.consumed = s.consumed ++ new ∧
      new.countP ranSegment + (pastSample s').toNat ≤ (pastSample s).toNat := by
  by_cases hp : a = .pru ∨ a = .pruEarly
  · have hpru : ∃ early, pruStep N loops early s = some s' := by
      rcases hp with hp | hp <;> subst hp <;> exact ⟨_, hs⟩
    obtain ⟨early, hs⟩ := hpru
    unfold pruStep at hs
    cases ep : s.pru with
    | halted => simp [ep] at hs
    | disabled => simp [ep] at hs
    | poll =>
      simp only [ep] at hs
      cases es : s.slot s.ppos <;> simp only [es] at hs <;> injection hs with hs <;> subst hs <;>
        exact ⟨he, by simp [inPass, ep], [], by simp, by simp [pastSample, ep]⟩
    | sample regs left =>
      simp only [ep, he, if_true] at hs
      injection hs with hs; subst hs
      exact ⟨rfl, by simp [inPass, ep], [], by simp, by simp [pastSample, ep]⟩
    | pass regs left =>
      simp only [ep] at hs
      split at hs <;> injection hs with hs <;> subst hs <;>
        exact ⟨he, by simp [inPass, ep], [], by simp, by simp [pastSample, ep]⟩
    | advance =>
      simp only [ep] at hs
      split at hs <;> injection hs with hs <;> subst hs <;>
        exact ⟨he, by simp [inPass, ep], [], by simp, by simp [pastSample, ep]⟩
    | mark regs o =>
      simp only [ep] at hs; injection hs with hs; subst hs
      refine ⟨he, by simp [inPass, ep], _, rfl, ?_⟩
      cases o <;> simp [pastSample, ep, ranSegment]
    | finish =>
      simp only [ep] at hs; injection hs with hs; subst hs
      exact ⟨he, by simp [inPass, ep], _, rfl, by simp [pastSample, ep, ranSegment]⟩
    | _ =>
      simp only [ep] at hs; injection hs with hs; subst hs
      exact ⟨he, by simp [inPass, ep], [], by simp, by simp [pastSample, ep]⟩
  · have hne : a ≠ .pru ∧ a ≠ .pruEarly := ⟨fun h => hp (.inl h), fun h => hp (.inr h)⟩
    obtain ⟨h1, h2, h3, h4, h5, h6, h7⟩ := step_frame hne.1 hne.2 hs
    refine ⟨?_, ?_, [], by simp [h1], ?_⟩
    · by_cases hb : ∃ b, a = .estop b
      · obtain ⟨b, rfl⟩ := hb
        cases b with
        | false => exact absurd rfl ha
        | true => simp only [step] at hs; injection hs with hs; subst hs; rfl
      · rw [h7 (fun b hb' => hb ⟨b, hb'⟩)]; exact he
    · rw [h3]
      rcases h6 with h6 | h6
      · unfold inPass; rw [h6]; exact Nat.le_refl _
      · simp [inPass, h6]
    · rcases h6 with h6 | h6
      · unfold pastSample; rw [h6]; simp
      · simp [pastSample, h6]

/-- **C26.** From the moment the emergency stop input is active, and as long as it stays so, the
firmware does at most the one pass it is already in, and whatever it takes from the queue is dropped
as aborted, except for the exit marker and at most one segment, whose last pass was already under way
when the stop came. -/
theorem C26_stepping_stops (as : List Action) (hne : Action.estop false ∉ as) : ∀ s s' : Sys,
    s.estop = true → run N loops s as = some s' →
    s'.passes ≤ s.passes + (inPass s).toNat ∧
    ∃ new, s'.consumed = s.consumed ++ new ∧ new.countP ranSegment ≤ (pastSample s).toNat := by
  have key : ∀ (as : List Action) (s s' : Sys), Action.estop false ∉ as → s.estop = true →
      run N loops s as = some s' →
      s'.passes + (inPass s').toNat ≤ s.passes + (inPass s).toNat ∧
      ∃ new, s'.consumed = s.consumed ++ new ∧
        new.countP ranSegment + (pastSample s').toNat ≤ (pastSample s).toNat := by
    intro as
    induction as with
    | nil =>
      intro s s' _ _ hr
      simp only [run, Option.some.injEq] at hr
      subst hr
      exact ⟨Nat.le_refl _, [], by simp, by simp⟩
    | cons a as ih =>
      intro s s' hne he hr
      simp only [run] at hr
      cases e : step N loops s a with
      | none => simp [e] at hr
      | some s1 =>
        rw [e] at hr
        obtain ⟨g1, g2, n1, g3, g4⟩ := stop_step (fun h => hne (h ▸ List.mem_cons_self)) he e
        obtain ⟨k2, n2, k3, k4⟩ := ih s1 s' (fun hm => hne (List.mem_cons_of_mem _ hm)) g1 hr
        refine ⟨by omega, n1 ++ n2, by rw [k3, g3, List.append_assoc], ?_⟩
        rw [List.countP_append]
        omega
  intro s s' he hr
  obtain ⟨h1, n, h2, h3⟩ := key as s s' hne he hr
  exact ⟨by omega, n, h2, by omega⟩

/-- Non-vacuity: three loops and two elements queued; the stop comes during the second pass. Both
elements are dropped, one more pass is done. -/
example : ((run 1 (fun p => p.getD 0 0) init
      (enq 3 ++ enq 4 ++ List.replicate 6 .pru)).map fun s => (s.passes, inPass s)) = some (1, true) ∧
    ((run 1 (fun p => p.getD 0 0) init
      (enq 3 ++ enq 4 ++ List.replicate 6 .pru ++ [.estop true] ++ List.replicate 20 .pru)).map
        fun s => (s.passes, s.consumed)) =
      some (2, [(.seg [3], .aborted), (.seg [4], .aborted)]) := by decide +kernel

/-! ### C26: every dropped element is reported, exactly once -/

/-- Slots among the first `n` in state `ABORT`. -/
def abortCount (f : Nat → SlotState) : Nat → Nat
  | 0 => 0
  | n + 1 => abortCount f n + if f n = .abort then 1 else 0

theorem abortCount_upd_ge (f : Nat → SlotState) (i : Nat) (v : SlotState) :
    ∀ n, n ≤ i → abortCount (upd f i v) n = abortCount f n
  | 0, _ => rfl
  | n + 1, h => by
    simp only [abortCount]
    rw [abortCount_upd_ge f i v n (by omega)]
    have : upd f i v n = f n := by unfold upd; rw [if_neg (by omega)]
    rw [this]

theorem abortCount_upd (f : Nat → SlotState) (i : Nat) (v : SlotState) :
    ∀ n, i < n → abortCount (upd f i v) n + (if f i = .abort then 1 else 0) =
      abortCount f n + if v = .abort then 1 else 0
  | 0, h => by omega
  | n + 1, h => by
    simp only [abortCount]
    by_cases hi : i = n
    · subst hi
      rw [abortCount_upd_ge f i v i (Nat.le_refl _)]
      have : upd f i v i = v := by simp [upd]
      rw [this]; omega
    · have := abortCount_upd f i v n (by omega)
      have e : upd f i v n = f n := by unfold upd; rw [if_neg (by omega)]
      rw [e]; omega

/-- The call was `Enqueue` and it was refused. -/
def isRefused : Result → Bool
  | .refused _ => true
  | _ => false

/-- The element was taken but not carried out. -/
def isAborted : Elem × Outcome → Bool
  | (_, .aborted) => true
  | _ => false

/-- Aborts seen by the firmware = aborts reported by `Enqueue` + slots still marked. -/
def Account (s : Sys) : Prop :=
  s.results.countP isRefused + abortCount s.slot 16 = s.consumed.countP isAborted

theorem account_step {s s' : Sys} {a : Action} (hi : Inv N s) (h : Account s)
    (hs : step N loops s a = some s') : Account s' := by
  unfold Account at h ⊢
  have hpru : ∀ early, pruStep N loops early s = some s' →
      s'.results.countP isRefused + abortCount s'.slot 16 = s'.consumed.countP isAborted := by
    intro early hs
    have hp := hi.pru
    have hfull := hi.mem.full
    unfold pruStep at hs
    cases ep : s.pru with
    | halted => simp [ep] at hs
    | disabled => simp [ep] at hs
    | poll =>
      simp only [ep] at hs
      cases es : s.slot s.ppos <;> simp only [es] at hs <;> injection hs with hs <;> subst hs <;>
        exact h
    | sample regs left =>
      simp only [ep] at hs
      split at hs <;> injection hs with hs <;> subst hs <;> exact h
    | pass regs left =>
      simp only [ep] at hs
      split at hs <;> injection hs with hs <;> subst hs <;> exact h
    | advance =>
      simp only [ep] at hs
      split at hs <;> injection hs with hs <;> subst hs <;> exact h
    | mark regs o =>
      simp only [ep] at hs; injection hs with hs; subst hs
      simp only [PruOK, ep] at hp
      have hsl := (hfull _ _ (Nat.le_refl _) hp.2).1
      rw [← hp.1] at hsl
      have hu := abortCount_upd s.slot s.ppos o.state 16 (by omega)
      rw [hsl] at hu
      simp only [List.countP_append]
      cases o <;> simp [Outcome.state, isAborted, Elem.kind] at hu ⊢ <;> omega
    | finish =>
      simp only [ep] at hs; injection hs with hs; subst hs
      simp only [PruOK, ep] at hp
      have hsl := (hfull _ _ (Nat.le_refl _) hp.2).1
      rw [← hp.1] at hsl
      have hu := abortCount_upd s.slot s.ppos .empty 16 (by omega)
      rw [hsl] at hu
      simp only [List.countP_append]
      simp [isAborted, Elem.kind] at hu ⊢
      omega
    | _ => simp only [ep] at hs; injection hs with hs; subst hs; exact h
  have hret : ∀ s1 r, s1.consumed = s.consumed → s1.results = s.results →
      (isRefused r).toNat + abortCount s1.slot 16 = abortCount s.slot 16 →
      (ret s1 r).results.countP isRefused + abortCount (ret s1 r).slot 16 =
        (ret s1 r).consumed.countP isAborted := by
    intro s1 r g1 g2 g3
    simp only [ret, g1, g2, List.countP_append]
    cases hr : isRefused r <;> simp [hr] at g3 ⊢ <;> omega
  cases a with
  | pru => exact hpru _ hs
  | pruEarly => exact hpru _ hs
  | estop on => simp only [step] at hs; injection hs with hs; subst hs; exact h
  | host =>
    simp only [step] at hs
    have hho := hi.host
    unfold hostStep at hs
    cases e : s.host with
    | idle => simp [e] at hs
    | dead => simp [e] at hs
    | check el =>
      simp only [e] at hs
      split at hs <;> injection hs with hs <;> subst hs <;> exact h
    | checkAbort el =>
      simp only [e] at hs
      split at hs <;> injection hs with hs <;> subst hs <;> exact h
    | clearAbort el =>
      simp only [e] at hs
      simp only [HostOK, e] at hho
      injection hs with hs; subst hs
      refine hret _ _ rfl rfl ?_
      have hu := abortCount_upd s.slot s.hpos .empty 16 (by omega)
      rw [hho.2.2] at hu
      simp [isRefused] at hu ⊢
      omega
    | blocked k =>
      simp only [e] at hs
      split at hs
      · injection hs with hs; subst hs; exact h
      · simp at hs
    | clearing k =>
      cases k <;> simp only [e] at hs <;> injection hs with hs <;> subst hs <;> exact h
    | copyState w el =>
      simp only [e] at hs
      simp only [HostOK, e] at hho
      injection hs with hs; subst hs
      have hu := abortCount_upd s.slot w .empty 16 (by omega)
      rw [hho.2.2.2] at hu
      simp at hu
      simp only [hu]
      exact h
    | copy w el k =>
      simp only [e] at hs
      simp only [HostOK, e] at hho
      split at hs <;> injection hs with hs <;> subst hs
      · exact h
      · refine hret _ _ rfl rfl ?_
        have hu := abortCount_upd s.slot w el.kind 16 (by omega)
        rw [hho.2.2.2.1] at hu
        simp [kind_ne_abort, isRefused] at hu ⊢
        omega
    | wcheck =>
      simp only [e] at hs
      split at hs <;> injection hs with hs <;> subst hs
      · exact hret _ _ rfl rfl (by simp [isRefused])
      · exact h
    | wcheckAbort =>
      simp only [e] at hs
      split at hs <;> injection hs with hs <;> subst hs
      · exact hret _ _ rfl rfl (by simp [isRefused])
      · exact h
    | pend1 => simp only [e] at hs; injection hs with hs; subst hs; exact h
    | pend2 i k =>
      simp only [e] at hs; injection hs with hs; subst hs
      exact hret _ _ rfl rfl (by simp [isRefused])
    | off => simp only [e] at hs; injection hs with hs; subst hs; exact h
    | motorsOff =>
      simp only [e] at hs; injection hs with hs; subst hs
      simp only [List.countP_append]
      simpa [isRefused] using h
  | _ =>
    simp only [step] at hs
    split at hs
    · injection hs with hs; subst hs; exact h
    · simp at hs

/-- **C26.** In every execution, the number of elements the firmware dropped equals the number of
`Enqueue` calls that reported an abort plus the number of slots still marked `ABORT`: each dropped
element is reported exactly once, when the host comes to its slot. -/
theorem C26_each_abort_reported_once (hN : 0 < N) (as : List Action) (s : Sys)
    (hr : run N loops init as = some s) :
    s.results.countP isRefused + abortCount s.slot 16 = s.consumed.countP isAborted := by
  have := run_induction (fun s => Inv N s ∧ Account s)
    (fun s s' a h hs => ⟨inv_step hN h.1 hs, account_step h.1 h.2 hs⟩) as init s
    ⟨inv_init N, by simp [Account, init, abortCount]⟩ hr
  exact this.2

/-- **C26.** The slot of a dropped element stays marked until the host has gone once around the
ring buffer; the slot of an executed one is never marked. -/
theorem C26_marked (hN : 0 < N) (as : List Action) (s : Sys) (hr : run N loops init as = some s)
    (j : Nat) (x : Elem × Outcome) (hj : s.consumed[j]? = some x)
    (hround : (accepted s).length < j + 16) :
    s.slot (j % 16) = .abort ↔ x.2 = .aborted := by
  rw [(inv_run hN as hr).mem.past j x hj hround]
  cases x.2 <;> simp [Outcome.state]

/-- **C26.** If `Enqueue` starts on a slot marked `ABORT`, the first call that returns afterwards is
this one, and it reports the abort. -/
theorem C26_next_use_reports (hN : 0 < N) (as : List Action) (s : Sys) (e : Elem)
    (hr : run N loops init as = some s) (hh : s.host = .check e) (ha : s.slot s.hpos = .abort)
    (bs : List Action) (s' : Sys) (hr' : run N loops s bs = some s') :
    s'.results = s.results ∨ s.results ++ [.refused e] <+: s'.results := by
  let P : Sys → Prop := fun t => Inv N t ∧ (((t.host = .check e ∨ t.host = .checkAbort e ∨
    t.host = .clearAbort e) ∧ t.slot t.hpos = .abort ∧ t.results = s.results) ∨
    s.results ++ [.refused e] <+: t.results)
  have hstep : ∀ t t' a, P t → step N loops t a = some t' → P t' := by
    intro t t' a ⟨hi, hP⟩ hs
    refine ⟨inv_step hN hi hs, ?_⟩
    rcases hP with ⟨h1, h2, h3⟩ | hP
    · have hpru : ∀ early, pruStep N loops early t = some t' → ((t'.host = .check e ∨
          t'.host = .checkAbort e ∨ t'.host = .clearAbort e) ∧ t'.slot t'.hpos = .abort ∧
          t'.results = s.results) ∨ s.results ++ [.refused e] <+: t'.results := by
        intro early hs
        obtain ⟨-, k2, k3, k4, k5, -⟩ := pru_wake hi hs t.hpos
        rw [k3, k4, k5]
        exact .inl ⟨h1, k2 h2, h3⟩
      have hnidle : t.host ≠ .idle := by
        rcases h1 with h1 | h1 | h1 <;> simp [h1]
      cases a with
      | pru => exact hpru _ hs
      | pruEarly => exact hpru _ hs
      | estop on =>
        simp only [step] at hs; injection hs with hs; subst hs; exact .inl ⟨h1, h2, h3⟩
      | host =>
        simp only [step] at hs
        rcases h1 with h1 | h1 | h1
        · simp only [hostStep, h1, h2] at hs
          simp only [reduceCtorEq, if_false] at hs
          injection hs with hs; subst hs
          exact .inl ⟨by simp, h2, h3⟩
        · simp only [hostStep, h1, h2] at hs
          simp only [if_true] at hs
          injection hs with hs; subst hs
          exact .inl ⟨by simp, h2, h3⟩
        · simp only [hostStep, h1] at hs
          injection hs with hs; subst hs
          right
          simp only [ret]
          rw [h3]
          exact List.prefix_refl _
      | callEnqueue b => simp [step, hnidle] at hs
      | callWait => simp [step, hnidle] at hs
      | callPending => simp [step, hnidle] at hs
      | callMotorEnable b => simp [step, hnidle] at hs
      | callShutdown => simp [step, hnidle] at hs
    · right
      have hpru : ∀ early, pruStep N loops early t = some t' → s.results ++ [.refused e] <+: t'.results := by
        intro early hs
        obtain ⟨-, -, -, -, k5, -⟩ := pru_wake hi hs 0
        rw [k5]; exact hP
      cases a with
      | pru => exact hpru _ hs
      | pruEarly => exact hpru _ hs
      | estop on => simp only [step] at hs; injection hs with hs; subst hs; exact hP
      | host =>
        simp only [step] at hs
        have hx : ∀ r, s.results ++ [.refused e] <+: t.results ++ [r] :=
          fun r => hP.trans (List.prefix_append _ _)
        unfold hostStep at hs
        cases eh : t.host with
        | clearing k =>
          cases k <;> simp only [eh] at hs <;> injection hs with hs <;> subst hs <;> exact hP
        | _ =>
          simp only [eh] at hs
          first
          | (injection hs with hs; subst hs; first | exact hP | exact hx _)
          | (split at hs <;> first
              | (injection hs with hs; subst hs; first | exact hP | exact hx _)
              | simp at hs)
          | simp at hs
      | _ =>
        simp only [step] at hs
        split at hs
        · injection hs with hs; subst hs; exact hP
        · simp at hs
  have := run_induction P hstep bs s s' ⟨inv_run hN as hr, .inl ⟨.inl hh, ha, rfl⟩⟩ hr'
  rcases this.2 with h | h
  · exact .inl h.2.2
  · exact .inr h

/-- Non-vacuity: after a stop, the first 15 further calls go to fresh slots and are accepted, the
16th comes to the slot of the dropped element and is refused; after that the slot is usable. -/
example : ((run 1 (fun _ => 0) init
      (enq 3 ++ [.estop true] ++ List.replicate 7 .pru ++ [.estop false] ++
        ((List.range 15).map enq).flatten ++
        [.callEnqueue [99], .host, .host, .host] ++ enq 100)).map
      fun s => (s.results.filter isRefused, (accepted s).length, s.consumed)) =
    some ([.refused (.seg [99])], 17, [(.seg [3], .aborted)]) := by decide +kernel

/-! ### C51: no lost wake-ups -/

/-- An occupied slot belongs to an element not yet taken. -/
theorem occupied_outstanding {s : Sys} (hi : Inv N s) (i : Nat) (h16 : i < 16)
    (ho : s.slot i = .filled ∨ s.slot i = .exit) : s.consumed.length < (accepted s).length := by
  by_contra hc
  have h1 := hi.mem.le1
  have hx := hi.mem.free (if i < s.consumed.length % 16 then s.consumed.length + 16 + i - s.consumed.length % 16
    else s.consumed.length + i - s.consumed.length % 16) (by split <;> omega) (by split <;> omega)
  have e : (if i < s.consumed.length % 16 then s.consumed.length + 16 + i - s.consumed.length % 16
    else s.consumed.length + i - s.consumed.length % 16) % 16 = i := by split <;> omega
  rw [e] at hx
  rcases hx with hx | hx <;> rcases ho with ho | ho <;> rw [hx] at ho <;> simp at ho

/-- Firmware steps for the next element. -/
def nextCost (loops : List Nat → Nat) : Option Elem → Nat
  | some (.seg p) => 7 + 2 * loops p
  | _ => 3

/-- Firmware steps until the event is raised, when elements are outstanding. -/
def stepsToEvent (loops : List Nat → Nat) (s : Sys) : Nat :=
  match s.pru with
  | .poll => nextCost loops ((accepted s)[s.consumed.length]?)
  | .load _ => nextCost loops ((accepted s)[s.consumed.length]?) - 1
  | .publish regs => 3 + 2 * (loops regs + 1)
  | .sample _ left => 2 + 2 * (left + 1)
  | .pass _ left => 2 + 2 * left + 1
  | .mark _ _ => 2
  | .signal => 1
  | .advance => nextCost loops ((accepted s)[s.consumed.length]?) + 1
  | .finish => 2
  | .finishSignal => 1
  | .halted => 0
  | .disabled => 0

/-- A blocked host will be woken: the event is pending, or the firmware runs and has either just
finished an element or has one outstanding. -/
def Promised (s : Sys) : Prop :=
  s.event = true ∨ s.pru = .signal ∨ s.pru = .finishSignal ∨
    (s.consumed.length < (accepted s).length ∧ s.pru ≠ .halted ∧ s.pru ≠ .disabled)

/-- **C51.** Whenever the host blocks in `WaitEvent`, a wake-up is pending or still to come. -/
theorem C51_no_lost_wakeup (hN : 0 < N) (as : List Action) (s : Sys) (k : Cont)
    (hr : run N loops init as = some s) (hb : s.host = .blocked k) : Promised s := by
  obtain ⟨hi, hx, hw, -⟩ := all_inv hN as hr
  have hwake : ∃ i, i < 16 ∧ WakeUp s i := by
    have hho := hi.host
    cases k with
    | enq e =>
      simp only [WakeInv, hb] at hw
      simp only [HostOK, hb] at hho
      exact ⟨_, by omega, hw⟩
    | wait =>
      simp only [WakeInv, hb] at hw
      exact ⟨_, by unfold ringOffset queueLen; omega, hw⟩
  obtain ⟨i, h16, h | h | h | h | h⟩ := hwake
  · exact .inl h
  · have hlt := occupied_outstanding hi i h16 (.inl h)
    refine .inr (.inr (.inr ⟨hlt, ?_, ?_⟩))
    · intro h'; have := (hx.stop (.inr h')).1; omega
    · intro h'; have := hx.off h'; rw [hb] at this; simp at this
  · have hlt := occupied_outstanding hi i h16 (.inr h)
    refine .inr (.inr (.inr ⟨hlt, ?_, ?_⟩))
    · intro h'; have := (hx.stop (.inr h')).1; omega
    · intro h'; have := hx.off h'; rw [hb] at this; simp at this
  · exact .inr (.inl h)
  · exact .inr (.inr (.inl h))

/-- A step of the firmware. -/
def isPru : Action → Bool
  | .pru | .pruEarly => true
  | _ => false

theorem promised_step (hN : 0 < N) {s s' : Sys} {early : Bool} (hi : Inv N s) (hp : Promised s)
    (hs : pruStep N loops early s = some s') :
    s'.event = true ∨ Promised s' ∧ stepsToEvent loops s' < stepsToEvent loops s := by
  by_cases hev : s.event = true
  · left
    unfold pruStep at hs
    cases ep : s.pru <;> simp only [ep] at hs
    case poll => cases es : s.slot s.ppos <;> simp only [es] at hs <;> injection hs with hs <;> subst hs <;> exact hev
    case sample => split at hs <;> injection hs with hs <;> subst hs <;> exact hev
    case pass => split at hs <;> injection hs with hs <;> subst hs <;> exact hev
    case advance => split at hs <;> injection hs with hs <;> subst hs <;> exact hev
    case halted => simp at hs
    case disabled => simp at hs
    case signal => injection hs with hs; subst hs; rfl
    case finishSignal => injection hs with hs; subst hs; rfl
    all_goals injection hs with hs; subst hs; exact hev
  · have hp' : s.pru = .signal ∨ s.pru = .finishSignal ∨
        (s.consumed.length < (accepted s).length ∧ s.pru ≠ .halted ∧ s.pru ≠ .disabled) := hp.resolve_left hev
    have hpo := hi.pru
    have hfull := hi.mem.full
    unfold pruStep at hs
    cases ep : s.pru with
    | halted => simp [ep] at hs
    | disabled => simp [ep] at hs
    | signal => simp only [ep] at hs; injection hs with hs; subst hs; exact .inl rfl
    | finishSignal => simp only [ep] at hs; injection hs with hs; subst hs; exact .inl rfl
    | mark regs o =>
      simp only [ep] at hs; injection hs with hs; subst hs
      exact .inr ⟨.inr (.inl rfl), by simp [stepsToEvent, ep]⟩
    | finish =>
      simp only [ep] at hs; injection hs with hs; subst hs
      exact .inr ⟨.inr (.inr (.inl rfl)), by simp [stepsToEvent, ep]⟩
    | poll =>
      simp [ep] at hp'
      simp only [PruOK, ep] at hpo
      have hel := List.getElem?_eq_getElem hp'
      have hsl := (hfull _ _ (Nat.le_refl _) hel).1
      rw [← hpo] at hsl
      simp only [ep, hsl] at hs
      cases hk : (accepted s)[s.consumed.length] with
      | seg p =>
        rw [hk] at hs hel
        simp only [Elem.kind] at hs
        injection hs with hs; subst hs
        refine .inr ⟨.inr (.inr (.inr ⟨hp', by simp, by simp⟩)), ?_⟩
        simp only [accepted] at hel
        simp only [stepsToEvent, ep, accepted, hel, nextCost]
        omega
      | exit =>
        rw [hk] at hs hel
        simp only [Elem.kind] at hs
        injection hs with hs; subst hs
        refine .inr ⟨.inr (.inr (.inr ⟨hp', by simp, by simp⟩)), ?_⟩
        simp only [stepsToEvent, ep]
        rw [hel]
        simp [nextCost]
    | load d =>
      simp [ep] at hp'
      simp only [PruOK, ep] at hpo
      obtain ⟨p, hpe, hd⟩ := hpo.2
      simp only [ep] at hs; injection hs with hs; subst hs
      refine .inr ⟨.inr (.inr (.inr ⟨hp', by simp, by simp⟩)), ?_⟩
      have hst : step N loops s .pru = some { s with
          pru := .publish (d :: (List.range (N - 1)).map fun k => s.cell s.ppos (k + 1)) } := by
        simp only [step, pruStep, ep]
      have hregs := inv_step hN hi hst
      have hro := hregs.pru
      simp only [PruOK] at hro
      have h2 : (accepted s)[s.consumed.length]? = _ := hro.2
      rw [hpe] at h2
      simp only [Option.some.injEq, Elem.seg.injEq] at h2
      simp only [stepsToEvent, ep, hpe, ← h2, nextCost]
      omega
    | publish regs =>
      simp [ep] at hp'
      simp only [ep] at hs; injection hs with hs; subst hs
      refine .inr ⟨.inr (.inr (.inr ⟨hp', by simp, by simp⟩)), ?_⟩
      simp only [stepsToEvent, ep]; omega
    | sample regs left =>
      simp [ep] at hp'
      simp only [ep] at hs
      split at hs <;> injection hs with hs <;> subst hs <;>
        refine .inr ⟨.inr (.inr (.inr ⟨hp', by simp, by simp⟩)), ?_⟩ <;>
        simp only [stepsToEvent, ep] <;> omega
    | pass regs left =>
      simp [ep] at hp'
      simp only [ep] at hs
      split at hs
      · injection hs with hs; subst hs
        refine .inr ⟨.inr (.inr (.inr ⟨hp', by simp, by simp⟩)), ?_⟩
        simp only [stepsToEvent, ep]; omega
      · rename_i hl
        simp only [not_or] at hl
        injection hs with hs; subst hs
        refine .inr ⟨.inr (.inr (.inr ⟨hp', by simp, by simp⟩)), ?_⟩
        simp only [stepsToEvent, ep]; omega
    | advance =>
      simp [ep] at hp'
      simp only [ep] at hs
      split at hs <;> injection hs with hs <;> subst hs <;>
        refine .inr ⟨.inr (.inr (.inr ⟨hp', by simp, by simp⟩)), ?_⟩ <;>
        simp only [stepsToEvent, ep, accepted] <;> omega

/-- **C51.** A blocked host is woken after a bounded number of firmware steps (`stepsToEvent`),
whatever the emergency stop input does meanwhile. -/
theorem C51_woken (hN : 0 < N) (as : List Action) (s : Sys) (k : Cont)
    (hr : run N loops init as = some s) (hb : s.host = .blocked k) (bs : List Action)
    (hbs : ∀ a ∈ bs, notHost a = true) (henough : stepsToEvent loops s ≤ bs.countP isPru)
    (s' : Sys) (hr' : run N loops s bs = some s') : s'.event = true := by
  have key : ∀ (bs : List Action) (s s' : Sys), Inv N s → Promised s →
      (∀ a ∈ bs, notHost a = true) → run N loops s bs = some s' →
      s'.event = true ∨ Promised s' ∧ stepsToEvent loops s' + bs.countP isPru ≤ stepsToEvent loops s := by
    intro bs
    induction bs with
    | nil =>
      intro s s' _ hp _ hr
      simp only [run, Option.some.injEq] at hr
      subst hr
      exact .inr ⟨hp, by simp⟩
    | cons a bs ih =>
      intro s s' hi hp hbs hr
      simp only [run] at hr
      cases e : step N loops s a with
      | none => simp [e] at hr
      | some s1 =>
        rw [e] at hr
        have hbs' : ∀ a ∈ bs, notHost a = true := fun x hx => hbs x (List.mem_cons_of_mem _ hx)
        have hi1 := inv_step hN hi e
        have hpru : ∀ early, isPru a = true → pruStep N loops early s = some s1 → s'.event = true ∨
            Promised s' ∧ stepsToEvent loops s' + (a :: bs).countP isPru ≤ stepsToEvent loops s := by
          intro early ha hs
          have hp1 : Promised s1 := by
            rcases promised_step hN hi hp hs with h | h
            · exact .inl h
            · exact h.1
          rcases promised_step hN hi hp hs with h | h
          · left
            -- the event stays pending: nobody clears it
            have keep : ∀ (bs : List Action) (t t' : Sys), (∀ a ∈ bs, notHost a = true) → Inv N t →
                t.event = true → run N loops t bs = some t' → t'.event = true := by
              intro bs
              induction bs with
              | nil => intro t t' _ _ h hr; simp only [run, Option.some.injEq] at hr; exact hr ▸ h
              | cons b bs ih =>
                intro t t' hb hi h hr
                simp only [run] at hr
                cases e : step N loops t b with
                | none => simp [e] at hr
                | some t1 =>
                  rw [e] at hr
                  refine ih t1 t' (fun x hx => hb x (List.mem_cons_of_mem _ hx)) (inv_step hN hi e) ?_ hr
                  have hnb := hb b List.mem_cons_self
                  have hp : ∀ early, pruStep N loops early t = some t1 → t1.event = true := by
                    intro early hs
                    unfold pruStep at hs
                    cases ep : t.pru <;> simp only [ep] at hs
                    case poll => cases es : t.slot t.ppos <;> simp only [es] at hs <;> injection hs with hs <;> subst hs <;> exact h
                    case sample => split at hs <;> injection hs with hs <;> subst hs <;> exact h
                    case pass => split at hs <;> injection hs with hs <;> subst hs <;> exact h
                    case advance => split at hs <;> injection hs with hs <;> subst hs <;> exact h
                    case halted => simp at hs
                    case disabled => simp at hs
                    case signal => injection hs with hs; subst hs; rfl
                    case finishSignal => injection hs with hs; subst hs; rfl
                    all_goals injection hs with hs; subst hs; exact h
                  cases b with
                  | pru => exact hp _ e
                  | pruEarly => exact hp _ e
                  | estop on => simp only [step] at e; injection e with e; subst e; exact h
                  | _ => simp [notHost] at hnb
            exact keep bs s1 s' hbs' hi1 h hr
          · rcases ih s1 s' hi1 hp1 hbs' hr with g | g
            · exact .inl g
            · right
              refine ⟨g.1, ?_⟩
              rw [List.countP_cons, if_pos ha]
              have := g.2; have := h.2; omega
        have hna := hbs a List.mem_cons_self
        cases a with
        | pru => exact hpru _ rfl e
        | pruEarly => exact hpru _ rfl e
        | estop on =>
          simp only [step] at e; injection e with e; subst e
          rcases ih _ s' hi1 hp hbs' hr with g | g
          · exact .inl g
          · right
            refine ⟨g.1, ?_⟩
            rw [List.countP_cons, if_neg (by simp [isPru])]
            exact g.2
        | _ => simp [notHost] at hna
  have hi := inv_run hN as hr
  rcases key bs s s' hi (C51_no_lost_wakeup hN as s k hr hb) hbs hr' with h | h
  · exact h
  · rcases h.1 with g | g | g | g
    · exact g
    all_goals exfalso
    · have : stepsToEvent loops s' = 1 := by simp [stepsToEvent, g]
      have := h.2; omega
    · have : stepsToEvent loops s' = 1 := by simp [stepsToEvent, g]
      have := h.2; omega
    · have h2 := h.2
      have : 0 < stepsToEvent loops s' := by
        unfold stepsToEvent
        cases ep : s'.pru with
        | halted => exact absurd ep g.2.1
        | disabled => exact absurd ep g.2.2
        | load d => simp only [nextCost]; split <;> omega
        | poll => simp only [nextCost]; split <;> omega
        | _ => simp only; omega
      omega

/-- Non-vacuity: the host waits with one element outstanding; after the firmware executed it the
event is pending and `WaitQueueEmpty` returns. -/
example : ((run 1 (fun p => p.getD 0 0) init (enq 1 ++ [.callWait, .host, .host])).map
      fun s => (decide (s.host = .blocked .wait), s.event, stepsToEvent (fun p => p.getD 0 0) s)) =
      some (true, false, 9) ∧
    ((run 1 (fun p => p.getD 0 0) init (enq 1 ++ [.callWait, .host, .host] ++ List.replicate 9 .pru)).map
      fun s => s.event) = some true := by decide +kernel

end BeagleG.PruQueue
