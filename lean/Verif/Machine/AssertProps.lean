import Verif.Machine.HomingProps
/-!
# C52 in the machine control: the planner is used according to its protocol
-/
namespace BeagleG.Machine

open Planner (Axis Motor Arith Command Op Inv)
open Hardware

variable {F β σ : Type} {e : Env F β σ}

theorem inv_backend {A : Arith F} {p : Planner.State F (Hw F × β)} (h : Inv A p) (b : Hw F × β) :
    Inv A { p with backend := b } := ⟨h.nonempty, h.ahead, h.rest⟩

/-- Every step keeps the invariant of the planner. -/
theorem step_inv (h0 : e.A.eq e.A.zero e.A.zero = true) {l : Label F} {s s' : State F β σ} (h : Step e l s s')
    (hi : Inv e.A s.planner) : Inv e.A s'.planner := by
  cases l with
  | say m => obtain ⟨_, rfl⟩ := h; exact hi
  | stopped m => obtain ⟨_, rfl⟩ := h; exact hi
  | tick => subst h; exact hi
  | flag o on => obtain ⟨_, rfl⟩ := h; exact inv_backend hi _
  | clear => subst h; exact inv_backend hi _
  | auxBit => subst h; exact inv_backend hi _
  | setAux => subst h; exact inv_backend hi _
  | auxOff => subst h; exact inv_backend hi _
  | fan => subst h; exact inv_backend hi _
  | spindle => obtain ⟨_, _, rfl⟩ := h; exact inv_backend hi _
  | halt =>
    have h : halt e s = _ := h
    unfold halt at h
    obtain ⟨p, e1, g, _⟩ := Planner.inv_halt e.A e.plan e.backend s.planner hi
    rw [e1] at h; cases h; exact g
  | move =>
    obtain ⟨pos, feed, r, h⟩ := h
    unfold plannerEnqueue at h
    by_cases hc : s.planner.positionKnown = true ∧ s.planner.buffer.length ≤ 1022
    · obtain ⟨p, e1, g, _⟩ := Planner.inv_move e.A e.plan e.backend h0 s.planner hi hc.1 hc.2 pos feed s.hw.auxBits.toNat
      rw [e1] at h; cases h; exact g
    · unfold Planner.machineMove at h
      rw [if_pos] at h
      · cases h
      · rcases not_and_or.1 hc with hc | hc
        · exact .inl hc
        · right; unfold Planner.planningBufferCapacity; omega
  | drive a =>
    obtain ⟨d, v0, v1, r, h⟩ := h
    unfold plannerDrive Planner.directDrive at h
    obtain ⟨p, e1, g, _⟩ := Planner.inv_halt e.A e.plan e.backend s.planner hi
    rw [e1] at h; cases h; exact ⟨g.nonempty, g.ahead, g.rest⟩
  | external a =>
    obtain ⟨pos, h⟩ := h
    unfold plannerExternal at h
    cases hb : Planner.setExternalPosition e.A e.plan e.backend s.planner a pos with
    | none => rw [hb] at h; cases h
    | some p =>
      rw [hb] at h
      cases h
      by_cases hh : s.planner.halted = true
      · obtain ⟨q, e1, g, _⟩ := Planner.inv_external e.A e.plan e.backend s.planner hi hh a pos
        rw [hb] at e1; cases e1; exact g
      · unfold Planner.setExternalPosition at hb
        split at hb
        · rw [if_neg hh] at hb; cases hb
        · cases hb
  | enable => subst h; exact inv_backend hi _
  | wait => subst h; exact inv_backend hi _
  | lookahead =>
    obtain ⟨n, rfl⟩ := h
    show Inv e.A (Planner.setLookahead s.planner n).1
    unfold Planner.setLookahead
    split
    · exact hi
    · exact ⟨hi.nonempty, by show 1 ≤ n.toNat; omega, hi.rest⟩
  | never => subst h; exact hi
  | homed => subst h; exact hi
  | feed => subst h; exact hi
  | factor => subst h; exact hi
  | pause => subst h; exact hi
  | timers => subst h; exact hi

theorem trace_inv (h0 : e.A.eq e.A.zero e.A.zero = true) {ls : List (Label F)} {s s' : State F β σ} (h : Trace e s ls s')
    (hi : Inv e.A s.planner) : Inv e.A s'.planner := by
  induction h with
  | nil => exact hi
  | cons h1 _ ih => exact ih (step_inv h0 h1 hi)

theorem bringPathToHalt_known {A : Arith F} {c : Planner.Config F} {B : Planner.Backend F (Hw F × β)} {p p' : Planner.State F (Hw F × β)}
    (hi : Inv A p) (h : Planner.bringPathToHalt A c B p = some p') : p'.positionKnown = p.positionKnown := by
  obtain ⟨q, e1, _, _, g, _⟩ := Planner.inv_halt A c B p hi
  rw [h] at e1; cases e1; exact g

/-- Every step but the drives keeps the position known. -/
theorem step_known (h0 : e.A.eq e.A.zero e.A.zero = true) {l : Label F} {s s' : State F β σ} (h : Step e l s s')
    (hi : Inv e.A s.planner) (hl : ∀ a, l ≠ .drive a) (hk : s.planner.positionKnown = true) :
    s'.planner.positionKnown = true := by
  cases l with
  | say m => obtain ⟨_, rfl⟩ := h; exact hk
  | stopped m => obtain ⟨_, rfl⟩ := h; exact hk
  | flag o on => obtain ⟨_, rfl⟩ := h; exact hk
  | spindle => obtain ⟨_, _, rfl⟩ := h; exact hk
  | halt =>
    have h : halt e s = _ := h
    unfold halt at h
    obtain ⟨p, e1, _, _, g, _⟩ := Planner.inv_halt e.A e.plan e.backend s.planner hi
    rw [e1] at h; cases h; exact g.trans hk
  | move =>
    obtain ⟨pos, feed, r, h⟩ := h
    unfold plannerEnqueue at h
    by_cases hc : s.planner.buffer.length ≤ 1022
    · obtain ⟨p, e1, _, g, _⟩ := Planner.inv_move e.A e.plan e.backend h0 s.planner hi hk hc pos feed s.hw.auxBits.toNat
      rw [e1] at h; cases h; exact g
    · unfold Planner.machineMove at h
      rw [if_pos (.inr (by unfold Planner.planningBufferCapacity; omega))] at h
      cases h
  | drive a => exact absurd rfl (hl a)
  | external a =>
    obtain ⟨pos, h⟩ := h
    unfold plannerExternal Planner.setExternalPosition at h
    split at h
    · split at h
      · cases h; rfl
      · cases h
    · cases h
  | lookahead =>
    obtain ⟨n, rfl⟩ := h
    show (Planner.setLookahead s.planner n).1.positionKnown = true
    unfold Planner.setLookahead
    split <;> exact hk
  | _ => subst h; exact hk

theorem trace_known (h0 : e.A.eq e.A.zero e.A.zero = true) {ls : List (Label F)} {s s' : State F β σ} (h : Trace e s ls s')
    (hl : ∀ l ∈ ls, ∀ a, l ≠ .drive a) (hi : Inv e.A s.planner) (hk : s.planner.positionKnown = true) :
    s'.planner.positionKnown = true := by
  induction h with
  | nil => exact hk
  | cons h1 _ ih =>
    exact ih (fun l hm => hl l (List.mem_cons_of_mem _ hm)) (step_inv h0 h1 hi)
      (step_known h0 h1 hi (hl _ List.mem_cons_self) hk)

/-- What holds between two events. -/
structure Ready (e : Env F β σ) (s : State F β σ) : Prop where
  inv : Inv e.A s.planner
  known : s.planner.positionKnown = true

theorem Does.ready (h0 : e.A.eq e.A.zero e.A.zero = true) {α : Type} {p : Powers} {m : M F β σ α} (hm : Does e (Label.within p) m)
    (hp : ∀ a, p.drive a = false) {s s' : State F β σ} {r : α} (h : m s = some (r, s')) (hs : Ready e s) : Ready e s' := by
  obtain ⟨ls, ht, hl⟩ := hm _ _ _ h
  refine ⟨trace_inv h0 ht hs.inv, trace_known h0 ht (fun l hm => ?_) hs.inv hs.known⟩
  intro a hh
  subst hh
  have := hl _ hm
  simp [Label.within, hp] at this

theorem Does.inv (h0 : e.A.eq e.A.zero e.A.zero = true) {α : Type} {p : Powers} {m : M F β σ α} (hm : Does e (Label.within p) m)
    {s s' : State F β σ} {r : α} (h : m s = some (r, s')) (hs : Inv e.A s.planner) : Inv e.A s'.planner := by
  obtain ⟨ls, ht, hl⟩ := hm _ _ _ h
  exact trace_inv h0 ht hs

theorem external_known {a : Axis} {x : F} {s s' : State F β σ} {r : Unit} (h : plannerExternal e a x s = some (r, s')) :
    s'.planner.positionKnown = true := by
  unfold plannerExternal Planner.setExternalPosition at h
  split at h
  · split at h
    · cases h; rfl
    · cases h
  · cases h

/-- What drives without knowing the position ends with telling the planner the position. -/
theorem homeAxis_ready (h0 : e.A.eq e.A.zero e.A.zero = true) {a : Axis} {s s' : State F β σ} {r : Unit}
    (h : homeAxis e a s = some (r, s')) (hs : Ready e s) : Ready e s' := by
  refine ⟨Does.inv h0 (does_homeAxis e { drive := fun _ => true } a rfl) h hs.inv, ?_⟩
  unfold homeAxis at h
  dsimp only at h
  split at h
  · cases h; exact hs.known
  · obtain ⟨_, s1, _, h⟩ := bind_some.1 h
    obtain ⟨_, s2, _, h⟩ := bind_some.1 h
    exact external_known h

theorem homeAll_ready (h0 : e.A.eq e.A.zero e.A.zero = true) {axes : Axis → Bool} : ∀ (l : List (Option Axis))
    {s s' : State F β σ} {r : Unit}, homeAll e axes l s = some (r, s') → Ready e s → Ready e s'
  | [], _, _, _, h, hs => by cases h; exact hs
  | none :: rest, _, _, _, h, hs => homeAll_ready h0 rest h hs
  | some a :: rest, s, s', r, h, hs => by
    rw [homeAll_cons] at h
    obtain ⟨_, s1, h1, h⟩ := bind_some.1 h
    refine homeAll_ready h0 rest h ?_
    split at h1
    · exact homeAxis_ready h0 h1 hs
    · cases h1; exact hs

theorem goHome_ready (h0 : e.A.eq e.A.zero e.A.zero = true) {axes : Axis → Bool} {s s' : State F β σ} {r : Unit}
    (h : goHome e axes s = some (r, s')) (hs : Ready e s) : Ready e s' := by
  unfold goHome at h
  obtain ⟨_, s1, h1, h⟩ := bind_some.1 h
  have r1 := Does.ready h0 (Does.halt (e := e) (Q := Label.within {}) trivial) (fun _ => rfl) h1 hs
  obtain ⟨b, s2, h2, h⟩ := bind_some.1 h
  have r2 := Does.ready h0 (does_clearEstop e { clear := true } rfl) (fun _ => rfl) h2 r1
  split at h
  · obtain ⟨_, s3, h3, h⟩ := bind_some.1 h
    have r3 := homeAll_ready h0 _ h3 r2
    obtain ⟨b, s4, h4, h⟩ := bind_some.1 h
    have r4 := Does.ready h0 (does_checkForEstop e { stop := true, enable := true } rfl rfl) (fun _ => rfl) h4 r3
    split at h
    · cases h; exact r4
    · cases h; exact ⟨r4.inv, r4.known⟩
  · cases h; exact r2

theorem probe_ready (h0 : e.A.eq e.A.zero e.A.zero = true) {feed : F} {axis : Axis} {s s' : State F β σ} {r : Option F}
    (h : probeAxis e feed axis s = some (r, s')) (hs : Ready e s) : Ready e s' := by
  refine ⟨Does.inv h0 (does_probe e { drive := fun _ => true } feed axis rfl) h hs.inv, ?_⟩
  unfold probeAxis at h
  obtain ⟨_, s1, h1, h⟩ := bind_some.1 h
  have r1 := Does.ready h0 (does_allowedHoming e {}) (fun _ => rfl) h1 hs
  split at h
  · cases h; exact r1.known
  · obtain ⟨_, s2, h2, h⟩ := bind_some.1 h
    have r2 := Does.ready h0 (does_allowedEstop e {}) (fun _ => rfl) h2 r1
    split at h
    · cases h; exact r2.known
    · obtain ⟨_, s3, h3, h⟩ := bind_some.1 h
      have r3 := Does.ready h0 (Does.halt (e := e) (Q := Label.within {}) trivial) (fun _ => rfl) h3 r2
      obtain ⟨_, s4, h4, h⟩ := bind_some.1 h
      cases h4
      split at h
      · cases h; exact r3.known
      · obtain ⟨_, s5, h5, h⟩ := bind_some.1 h
        obtain ⟨_, s6, h6, h⟩ := bind_some.1 h
        cases h
        exact external_known h6

theorem handle_ready (h0 : e.A.eq e.A.zero e.A.zero = true) {ev : Event F} {s s' : State F β σ} {a : Answer F}
    (h : handle e ev s = some (a, s')) (hs : Ready e s) : Ready e s' := by
  cases ev with
  | home axes =>
    unfold handle at h
    obtain ⟨_, s1, h1, h⟩ := bind_some.1 h
    cases h; exact goHome_ready h0 h1 hs
  | probe feed axis =>
    unfold handle at h
    obtain ⟨_, s1, h1, h⟩ := bind_some.1 h
    cases h; exact probe_ready h0 h1 hs
  | _ => exact Does.ready h0 (does_handle e _) (fun _ => rfl) h hs

/-- **C52 in the machine control**: between any two events the invariant of the planner holds and the position is known,
also after homing and probing that were broken off. -/
theorem C52_machine (h0 : e.A.eq e.A.zero e.A.zero = true) : ∀ (evs : List (Event F)) (s s' : State F β σ),
    run e s evs = some s' → Ready e s → Ready e s'
  | [], _, _, h, hs => by cases h; exact hs
  | ev :: evs, s, s', h, hs => by
    obtain ⟨a, s1, h1, h2⟩ := (run_cons e).1 h
    exact C52_machine h0 evs s1 s' h2 (handle_ready h0 h1 hs)

/-- **C52, moves**: after any history, the planner accepts a move, unless its buffer is full (look-ahead 1024, C30). -/
theorem C52_machine_move (h0 : e.A.eq e.A.zero e.A.zero = true) {evs : List (Event F)} {s s' : State F β σ}
    (h : run e s evs = some s') (hs : Ready e s) (hsize : s'.planner.buffer.length ≤ 1022) (pos : Axis → F) (feed : F) :
    plannerEnqueue e pos feed s' ≠ none := by
  have r := C52_machine h0 evs s s' h hs
  unfold plannerEnqueue
  obtain ⟨p, e1, _⟩ := Planner.inv_move e.A e.plan e.backend h0 s'.planner r.inv r.known hsize pos feed s'.hw.auxBits.toNat
  rw [e1]
  simp

/-- **C52, halts**: after any history the path can be brought to a halt. -/
theorem C52_machine_halt (h0 : e.A.eq e.A.zero e.A.zero = true) {evs : List (Event F)} {s s' : State F β σ}
    (h : run e s evs = some s') (hs : Ready e s) : ∃ s'', halt e s' = some ((), s'') ∧ s''.planner.halted = true := by
  have r := C52_machine h0 evs s s' h hs
  obtain ⟨p, e1, _, g, _⟩ := Planner.inv_halt e.A e.plan e.backend s'.planner r.inv
  unfold halt
  rw [e1]
  exact ⟨_, rfl, g⟩

end BeagleG.Machine
