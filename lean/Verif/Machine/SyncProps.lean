import Verif.Machine.AssertProps
import Verif.Planner.Lemmas
/-!
# C77: the planner knows where the motors are

The planner computes each move from the position where it believes the last one ends. Homing and probing drive
motors behind its back, and tell it the new position afterwards.
-/
namespace BeagleG.Machine

open Planner (Axis Motor Arith Command Op Inv)
open Hardware

variable {F β σ : Type} {e : Env F β σ}

/-- A motor backend that accepts every segment, with an account `acc` of where each motor is once everything
enqueued is done: segments add their steps, `SetExternalPosition` sets it, and nothing else changes it. -/
structure Counts (Q : Queue F β) (acc : Motor → β → Int) : Prop where
  ok : ∀ x c, (Q.enqueue x c).2 = true
  enqueue : ∀ x c m, acc m (Q.enqueue x c).1.2 = acc m x.2 + c.steps m
  wait : ∀ x m, acc m (Q.waitQueueEmpty x).2 = acc m x.2
  ext : ∀ x m p m', acc m' (Q.setExternalPosition x m p).2 = if m' = m then p else acc m' x.2
  enable : ∀ x on m, acc m (Q.motorEnable x on).2 = acc m x.2

variable {acc : Motor → β → Int}

theorem Counts.ledger (hq : Counts e.queue acc) : Planner.Ledger e.backend (fun m x => acc m x.2) :=
  ⟨hq.ok, hq.enqueue, hq.wait⟩

theorem inv_wf {A : Arith F} {p : Planner.State F (Hw F × β)} (h : Inv A p) : Planner.Wf p :=
  ⟨h.nonempty, h.ahead, fun hh => by
    obtain ⟨seg, h1, h2⟩ := h.rest hh
    exact ⟨seg, h1, h2.delta⟩⟩

/-- For all axes but those in `ex`: where a motor is (or will be, when everything enqueued is done), plus the steps
that the planner still holds back, is the position of its axis as the planner knows it. -/
def InSync (c : Planner.Config F) (acc : Motor → β → Int) (ex : Axis → Bool) (p : Planner.State F (Hw F × β)) : Prop :=
  ∀ a, ex a = false → ∀ m, c.motorMap a m = true → acc m p.backend.2 + p.pending c m = p.position a

/-- Moving along a path. -/
theorem sync_path (hq : Counts e.queue acc) (hd : e.plan.Disjoint) {ex : Axis → Bool} {p p' : Planner.State F (Hw F × β)}
    (hi : Inv e.A p) {op : Op F} (hop : op.isPath = true) (h : Planner.step e.A e.plan e.backend p op = some p')
    (hs : InSync e.plan acc ex p) : InSync e.plan acc ex p' := by
  obtain ⟨_, _, h3⟩ := Planner.step_ledger e.A e.plan e.backend hq.ledger (inv_wf hi) hop h
  intro a ha m hm
  have e1 := h3 m
  rw [Planner.assignAll_mapped e.plan hd _ a m hm, Planner.assignAll_mapped e.plan hd _ a m hm] at e1
  have e2 := hs a ha m hm
  omega

theorem halt_sync (hq : Counts e.queue acc) (hd : e.plan.Disjoint) {ex : Axis → Bool} {p p' : Planner.State F (Hw F × β)}
    (hi : Inv e.A p) (h : Planner.bringPathToHalt e.A e.plan e.backend p = some p') (hs : InSync e.plan acc ex p) :
    InSync e.plan acc ex p' := sync_path hq hd hi (op := .halt) rfl h hs

theorem pending_halted {A : Arith F} {c : Planner.Config F} {p : Planner.State F (Hw F × β)} (hi : Inv A p)
    (hh : p.halted = true) (m : Motor) : p.pending c m = 0 := by
  obtain ⟨seg, h1, h2⟩ := (inv_wf hi).rest hh
  unfold Planner.State.pending
  rw [h1]
  exact Planner.pendingSteps_zero c m _ h2

/-- Driving an axis directly affects this axis only. -/
theorem drive_sync (hq : Counts e.queue acc) (hd : e.plan.Disjoint) {ex : Axis → Bool} {p : Planner.State F (Hw F × β)}
    (hi : Inv e.A p) {axis : Axis} {d v0 v1 : F} {aux : Nat} {r : Planner.State F (Hw F × β) × Int}
    (h : Planner.directDrive e.A e.plan e.backend p axis d v0 v1 aux = some r) (hs : InSync e.plan acc ex p) :
    InSync e.plan acc (fun a => ex a || a == axis) r.1 := by
  unfold Planner.directDrive at h
  cases hb : Planner.bringPathToHalt e.A e.plan e.backend p with
  | none => rw [hb] at h; cases h
  | some p1 =>
    rw [hb] at h
    cases h
    have h1 := halt_sync hq hd hi hb hs
    intro a ha m hm
    simp only [Bool.or_eq_false_iff, beq_eq_false_iff_ne] at ha
    have h2 := h1 a ha.1 m hm
    have h3 : e.plan.motorMap axis m = false := by
      cases hx : e.plan.motorMap axis m with
      | false => rfl
      | true => exact absurd (hd _ _ _ hm hx) ha.2
    show acc m (e.queue.waitQueueEmpty (e.queue.enqueue p1.backend _).1).2 + Planner.State.pending e.plan p1 m = _
    rw [hq.wait, hq.enqueue]
    simp only [h3]
    show _ = p1.position a
    simpa using h2

/-- Telling the position of an axis puts this axis right. -/
theorem external_sync (hq : Counts e.queue acc) (hd : e.plan.Disjoint) {ex : Axis → Bool} {p p' : Planner.State F (Hw F × β)}
    (hi : Inv e.A p) {axis : Axis} {x : F} (h : Planner.setExternalPosition e.A e.plan e.backend p axis x = some p')
    (hs : InSync e.plan acc ex p) : InSync e.plan acc (fun a => ex a && a != axis) p' := by
  have hf : ∀ (l : List Motor) (q : Int) (b : Hw F × β) (m : Motor), acc m (l.foldl
      (fun b m => if e.plan.motorMap axis m then e.queue.setExternalPosition b m q else b) b).2 =
        if m ∈ l ∧ e.plan.motorMap axis m = true then q else acc m b.2 := by
    intro l q
    induction l with
    | nil => intro b m; simp
    | cons k l ih =>
      intro b m
      rw [List.foldl_cons, ih]
      by_cases hk : e.plan.motorMap axis k = true
      · rw [if_pos hk, hq.ext]
        by_cases hm : m = k
        · subst hm; simp [hk]
        · simp [hm]
      · rw [if_neg hk]
        by_cases hm : m = k
        · subst hm; simp [hk]
        · simp [hm]
  unfold Planner.setExternalPosition at h
  split at h
  · rename_i seg hbuf
    split at h
    · rename_i hh
      cases h
      have hp0 : ∀ m, p.pending e.plan m = 0 := pending_halted hi hh
      have hrest : ∀ a, seg.target.deltaSteps a = 0 := by
        obtain ⟨seg', h1, h2⟩ := (inv_wf hi).rest hh
        rw [hbuf] at h1
        cases h1
        exact h2
      have hpos : ∀ a, p.position a = seg.target.positionSteps a := by
        intro a; unfold Planner.State.position; rw [hbuf]; rfl
      intro a ha m hm
      simp only [Bool.and_eq_false_iff, bne_eq_false_iff_eq] at ha
      have hpend : ∀ (t : Planner.AxisTarget F) (p2 : Planner.State F (Hw F × β)) (s2 : Planner.Segment F),
          p2.buffer = [{ s2 with target := t }] → (∀ a, t.deltaSteps a = 0) → p2.pending e.plan m = 0 := by
        intro t p2 s2 h1 h2
        unfold Planner.State.pending
        rw [h1]
        exact Planner.pendingSteps_zero e.plan m _ h2
      rw [hpend _ _ _ rfl (by intro a; exact hrest a)]
      show acc m (List.foldl _ p.backend _).2 + 0 = (if a = axis then _ else seg.target.positionSteps a)
      rw [show (List.foldl (fun b m => if e.plan.motorMap axis m = true then e.backend.setExternalPosition b m
          (e.A.lround (e.A.mul x (e.plan.stepsPerMm axis))) else b) p.backend (List.finRange 8)) =
        (List.foldl (fun b m => if e.plan.motorMap axis m then e.queue.setExternalPosition b m
          (e.A.lround (e.A.mul x (e.plan.stepsPerMm axis))) else b) p.backend (List.finRange 8)) from rfl, hf]
      by_cases hax : a = axis
      · subst hax
        simp [hm]
      · have h3 : e.plan.motorMap axis m = false := by
          cases hx : e.plan.motorMap axis m with
          | false => rfl
          | true => exact absurd (hd _ _ _ hm hx) hax
        rw [if_neg hax, if_neg (by simp [h3])]
        have h2 := hs a (ha.resolve_right hax) m hm
        rw [hp0, hpos] at h2
        exact h2
    · cases h
  · cases h

theorem sync_backend {c : Planner.Config F} {ex : Axis → Bool} {p : Planner.State F (Hw F × β)} (hs : InSync c acc ex p)
    (b : Hw F × β) (hb : ∀ m, acc m b.2 = acc m p.backend.2) : InSync c acc ex { p with backend := b } := by
  intro a ha m hm
  have := hs a ha m hm
  show acc m b.2 + _ = _
  rw [hb]
  exact this

theorem InSync.mono {c : Planner.Config F} {ex ex' : Axis → Bool} {p : Planner.State F (Hw F × β)} (hs : InSync c acc ex p)
    (h : ∀ a, ex' a = false → ex a = false) : InSync c acc ex' p := fun a ha => hs a (h a ha)

/-- The axes that a step may put out of order. -/
def Label.drives : Label F → Axis → Bool
  | .drive a => fun b => b == a
  | _ => fun _ => false

/-- No step puts another axis out of order than the one it drives. -/
theorem step_sync (hq : Counts e.queue acc) (hd : e.plan.Disjoint) {l : Label F}
    {s s' : State F β σ} (h : Step e l s s') (hi : Inv e.A s.planner) {ex : Axis → Bool}
    (hs : InSync e.plan acc ex s.planner) : InSync e.plan acc (fun a => ex a || l.drives a) s'.planner := by
  have key : ∀ {ex : Axis → Bool} {p : Planner.State F (Hw F × β)}, InSync e.plan acc ex p →
      InSync e.plan acc (fun a => ex a || false) p := fun h => h.mono (by simp)
  cases l with
  | say m => obtain ⟨_, rfl⟩ := h; exact key hs
  | stopped m => obtain ⟨_, rfl⟩ := h; exact key hs
  | flag o on => obtain ⟨_, rfl⟩ := h; exact key (sync_backend hs _ fun _ => rfl)
  | clear => subst h; exact key (sync_backend hs _ fun _ => rfl)
  | auxBit => subst h; exact key (sync_backend hs _ fun _ => rfl)
  | setAux => subst h; exact key (sync_backend hs _ fun _ => rfl)
  | auxOff => subst h; exact key (sync_backend hs _ fun _ => rfl)
  | fan => subst h; exact key (sync_backend hs _ fun _ => rfl)
  | spindle => obtain ⟨_, _, rfl⟩ := h; exact key (sync_backend hs _ fun _ => rfl)
  | halt =>
    have h : halt e s = _ := h
    unfold halt at h
    cases hb : Planner.bringPathToHalt e.A e.plan e.backend s.planner with
    | none => rw [hb] at h; cases h
    | some p => rw [hb] at h; cases h; exact key (halt_sync hq hd hi hb hs)
  | move =>
    obtain ⟨pos, feed, r, h⟩ := h
    unfold plannerEnqueue at h
    cases hb : Planner.machineMove e.A e.plan e.backend s.planner pos feed s.hw.auxBits.toNat with
    | none => rw [hb] at h; cases h
    | some p =>
      rw [hb] at h
      cases h
      exact key (sync_path hq hd hi (op := .move pos feed s.hw.auxBits.toNat) rfl (by simp [Planner.step, hb]) hs)
  | drive a =>
    obtain ⟨d, v0, v1, r, h⟩ := h
    unfold plannerDrive at h
    cases hb : Planner.directDrive e.A e.plan e.backend s.planner a d v0 v1 s.hw.auxBits.toNat with
    | none => rw [hb] at h; cases h
    | some p => rw [hb] at h; cases h; exact drive_sync hq hd hi hb hs
  | external a =>
    obtain ⟨pos, h⟩ := h
    unfold plannerExternal at h
    cases hb : Planner.setExternalPosition e.A e.plan e.backend s.planner a pos with
    | none => rw [hb] at h; cases h
    | some p =>
      rw [hb] at h; cases h
      exact key ((external_sync hq hd hi hb hs).mono (by intro b hb; simp [hb]))
  | enable => subst h; exact key (sync_backend hs _ fun m => hq.enable _ _ m)
  | wait => subst h; exact key (sync_backend hs _ fun m => hq.wait _ m)
  | lookahead =>
    obtain ⟨n, rfl⟩ := h
    exact key (sync_path hq hd hi (op := .lookahead n) rfl rfl hs)
  | _ => subst h; exact key hs

theorem trace_sync (hq : Counts e.queue acc) (hd : e.plan.Disjoint) (h0 : e.A.eq e.A.zero e.A.zero = true)
    {ls : List (Label F)} {s s' : State F β σ} (h : Trace e s ls s') (hi : Inv e.A s.planner) {ex : Axis → Bool}
    (hl : ∀ l ∈ ls, ∀ a, l.drives a = true → ex a = true) (hs : InSync e.plan acc ex s.planner) :
    InSync e.plan acc ex s'.planner := by
  induction h with
  | nil => exact hs
  | cons h1 _ ih =>
    refine ih (step_inv h0 h1 hi) (fun l hm => hl l (List.mem_cons_of_mem _ hm)) ((step_sync hq hd h1 hi hs).mono ?_)
    intro a ha
    simp only [Bool.or_eq_false_iff]
    refine ⟨ha, ?_⟩
    cases hx : Label.drives _ a with
    | false => rfl
    | true => rw [hl _ List.mem_cons_self a hx] at ha; cases ha

/-- What holds between two events. -/
structure Located (e : Env F β σ) (acc : Motor → β → Int) (ex : Axis → Bool) (s : State F β σ) : Prop where
  inv : Inv e.A s.planner
  sync : InSync e.plan acc ex s.planner

/-- A method that drives at most the axes in `ex`. -/
theorem Does.located (hq : Counts e.queue acc) (hd : e.plan.Disjoint) (h0 : e.A.eq e.A.zero e.A.zero = true) {α : Type}
    {p : Powers} {m : M F β σ α} (hm : Does e (Label.within p) m) {ex : Axis → Bool}
    (hp : ∀ a, p.drive a = true → ex a = true) {s s' : State F β σ} {r : α} (h : m s = some (r, s'))
    (hs : Located e acc ex s) : Located e acc ex s' := by
  obtain ⟨ls, ht, hl⟩ := hm _ _ _ h
  refine ⟨trace_inv h0 ht hs.inv, trace_sync hq hd h0 ht hs.inv (fun l hm a ha => hp a ?_) hs.sync⟩
  have hw := hl l hm
  cases l with
  | drive b =>
    simp only [Label.drives, beq_iff_eq] at ha
    subst ha
    exact hw
  | _ => cases ha

theorem external_located (hq : Counts e.queue acc) (hd : e.plan.Disjoint) (h0 : e.A.eq e.A.zero e.A.zero = true) {a : Axis}
    {x : F} {s s' : State F β σ} {r : Unit} (h : plannerExternal e a x s = some (r, s'))
    (hs : Located e acc (fun b => b == a) s) : Located e acc (fun _ => false) s' := by
  refine ⟨step_inv h0 (l := .external a) ⟨x, h⟩ hs.inv, ?_⟩
  unfold plannerExternal at h
  cases hb : Planner.setExternalPosition e.A e.plan e.backend s.planner a x with
  | none => rw [hb] at h; cases h
  | some p =>
    rw [hb] at h; cases h
    exact (external_sync hq hd hs.inv hb hs.sync).mono (by intro b _; by_cases hb : b = a <;> simp [hb])

/-- Nothing is out of order. -/
abbrev Known (e : Env F β σ) (acc : Motor → β → Int) (s : State F β σ) : Prop := Located e acc (fun _ => false) s

section
variable (hq : Counts e.queue acc) (hd : e.plan.Disjoint) (h0 : e.A.eq e.A.zero e.A.zero = true)
include hq hd h0

theorem homeAxis_known {a : Axis} {s s' : State F β σ} {r : Unit} (h : homeAxis e a s = some (r, s'))
    (hs : Known e acc s) : Known e acc s' := by
  unfold homeAxis at h
  dsimp only at h
  split at h
  · cases h; exact hs
  · obtain ⟨_, s1, h1, h⟩ := bind_some.1 h
    obtain ⟨_, s2, h2, h⟩ := bind_some.1 h
    have k1 := Does.located hq hd h0 (Does.halt (e := e) (Q := Label.within {}) trivial) (by simp) h1 hs
    have k2 := Does.located hq hd h0 (does_moveToEndstop e { drive := fun b => b == a } a _ _ (by simp))
      (ex := fun b => b == a) (fun _ h => h) h2 ⟨k1.inv, k1.sync.mono fun _ _ => rfl⟩
    exact external_located hq hd h0 h k2

theorem homeAll_known {axes : Axis → Bool} : ∀ (l : List (Option Axis)) {s s' : State F β σ} {r : Unit},
    homeAll e axes l s = some (r, s') → Known e acc s → Known e acc s'
  | [], _, _, _, h, hs => by cases h; exact hs
  | none :: rest, _, _, _, h, hs => homeAll_known rest h hs
  | some a :: rest, s, s', r, h, hs => by
    rw [homeAll_cons] at h
    obtain ⟨_, s1, h1, h⟩ := bind_some.1 h
    refine homeAll_known rest h ?_
    split at h1
    · exact homeAxis_known hq hd h0 h1 hs
    · cases h1; exact hs

theorem goHome_known {axes : Axis → Bool} {s s' : State F β σ} {r : Unit} (h : goHome e axes s = some (r, s'))
    (hs : Known e acc s) : Known e acc s' := by
  unfold goHome at h
  obtain ⟨_, s1, h1, h⟩ := bind_some.1 h
  have r1 := Does.located hq hd h0 (Does.halt (e := e) (Q := Label.within {}) trivial) (by simp) h1 hs
  obtain ⟨b, s2, h2, h⟩ := bind_some.1 h
  have r2 := Does.located hq hd h0 (does_clearEstop e { clear := true } rfl) (by simp) h2 r1
  split at h
  · obtain ⟨_, s3, h3, h⟩ := bind_some.1 h
    have r3 := homeAll_known hq hd h0 _ h3 r2
    obtain ⟨b, s4, h4, h⟩ := bind_some.1 h
    have r4 := Does.located hq hd h0 (does_checkForEstop e { stop := true, enable := true } rfl rfl) (by simp) h4 r3
    split at h
    · cases h; exact r4
    · cases h; exact ⟨r4.inv, r4.sync⟩
  · cases h; exact r2

theorem probe_known {feed : F} {axis : Axis} {s s' : State F β σ} {r : Option F}
    (h : probeAxis e feed axis s = some (r, s')) (hs : Known e acc s) : Known e acc s' := by
  unfold probeAxis at h
  obtain ⟨_, s1, h1, h⟩ := bind_some.1 h
  have r1 := Does.located hq hd h0 (does_allowedHoming e {}) (by simp) h1 hs
  split at h
  · cases h; exact r1
  · obtain ⟨_, s2, h2, h⟩ := bind_some.1 h
    have r2 := Does.located hq hd h0 (does_allowedEstop e {}) (by simp) h2 r1
    split at h
    · cases h; exact r2
    · obtain ⟨_, s3, h3, h⟩ := bind_some.1 h
      have r3 := Does.located hq hd h0 (Does.halt (e := e) (Q := Label.within {}) trivial) (by simp) h3 r2
      obtain ⟨_, s4, h4, h⟩ := bind_some.1 h
      cases h4
      split at h
      · cases h; exact ⟨r3.inv, r3.sync⟩
      · obtain ⟨_, s5, h5, h⟩ := bind_some.1 h
        obtain ⟨_, s6, h6, h⟩ := bind_some.1 h
        cases h
        have k2 := Does.located hq hd h0 (does_moveToProbe e { drive := fun b => b == axis } axis _ _ _ (by simp))
          (ex := fun b => b == axis) (fun _ h => h) h5 ⟨r3.inv, r3.sync.mono fun _ _ => rfl⟩
        exact external_located hq hd h0 h6 k2

theorem handle_known {ev : Event F} {s s' : State F β σ} {a : Answer F} (h : handle e ev s = some (a, s'))
    (hs : Known e acc s) : Known e acc s' := by
  cases ev with
  | home axes =>
    unfold handle at h
    obtain ⟨_, s1, h1, h⟩ := bind_some.1 h
    cases h; exact goHome_known hq hd h0 h1 hs
  | probe feed axis =>
    unfold handle at h
    obtain ⟨_, s1, h1, h⟩ := bind_some.1 h
    cases h; exact probe_known hq hd h0 h1 hs
  | _ => exact Does.located hq hd h0 (does_handle e _) (by simp [Event.powers]) h hs

/-- **C77. The planner knows where the motors are**: after any events - moves, homing, probing, stops, motors
switched off, also if broken off - where each motor is once everything enqueued is done, plus the steps that the
planner still holds back, is the position of its axis in the planner. -/
theorem C77_position_known : ∀ (evs : List (Event F)) (s s' : State F β σ), run e s evs = some s' →
    Known e acc s → Known e acc s'
  | [], _, _, h, hs => by cases h; exact hs
  | ev :: evs, s, s', h, hs => by
    obtain ⟨a, s1, h1, h2⟩ := (run_cons e).1 h
    exact C77_position_known evs s1 s' h2 (handle_known hq hd h0 h1 hs)

end


/-- At rest the motors are where the planner believes. -/
theorem C77_at_rest {s : State F β σ} (hs : Known e acc s) (hh : s.planner.halted = true) {a : Axis} {m : Motor}
    (hm : e.plan.motorMap a m = true) : acc m s.planner.backend.2 = s.planner.position a := by
  have := hs.sync a rfl m hm
  rw [pending_halted hs.inv hh] at this
  omega

theorem enqueue_position (hq : Counts e.queue acc) {pos : Axis → F} {feed : F} {s s' : State F β σ} {r : Bool}
    (h : plannerEnqueue e pos feed s = some (r, s')) (hs : Inv e.A s.planner) (a : Axis) :
    s'.planner.position a = e.A.lround (e.A.mul (pos a) (e.plan.stepsPerMm a)) := by
  unfold plannerEnqueue at h
  cases hb : Planner.machineMove e.A e.plan e.backend s.planner pos feed s.hw.auxBits.toNat with
  | none => rw [hb] at h; cases h
  | some p =>
    rw [hb] at h
    cases h
    obtain ⟨_, h2, _⟩ := Planner.step_ledger e.A e.plan e.backend hq.ledger (inv_wf hs)
      (op := .move pos feed s.hw.auxBits.toNat) rfl (s' := p.1) (by simp [Planner.step, hb])
    exact h2 a

/-- Steps that neither plan moves nor drive keep the position of the planner. -/
def Label.still : Label F → Bool
  | .move => false
  | .drive _ => false
  | .external _ => false
  | _ => true

theorem step_still (hq : Counts e.queue acc) {l : Label F} {s s' : State F β σ} (h : Step e l s s')
    (hl : l.still = true) (hi : Inv e.A s.planner) (a : Axis) : s'.planner.position a = s.planner.position a := by
  cases l with
  | say m => obtain ⟨_, rfl⟩ := h; rfl
  | stopped m => obtain ⟨_, rfl⟩ := h; rfl
  | flag o on => obtain ⟨_, rfl⟩ := h; rfl
  | spindle => obtain ⟨_, _, rfl⟩ := h; rfl
  | halt =>
    have h : halt e s = _ := h
    unfold halt at h
    cases hb : Planner.bringPathToHalt e.A e.plan e.backend s.planner with
    | none => rw [hb] at h; cases h
    | some p =>
      rw [hb] at h; cases h
      exact (Planner.step_ledger e.A e.plan e.backend hq.ledger (inv_wf hi) (op := .halt) rfl hb).2.1 a
  | move => cases hl
  | drive => cases hl
  | external => cases hl
  | lookahead =>
    obtain ⟨n, rfl⟩ := h
    exact (Planner.step_ledger e.A e.plan e.backend hq.ledger (inv_wf hi) (op := .lookahead n) rfl rfl).2.1 a
  | _ => subst h; rfl

theorem Does.still (hq : Counts e.queue acc) (h0 : e.A.eq e.A.zero e.A.zero = true) {α : Type}
    {p : Powers} {m : M F β σ α} (hm : Does e (Label.within p) m) (hp : ∀ a, p.drive a = false) (hv : p.move = false)
    {s s' : State F β σ} {r : α} (h : m s = some (r, s')) (hs : Inv e.A s.planner) :
    Inv e.A s'.planner ∧ ∀ a, s'.planner.position a = s.planner.position a := by
  obtain ⟨ls, ht, hl⟩ := hm _ _ _ h
  refine ⟨trace_inv h0 ht hs, ?_⟩
  clear h hm
  induction ht with
  | nil => exact fun _ => rfl
  | cons h1 _ ih =>
    intro a
    rw [ih (step_inv h0 h1 hs) (fun l hm => hl l (List.mem_cons_of_mem _ hm)) a]
    refine step_still hq h1 ?_ hs a
    have hw := hl _ List.mem_cons_self
    rename_i l _ _ _ _
    cases l <;> first | rfl | skip
    · simp [Label.within, hv] at hw
    · simp [Label.within, hp] at hw
    · simp [Label.within, hp] at hw

theorem submit_position (hq : Counts e.queue acc) (h0 : e.A.eq e.A.zero e.A.zero = true) {pos : Axis → F} {feed : F}
    {s s' : State F β σ} {r : Bool} (h : submit e pos feed s = some (r, s')) (hs : Inv e.A s.planner) (a : Axis) :
    s'.planner.position a = e.A.lround (e.A.mul (pos a) (e.plan.stepsPerMm a)) := by
  unfold submit at h
  obtain ⟨b, s1, h1, h⟩ := bind_some.1 h
  have k1 := enqueue_position hq h1 hs a
  split at h
  · cases h; exact k1
  · obtain ⟨c, s2, h2, h⟩ := bind_some.1 h
    have k2 := (Does.still hq h0 (does_checkForEstop e { stop := true, enable := true } rfl rfl) (fun _ => rfl) rfl h2
      (step_inv h0 (l := .move) ⟨_, _, _, h1⟩ hs)).2 a
    split at h <;> cases h <;> exact k2.trans k1

/-- A move that is not refused ends at its target, rounded to steps - not a step accumulates. -/
theorem C77_target (hq : Counts e.queue acc) (h0 : e.A.eq e.A.zero e.A.zero = true) {feed : F} {pos : Axis → F}
    {s s' : State F β σ} {ev : Event F} (hev : ev = .coordinated feed pos ∨ ev = .rapid feed pos)
    (h : handle e ev s = some (.bool true, s')) (hs : Inv e.A s.planner) (a : Axis) :
    s'.planner.position a = e.A.lround (e.A.mul (pos a) (e.plan.stepsPerMm a)) := by
  rcases hev with rfl | rfl
  · unfold handle at h
    obtain ⟨b, s1, h1, h⟩ := bind_some.1 h
    cases h
    unfold coordinatedMove at h1
    obtain ⟨b, s2, h2, h1⟩ := bind_some.1 h1
    have k2 := (Does.still hq h0 (does_allowed e {} pos) (fun _ => rfl) rfl h2 hs).1
    split at h1
    · cases h1
    · dsimp only at h1
      have tail : ∀ s3 : State F β σ, Inv e.A s3.planner →
          ((get : M F β σ _) >>= fun s => if e.A.le s.feedrate e.A.zero = true then (do say .noFeedrate; pure false)
            else submit e pos (e.A.mul s.progFactor s.feedrate)) s3 = some (true, s') →
          s'.planner.position a = e.A.lround (e.A.mul (pos a) (e.plan.stepsPerMm a)) := by
        intro s3 k3 h1
        obtain ⟨_, s4, h4, h1⟩ := bind_some.1 h1
        cases h4
        split at h1
        · obtain ⟨_, s5, h5, h1⟩ := bind_some.1 h1
          cases h1
        · exact submit_position hq h0 h1 k3 a
      split at h1
      · obtain ⟨_, s3, h3, h1⟩ := bind_some.1 h1
        cases h3
        exact tail _ (by exact k2) h1
      · exact tail _ k2 h1
  · unfold handle at h
    obtain ⟨b, s1, h1, h⟩ := bind_some.1 h
    cases h
    unfold rapidMove at h1
    obtain ⟨b, s2, h2, h1⟩ := bind_some.1 h1
    have k2 := (Does.still hq h0 (does_allowed e {} pos) (fun _ => rfl) rfl h2 hs).1
    split at h1
    · cases h1
    · obtain ⟨_, s4, h4, h1⟩ := bind_some.1 h1
      cases h4
      dsimp only at h1
      split at h1
      · obtain ⟨_, s3, h3, h1⟩ := bind_some.1 h1
        cases h3
        exact submit_position hq h0 h1 k2 a
      · exact submit_position hq h0 h1 k2 a

/-- The backend reports the account once it is idle, and the hardware mapping does not matter. -/
structure Reports (Q : Queue F β) (acc : Motor → β → Int) : Prop where
  wait : ∀ x, Q.position (Q.waitQueueEmpty x) = some fun m => acc m x.2
  enable : ∀ x on, Q.position (Q.motorEnable x on) = some fun m => acc m x.2
  hw : ∀ h h' b, Q.position (h, b) = Q.position (h', b)

/-- The motors have stopped where the planner believes. -/
structure Arrived (e : Env F β σ) (acc : Motor → β → Int) (s : State F β σ) : Prop where
  halted : s.planner.halted = true
  idle : e.queue.position s.planner.backend = some fun m => acc m s.planner.backend.2

theorem step_stopped (hq : Counts e.queue acc) (hr : Reports e.queue acc) {l : Label F} {s s' : State F β σ}
    (h : Step e l s s') (hl : l.still = true) (hs : Arrived e acc s) : Arrived e acc s' := by
  have key : ∀ h : Hw F, Arrived e acc (s.withHw h) := fun h =>
    ⟨hs.halted, (hr.hw _ s.planner.backend.1 _).trans hs.idle⟩
  cases l with
  | say m => obtain ⟨_, rfl⟩ := h; exact ⟨hs.1, hs.2⟩
  | stopped m => obtain ⟨_, rfl⟩ := h; exact ⟨hs.1, hs.2⟩
  | flag o on => obtain ⟨_, rfl⟩ := h; exact key _
  | clear => subst h; exact key _
  | auxBit => subst h; exact key _
  | setAux => subst h; exact key _
  | auxOff => subst h; exact key _
  | fan => subst h; exact key _
  | spindle => obtain ⟨_, _, rfl⟩ := h; exact ⟨(key _).1, (key _).2⟩
  | halt =>
    have h : halt e s = _ := h
    unfold halt Planner.bringPathToHalt at h
    rw [if_pos hs.halted] at h
    cases h
    exact ⟨hs.1, hs.2⟩
  | move => cases hl
  | drive => cases hl
  | external => cases hl
  | enable => subst h; exact ⟨hs.1, (hr.enable _ _).trans (by congr 1; funext m; exact (hq.enable _ _ m).symm)⟩
  | wait => subst h; exact ⟨hs.1, (hr.wait _).trans (by congr 1; funext m; exact (hq.wait _ m).symm)⟩
  | lookahead =>
    obtain ⟨n, rfl⟩ := h
    show Arrived e acc { s with planner := (Planner.setLookahead s.planner n).1 }
    unfold Planner.setLookahead
    split <;> exact ⟨hs.1, hs.2⟩
  | _ => subst h; exact ⟨hs.1, hs.2⟩

theorem Does.stopped (hq : Counts e.queue acc) (hr : Reports e.queue acc) {α : Type}
    {p : Powers} {m : M F β σ α} (hm : Does e (Label.within p) m) (hp : ∀ a, p.drive a = false) (hv : p.move = false)
    {s s' : State F β σ} {r : α} (h : m s = some (r, s')) (hs : Arrived e acc s) : Arrived e acc s' := by
  obtain ⟨ls, ht, hl⟩ := hm _ _ _ h
  clear h hm
  induction ht with
  | nil => exact hs
  | cons h1 _ ih =>
    refine ih (step_stopped hq hr h1 ?_ hs) (fun l hm => hl l (List.mem_cons_of_mem _ hm))
    have hw := hl _ List.mem_cons_self
    rename_i l _ _ _ _
    cases l <;> first | rfl | skip
    · simp [Label.within, hv] at hw
    · simp [Label.within, hp] at hw
    · simp [Label.within, hp] at hw

/-- After `G4` the motors have stopped. -/
theorem dwell_stopped (hq : Counts e.queue acc) (hr : Reports e.queue acc) {s s' : State F β σ} {r : Answer F}
    (h : handle e .dwell s = some (r, s')) (hs : Inv e.A s.planner) : Arrived e acc s' := by
  unfold handle at h
  obtain ⟨_, s1, h1, h⟩ := bind_some.1 h
  cases h
  unfold dwell at h1
  obtain ⟨_, s2, h2, h1⟩ := bind_some.1 h1
  obtain ⟨_, s3, h3, h1⟩ := bind_some.1 h1
  obtain ⟨c, s4, h4, h1⟩ := bind_some.1 h1
  have k2 : s2.planner.halted = true := by
    unfold halt at h2
    obtain ⟨p, e1, _, g, _⟩ := Planner.inv_halt e.A e.plan e.backend s.planner hs
    rw [e1] at h2; cases h2; exact g
  have k3 : Arrived e acc s3 := by
    cases h3
    exact ⟨k2, (hr.wait _).trans (by congr 1; funext m; exact (hq.wait _ m).symm)⟩
  have k4 := Does.stopped hq hr (does_checkForEstop e { stop := true, enable := true } rfl rfl) (fun _ => rfl) rfl h4 k3
  split at h1
  · cases h1; exact k4
  · obtain ⟨_, s5, h5, h1⟩ := bind_some.1 h1
    cases h5
    split at h1
    · obtain ⟨_, s6, h6, h1⟩ := bind_some.1 h1
      have k6 : Arrived e acc s6 := by
        unfold testPause at h6
        obtain ⟨_, s7, h7, h6⟩ := bind_some.1 h6
        cases h7
        unfold testSwitch at h6
        split at h6 <;> cases h6 <;> exact ⟨k4.1, k4.2⟩
      split at h1
      · exact Does.stopped hq hr (does_waitForStart e {}) (fun _ => rfl) rfl h1 k6
      · cases h1; exact k6
    · cases h1; exact k4

/-- What is reported as the position of an axis with a motor, once the motors have stopped, is the position in the
planner. -/
theorem C77_reported {s : State F β σ} (hs : Known e acc s) (hp : Arrived e acc s)
    (hw : ∀ a m, (s.hw.axisToDriver a).getLsbD m.val = e.plan.motorMap a m) {a : Axis} {m : Motor}
    (hm : e.plan.motorMap a m = true) (hz : e.A.eq (e.plan.stepsPerMm a) e.A.zero = false) :
    currentPosition e s a = e.A.div (e.A.ofInt (s.planner.position a)) (e.plan.stepsPerMm a) := by
  unfold currentPosition
  rw [hp.idle]
  simp only [hz]
  have : getAxisSteps s.hw a (fun m => acc m s.planner.backend.2) = s.planner.position a := by
    unfold getAxisSteps
    cases hf : (List.finRange 8).find? fun m => (s.hw.axisToDriver a).getLsbD m.val with
    | none =>
      rw [List.find?_eq_none] at hf
      exact absurd ((hw a m).trans hm) (hf m (List.mem_finRange m))
    | some k =>
      have := List.find?_some hf
      exact C77_at_rest hs hp.halted ((hw a k).symm.trans this)
  rw [this]
  rfl

/-- **C77.** After any events, a move that is not refused, and a wait: the position reported for an axis is the target
of the move, rounded to a whole number of steps. -/
theorem C77_move_and_wait (hq : Counts e.queue acc) (hr : Reports e.queue acc) (hd : e.plan.Disjoint)
    (h0 : e.A.eq e.A.zero e.A.zero = true) {evs : List (Event F)} {s0 s s1 s2 : State F β σ} (hs : Known e acc s0)
    (h : run e s0 evs = some s) {feed : F} {pos : Axis → F} {ev : Event F}
    (hev : ev = .coordinated feed pos ∨ ev = .rapid feed pos) (h1 : handle e ev s = some (.bool true, s1))
    {r : Answer F} (h2 : handle e .dwell s1 = some (r, s2))
    (hw : ∀ a m, (s2.hw.axisToDriver a).getLsbD m.val = e.plan.motorMap a m) {a : Axis} {m : Motor}
    (hm : e.plan.motorMap a m = true) (hz : e.A.eq (e.plan.stepsPerMm a) e.A.zero = false) :
    currentPosition e s2 a =
      e.A.div (e.A.ofInt (e.A.lround (e.A.mul (pos a) (e.plan.stepsPerMm a)))) (e.plan.stepsPerMm a) := by
  have k := C77_position_known hq hd h0 _ _ _ h hs
  have k1 := handle_known hq hd h0 h1 k
  have k2 := handle_known hq hd h0 h2 k1
  rw [C77_reported k2 (dwell_stopped hq hr h2 k1.inv) hw hm hz,
    (Does.still hq h0 (does_handle e .dwell) (by simp [Event.powers]) rfl h2 k1.inv).2 a, C77_target hq h0 hev h1 k.inv a]

/-- **C77, from the start**: the constructor of the planner declares the home position of all axes. -/
theorem C77_initial (hq : Counts e.queue acc) (hd : e.plan.Disjoint) {b : Hw F × β} {home : Axis → F} {s : State F β σ}
    (h : Planner.init e.A e.plan e.backend b home = some s.planner) : Known e acc s := by
  have key : ∀ (l : List Axis) (ex : Axis → Bool) (p p' : Planner.State F (Hw F × β)), Inv e.A p → p.halted = true →
      InSync e.plan acc ex p →
      l.foldlM (fun s a => Planner.setExternalPosition e.A e.plan e.backend s a (home a)) p = some p' →
      Inv e.A p' ∧ InSync e.plan acc (fun a => ex a && !l.contains a) p' := by
    intro l
    induction l with
    | nil =>
      intro ex p p' h1 h2 h3 h4
      cases h4
      exact ⟨h1, h3.mono (by simp)⟩
    | cons a l ih =>
      intro ex p p' h1 h2 h3 h4
      obtain ⟨p1, e1, g1, g2, g3, g4, g5⟩ := Planner.inv_external e.A e.plan e.backend p h1 h2 a (home a)
      simp only [List.foldlM_cons, Option.bind_eq_bind, e1, Option.bind_some] at h4
      obtain ⟨k1, k2⟩ := ih _ p1 p' g1 g2 (external_sync hq hd h1 e1 h3) h4
      refine ⟨k1, k2.mono ?_⟩
      intro c hc
      by_cases hx : c = a <;> simp_all
  obtain ⟨k1, k2⟩ := key (List.finRange 10) (fun _ => true) _ _
    ⟨by simp, by simp [Planner.planningBufferCapacity], fun _ => ⟨_, rfl, Planner.idle_zero e.A _⟩⟩ rfl (by intro a ha; cases ha) h
  exact ⟨k1, k2.mono (by intro a _; simp)⟩

end BeagleG.Machine
