import Verif.Machine.HomeProps
import Verif.Machine.SyncProps
/-!
# Where the planner is after homing and probing
-/
namespace BeagleG.Machine

open Planner (Axis Motor Arith Command Inv)
open Hardware

variable {F β σ : Type} {e : Env F β σ} {acc : Motor → β → Int}

theorem setExternal_position {axis : Axis} {x : F} {p p' : Planner.State F (Hw F × β)}
    (h : Planner.setExternalPosition e.A e.plan e.backend p axis x = some p') (a : Axis) : p'.position a =
      if a = axis then e.A.lround (e.A.mul x (e.plan.stepsPerMm axis)) else p.position a := by
  unfold Planner.setExternalPosition at h
  split at h
  · rename_i seg hbuf
    split at h
    · cases h
      unfold Planner.State.position
      rw [hbuf]
      rfl
    · cases h
  · cases h

theorem external_position {axis : Axis} {x : F} {s s' : State F β σ} {r : Unit}
    (h : plannerExternal e axis x s = some (r, s')) (a : Axis) : s'.planner.position a =
      if a = axis then e.A.lround (e.A.mul x (e.plan.stepsPerMm axis)) else s.planner.position a := by
  unfold plannerExternal at h
  cases hb : Planner.setExternalPosition e.A e.plan e.backend s.planner axis x with
  | none => rw [hb] at h; cases h
  | some p => rw [hb] at h; cases h; exact setExternal_position hb a

/-- The planner begins at the home position. -/
theorem init_position {b : Hw F × β} {home : Axis → F} {p : Planner.State F (Hw F × β)}
    (h : Planner.init e.A e.plan e.backend b home = some p) (a : Axis) :
    p.position a = e.A.lround (e.A.mul (home a) (e.plan.stepsPerMm a)) := by
  have key : ∀ (l : List Axis) (p p' : Planner.State F (Hw F × β)),
      l.foldlM (fun s a => Planner.setExternalPosition e.A e.plan e.backend s a (home a)) p = some p' →
      p'.position a = if a ∈ l then e.A.lround (e.A.mul (home a) (e.plan.stepsPerMm a)) else p.position a := by
    intro l
    induction l with
    | nil => intro p p' h; cases h; simp
    | cons c l ih =>
      intro p p' h
      simp only [List.foldlM_cons, Option.bind_eq_bind] at h
      cases h1 : Planner.setExternalPosition e.A e.plan e.backend p c (home c) with
      | none => rw [h1] at h; cases h
      | some p1 =>
        rw [h1] at h
        rw [ih p1 p' h, setExternal_position h1]
        by_cases hc : a = c
        · subst hc; simp
        · simp [hc]
  rw [key _ _ _ h, if_pos (List.mem_finRange a)]

theorem drive_position (hq : Counts e.queue acc) {axis : Axis} {d v0 v1 : F} {s s' : State F β σ} {r : Int}
    (h : plannerDrive e axis d v0 v1 s = some (r, s')) (hi : Inv e.A s.planner) (a : Axis) :
    s'.planner.position a = s.planner.position a := by
  unfold plannerDrive Planner.directDrive at h
  cases hb : Planner.bringPathToHalt e.A e.plan e.backend s.planner with
  | none => rw [hb] at h; cases h
  | some p =>
    rw [hb] at h; cases h
    exact (Planner.step_ledger e.A e.plan e.backend hq.ledger (inv_wf hi) (op := .halt) rfl hb).2.1 a

/-- Nothing but a move and `SetExternalPosition` for the axis changes where the planner believes it is. -/
theorem Does.stillAt (hq : Counts e.queue acc) (h0 : e.A.eq e.A.zero e.A.zero = true) {α : Type}
    {p : Powers} {m : M F β σ α} {a : Axis} (hm : Does e (Label.within p) m) (hp : p.drive a = false) (hv : p.move = false)
    {s s' : State F β σ} {r : α} (h : m s = some (r, s')) (hs : Inv e.A s.planner) :
    Inv e.A s'.planner ∧ s'.planner.position a = s.planner.position a := by
  obtain ⟨ls, ht, hl⟩ := hm _ _ _ h
  refine ⟨trace_inv h0 ht hs, ?_⟩
  clear h hm
  induction ht with
  | nil => rfl
  | cons h1 _ ih =>
    rw [ih (step_inv h0 h1 hs) (fun l hm => hl l (List.mem_cons_of_mem _ hm))]
    have hw := hl _ List.mem_cons_self
    rename_i l _ _ _ _
    cases hc : l.still with
    | true => exact step_still hq h1 hc hs a
    | false =>
      cases l <;> try cases hc
      · simp [Label.within, hv] at hw
      · obtain ⟨d, v0, v1, r, h1⟩ := h1
        exact drive_position hq h1 hs a
      · rename_i b
        obtain ⟨x, h1⟩ := h1
        rw [external_position h1, if_neg]
        rintro rfl
        simp [Label.within, hp] at hw

section
variable (hq : Counts e.queue acc) (h0 : e.A.eq e.A.zero e.A.zero = true)
include hq h0

theorem homeAxis_place {axis : Axis} {s s' : State F β σ} {r : Unit} (h : homeAxis e axis s = some (r, s'))
    (hs : Inv e.A s.planner) : Inv e.A s'.planner ∧ ∀ a, s'.planner.position a =
      if a = axis ∧ e.cfg.homingTrigger axis ≠ .none then
        e.A.lround (e.A.mul (homePos e axis) (e.plan.stepsPerMm axis)) else s.planner.position a := by
  have hinv : Inv e.A s'.planner := by
    obtain ⟨ls, ht, _⟩ := does_homeAxis e { drive := fun _ => true } axis rfl _ _ _ h
    exact trace_inv h0 ht hs
  refine ⟨hinv, fun a => ?_⟩
  by_cases ha : a = axis
  · subst ha
    unfold homeAxis at h
    dsimp only at h
    split at h
    · rename_i ht
      cases h; simp [ht]
    · rename_i ht
      obtain ⟨_, s1, h1, h⟩ := bind_some.1 h
      obtain ⟨_, s2, h2, h⟩ := bind_some.1 h
      rw [external_position h]
      simp [ht]
  · rw [if_neg (fun h => ha h.1)]
    exact (Does.stillAt hq h0 (does_homeAxis e { drive := fun b => b == axis } axis (by simp)) (by simp [ha]) rfl h hs).2

theorem homeAll_place {axes : Axis → Bool} : ∀ (l : List (Option Axis)) {s s' : State F β σ} {r : Unit},
    homeAll e axes l s = some (r, s') → Inv e.A s.planner → Inv e.A s'.planner ∧ ∀ a, s'.planner.position a =
      if axes a = true ∧ some a ∈ l ∧ e.cfg.homingTrigger a ≠ .none then
        e.A.lround (e.A.mul (homePos e a) (e.plan.stepsPerMm a)) else s.planner.position a
  | [], _, _, _, h, hs => by cases h; exact ⟨hs, by simp⟩
  | none :: rest, _, _, _, h, hs => by
    have := homeAll_place rest h hs
    simpa using this
  | some b :: rest, s, s', r, h, hs => by
    rw [homeAll_cons] at h
    obtain ⟨_, s1, h1, h⟩ := bind_some.1 h
    split at h1
    · rename_i hb
      obtain ⟨i1, k1⟩ := homeAxis_place hq h0 h1 hs
      obtain ⟨i2, k2⟩ := homeAll_place rest h i1
      refine ⟨i2, fun a => ?_⟩
      rw [k2, k1]
      by_cases ha : a = b
      · subst ha
        by_cases ht : e.cfg.homingTrigger a = .none
        · simp [ht]
        · simp [ht, hb]
      · simp [ha]
    · rename_i hb
      cases h1
      obtain ⟨i2, k2⟩ := homeAll_place rest h hs
      refine ⟨i2, fun a => ?_⟩
      rw [k2]
      by_cases ha : a = b
      · subst ha
        simp [hb]
      · simp [ha]

/-- **Where the planner is after homing**: if homing is not refused because of an emergency stop, every axis asked for
that has a switch and is in the homing order is at its home position; all others are where they were. -/
theorem goHome_place {axes : Axis → Bool} {s s' : State F β σ} {r : Unit} (h : goHome e axes s = some (r, s'))
    (hs : Inv e.A s.planner) : Inv e.A s'.planner ∧
      ((∀ a, s'.planner.position a = if axes a = true ∧ some a ∈ e.cfg.homeOrder ∧ e.cfg.homingTrigger a ≠ .none then
        e.A.lround (e.A.mul (homePos e a) (e.plan.stepsPerMm a)) else s.planner.position a) ∨
      ((∀ a, s'.planner.position a = s.planner.position a) ∧ s'.hw.estop = true)) := by
  unfold goHome at h
  obtain ⟨_, s1, h1, h⟩ := bind_some.1 h
  have r1 := Does.still hq h0 (Does.halt (e := e) (Q := Label.within {}) trivial) (fun _ => rfl) rfl h1 hs
  obtain ⟨b, s2, h2, h⟩ := bind_some.1 h
  have r2 := Does.still hq h0 (does_clearEstop e { clear := true } rfl) (fun _ => rfl) rfl h2 r1.1
  split at h
  · obtain ⟨_, s3, h3, h⟩ := bind_some.1 h
    have r3 := homeAll_place hq h0 _ h3 r2.1
    obtain ⟨b, s4, h4, h⟩ := bind_some.1 h
    have r4 := Does.still hq h0 (does_checkForEstop e { stop := true, enable := true } rfl rfl) (fun _ => rfl) rfl h4 r3.1
    have key : ∀ a, s4.planner.position a =
        if axes a = true ∧ some a ∈ e.cfg.homeOrder ∧ e.cfg.homingTrigger a ≠ .none then
          e.A.lround (e.A.mul (homePos e a) (e.plan.stepsPerMm a)) else s.planner.position a := by
      intro a
      rw [r4.2, r3.2, r2.2, r1.2]
    split at h
    · cases h; exact ⟨r4.1, .inl key⟩
    · cases h; exact ⟨r4.1, .inl key⟩
  · rename_i hb
    cases h
    refine ⟨r2.1, .inr ⟨fun a => (r2.2 a).trans (r1.2 a), ?_⟩⟩
    unfold clearEstop inEstop at h2
    obtain ⟨c, s5, h5, h2⟩ := bind_some.1 h2
    obtain ⟨_, s6, h6, h5⟩ := bind_some.1 h5
    cases h6
    cases h5
    split at h2
    · rename_i hc
      obtain ⟨d, s7, h7, h2⟩ := bind_some.1 h2
      have k7 : s7.hw = s1.hw := by
        unfold testEStop at h7
        obtain ⟨_, s8, h8, h7⟩ := bind_some.1 h7
        cases h8
        unfold testSwitch at h7
        split at h7 <;> cases h7 <;> rfl
      split at h2
      · obtain ⟨_, s9, h9, h2⟩ := bind_some.1 h2
        cases h9
        cases h2
        show s7.hw.estop = true
        rw [k7]; exact hc
      · obtain ⟨_, s9, h9, h2⟩ := bind_some.1 h2
        obtain ⟨_, s10, h10, h2⟩ := bind_some.1 h2
        obtain ⟨_, s11, h11, h2⟩ := bind_some.1 h2
        cases h2
        exact absurd rfl hb
    · cases h2
      exact absurd rfl hb

/-- Where the planner is after probing: if a position is reported, Z is there; otherwise nothing has changed. -/
theorem probe_place {feed : F} {axis : Axis} {s s' : State F β σ} {r : Option F}
    (h : probeAxis e feed axis s = some (r, s')) (hs : Inv e.A s.planner) : Inv e.A s'.planner ∧
      ∀ a, s'.planner.position a = match r with
        | none => s.planner.position a
        | some x => if a = axis then e.A.lround (e.A.mul x (e.plan.stepsPerMm axis)) else s.planner.position a := by
  unfold probeAxis at h
  obtain ⟨_, s1, h1, h⟩ := bind_some.1 h
  have r1 := Does.still hq h0 (does_allowedHoming e {}) (fun _ => rfl) rfl h1 hs
  split at h
  · cases h; exact r1
  · obtain ⟨_, s2, h2, h⟩ := bind_some.1 h
    have r2 := Does.still hq h0 (does_allowedEstop e {}) (fun _ => rfl) rfl h2 r1.1
    split at h
    · cases h; exact ⟨r2.1, fun a => (r2.2 a).trans (r1.2 a)⟩
    · obtain ⟨_, s3, h3, h⟩ := bind_some.1 h
      have r3 := Does.still hq h0 (Does.halt (e := e) (Q := Label.within {}) trivial) (fun _ => rfl) rfl h3 r2.1
      obtain ⟨_, s4, h4, h⟩ := bind_some.1 h
      cases h4
      split at h
      · cases h; exact ⟨r3.1, fun a => (r3.2 a).trans ((r2.2 a).trans (r1.2 a))⟩
      · obtain ⟨_, s5, h5, h⟩ := bind_some.1 h
        obtain ⟨_, s6, h6, h⟩ := bind_some.1 h
        cases h
        have hd := does_moveToProbe e { drive := fun b => b == axis } axis _ _ _ (by simp) _ _ _ h5
        have i5 : Inv e.A s5.planner := by obtain ⟨ls, ht, _⟩ := hd; exact trace_inv h0 ht r3.1
        refine ⟨step_inv h0 (l := .external axis) ⟨_, h6⟩ i5, fun a => ?_⟩
        rw [external_position h6]
        dsimp only
        split
        · rfl
        · rename_i ha
          rw [(Does.stillAt hq h0 (does_moveToProbe e { drive := fun b => b == axis } axis _ _ _ (by simp)) (by simp [ha]) rfl
            h5 r3.1).2, r3.2, r2.2, r1.2]

end
end BeagleG.Machine
