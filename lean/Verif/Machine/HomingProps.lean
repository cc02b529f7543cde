import Verif.Machine.EstopProps
import Verif.Planner.AssertProps
import Mathlib.Tactic.Ring
import Mathlib.Tactic.Tauto
/-!
# C60: homing finds the switches and sets the positions
-/
namespace BeagleG.Machine

open Planner (Axis Motor Arith Command Op)
open Hardware

variable {F β σ : Type} {e : Env F β σ}

/-- What the switches are connected to. -/
structure SameMap (h h' : Hw F) : Prop where
  initialized : h'.initialized = h.initialized
  minEndstop : h'.minEndstop = h.minEndstop
  maxEndstop : h'.maxEndstop = h.maxEndstop
  estopInput : h'.estopInput = h.estopInput

theorem SameMap.refl (h : Hw F) : SameMap h h := ⟨rfl, rfl, rfl, rfl⟩

theorem SameMap.trans {a b c : Hw F} (h : SameMap a b) (h' : SameMap b c) : SameMap a c :=
  ⟨h'.1.trans h.1, h'.2.trans h.2, h'.3.trans h.3, h'.4.trans h.4⟩

theorem Keep.sameMap {c : Cape} {h h' : Hw F} (k : Keep c h h') : SameMap h h' := by
  rw [k.same]; exact ⟨rfl, rfl, rfl, rfl⟩

/-- The switch at an end of an axis. -/
def endstop (h : Hw F) (axis : Axis) : Trigger → Nat
  | .none => 0
  | .min => h.minEndstop axis
  | .max => h.maxEndstop axis

theorem SameMap.endstop {h h' : Hw F} (k : SameMap h h') (axis : Axis) (t : Trigger) :
    endstop h' axis t = endstop h axis t := by
  cases t
  · rfl
  · exact congrFun k.minEndstop axis
  · exact congrFun k.maxEndstop axis

/-- One reading of a switch that exists. -/
theorem testSwitch_read {s : State F β σ} {n : Nat} {d : Bool} (hi : s.hw.initialized = true)
    (hn : e.cape.switchPin n ≠ 0) : testSwitch e n d s = some (e.read s.tick n, { s with tick := s.tick + 1 }) := by
  unfold testSwitch
  rw [if_neg (by simp [hi, hn])]

theorem testAxis_read {s : State F β σ} {axis : Axis} {t : Trigger} (ht : t ≠ .none) (hi : s.hw.initialized = true)
    (hn : e.cape.switchPin (endstop s.hw axis t) ≠ 0) :
    testAxis e axis t s = some (e.read s.tick (endstop s.hw axis t), { s with tick := s.tick + 1 }) := by
  cases t with
  | none => exact absurd rfl ht
  | min => exact testSwitch_read hi hn
  | max => exact testSwitch_read hi hn

/-- Reading the stop input: it may not exist, and is inactive then. -/
theorem testEStop_read {s s' : State F β σ} {b : Bool} (h : testEStop e s = some (b, s')) :
    ∃ k, s' = { s with tick := s.tick + k } ∧ (b = true → k = 1 ∧ e.read s.tick s.hw.estopInput = true) := by
  unfold testEStop at h
  obtain ⟨_, s1, h1, h⟩ := bind_some.1 h
  cases h1
  unfold testSwitch at h
  split at h
  · cases h; exact ⟨0, rfl, by simp⟩
  · cases h; exact ⟨1, rfl, fun h => ⟨rfl, h⟩⟩

/-- The planner was only asked to drive one axis by one distance, several times. -/
def Drove (e : Env F β σ) (axis : Axis) (distance : F) (k : Nat) (p p' : Planner.State F (Hw F × β)) : Prop :=
  ∃ ops : List (Op F), ops.length = k ∧ (∀ op ∈ ops, ∃ v0 v1 aux, op = .direct axis distance v0 v1 aux) ∧
    Planner.run e.A e.plan e.backend p ops = some p'

theorem Drove.zero {axis : Axis} {d : F} (p : Planner.State F (Hw F × β)) : Drove e axis d 0 p p :=
  ⟨[], rfl, by simp, rfl⟩

theorem drove_one {s s' : State F β σ} {axis : Axis} {d v0 v1 : F} {r : Int}
    (h : plannerDrive e axis d v0 v1 s = some (r, s')) :
    r = e.A.lround (e.A.mul d (e.plan.stepsPerMm axis)) ∧ s' = { s with planner := s'.planner } ∧
      Planner.step e.A e.plan e.backend s.planner (.direct axis d v0 v1 s.hw.auxBits.toNat) = some s'.planner := by
  unfold plannerDrive at h
  cases hb : Planner.directDrive e.A e.plan e.backend s.planner axis d v0 v1 s.hw.auxBits.toNat with
  | none => rw [hb] at h; cases h
  | some p =>
    rw [hb] at h; cases h
    refine ⟨?_, rfl, ?_⟩
    · unfold Planner.directDrive at hb
      cases hh : Planner.bringPathToHalt e.A e.plan e.backend s.planner with
      | none => rw [hh] at hb; cases hb
      | some q => rw [hh] at hb; cases hb; rfl
    · show (Planner.directDrive _ _ _ _ _ _ _ _ _).map Prod.fst = _
      rw [hb]; rfl

theorem Drove.cons {s s' : State F β σ} {axis : Axis} {d v0 v1 : F} {r : Int} {k : Nat} {p : Planner.State F (Hw F × β)}
    (h : plannerDrive e axis d v0 v1 s = some (r, s')) (h' : Drove e axis d k s'.planner p) :
    Drove e axis d (k + 1) s.planner p := by
  obtain ⟨_, _, h3⟩ := drove_one h
  obtain ⟨ops, h4, h5, h6⟩ := h'
  refine ⟨.direct axis d v0 v1 s.hw.auxBits.toNat :: ops, (by simp [h4]), ?_, ?_⟩
  · intro op hop
    rcases List.mem_cons.1 hop with rfl | hop
    · exact ⟨_, _, _, rfl⟩
    · exact h5 op hop
  · show List.foldlM _ _ _ = _
    rw [List.foldlM_cons, h3]
    exact h6

/-- The way to the switch: the axis is driven towards it, half a millimetre at a time, until the switch is read as
active, or the stop input is. -/
theorem approach_found (hl : Lawful e.cape e.queue) (hc : Sane e.cape) {axis : Axis} {t : Trigger} {dir : Int} {v1 : F}
    (ht : t ≠ .none) : ∀ (fuel : Nat) (v0 : F) (total : Int) (s s' : State F β σ) (r : Option (F × Int)),
    s.hw.initialized = true → e.cape.switchPin (endstop s.hw axis t) ≠ 0 →
    approach e axis t dir v1 fuel v0 total s = some (r, s') →
    SameMap s.hw s'.hw ∧ s' = { s with planner := s'.planner, tick := s'.tick } ∧ ∃ k last, s.tick ≤ last ∧ last + 1 = s'.tick ∧
      Drove e axis (e.A.mul (e.A.ofInt dir) (homingMm e)) k s.planner s'.planner ∧
      match r with
      | some q => e.read last (endstop s.hw axis t) = true ∧ q.2 = total + k *
          e.A.lround (e.A.mul (e.A.mul (e.A.ofInt dir) (homingMm e)) (e.plan.stepsPerMm axis))
      | none => e.read last s.hw.estopInput = true
  | 0, _, _, _, _, _, _, _, h => by cases h
  | fuel + 1, v0, total, s, s', r, hi, hn, h => by
    unfold approach at h
    obtain ⟨b, s1, h1, h⟩ := bind_some.1 h
    rw [testAxis_read ht hi hn] at h1
    cases h1
    split at h
    · rename_i hb
      cases h
      refine ⟨.refl _, rfl, 0, s.tick, Nat.le_refl _, rfl, .zero _, ?_⟩
      exact ⟨hb, by simp⟩
    · obtain ⟨b, s2, h2, h⟩ := bind_some.1 h
      obtain ⟨k, e2, hk⟩ := testEStop_read h2
      split at h
      · rename_i hb
        cases h
        obtain ⟨rfl, hr⟩ := hk hb
        subst e2
        exact ⟨.refl _, rfl, 0, s.tick + 1, Nat.le_succ _, rfl, .zero _, hr⟩
      · obtain ⟨d, s3, h3, h⟩ := bind_some.1 h
        obtain ⟨g1, g2, g3⟩ := drove_one h3
        have hm : SameMap s.hw s3.hw := by
          have := ((drive_rel (hl.respects hc) h3).2 : Keep e.cape s2.planner.backend.1 s3.planner.backend.1).sameMap
          subst e2
          exact this
        have hi3 : s3.hw.initialized = true := hm.initialized.trans hi
        have hn3 : e.cape.switchPin (endstop s3.hw axis t) ≠ 0 := by rw [hm.endstop]; exact hn
        obtain ⟨i1, i2, j, last, i3, i4, i5, i6⟩ := approach_found hl hc ht fuel v1 (total + d) s3 s' r hi3 hn3 h
        have ht3 : s3.tick = s.tick + 1 + k := by rw [g2, e2]
        refine ⟨hm.trans i1, ?_, j + 1, last, by omega, i4, ?_, ?_⟩
        · rw [i2, g2, e2]
        · have := Drove.cons h3 i5
          rw [e2] at this
          exact this
        · cases r with
          | none => rw [hm.estopInput] at i6; exact i6
          | some q =>
            rw [hm.endstop] at i6
            refine ⟨i6.1, i6.2.trans ?_⟩
            rw [g1]; push_cast; ring

/-- The way back: the axis is driven away from the switch in small steps, until the switch is read as inactive, or the
stop input as active. -/
theorem backOff_found (hl : Lawful e.cape e.queue) (hc : Sane e.cape) {axis : Axis} {t : Trigger} {dir : Int} {v0 v1 : F}
    (ht : t ≠ .none) : ∀ (fuel : Nat) (total : Int) (s s' : State F β σ) (r : Option Int),
    s.hw.initialized = true → e.cape.switchPin (endstop s.hw axis t) ≠ 0 →
    backOff e axis t dir v0 v1 fuel total s = some (r, s') →
    SameMap s.hw s'.hw ∧ s' = { s with planner := s'.planner, tick := s'.tick } ∧ ∃ k last, s.tick ≤ last ∧ last + 1 = s'.tick ∧
      Drove e axis (e.A.mul (e.A.ofInt (-dir)) (backoffMm e)) k s.planner s'.planner ∧
      match r with
      | some q => e.read last (endstop s.hw axis t) = false ∧ q = total + k *
          e.A.lround (e.A.mul (e.A.mul (e.A.ofInt (-dir)) (backoffMm e)) (e.plan.stepsPerMm axis))
      | none => e.read last s.hw.estopInput = true
  | 0, _, _, _, _, _, _, h => by cases h
  | fuel + 1, total, s, s', r, hi, hn, h => by
    unfold backOff at h
    obtain ⟨b, s1, h1, h⟩ := bind_some.1 h
    rw [testAxis_read ht hi hn] at h1
    cases h1
    split at h
    · obtain ⟨b, s2, h2, h⟩ := bind_some.1 h
      obtain ⟨k, e2, hk⟩ := testEStop_read h2
      split at h
      · rename_i hb
        cases h
        obtain ⟨rfl, hr⟩ := hk hb
        subst e2
        exact ⟨.refl _, rfl, 0, s.tick + 1, Nat.le_succ _, rfl, .zero _, hr⟩
      · obtain ⟨d, s3, h3, h⟩ := bind_some.1 h
        obtain ⟨g1, g2, g3⟩ := drove_one h3
        have hm : SameMap s.hw s3.hw := by
          have := ((drive_rel (hl.respects hc) h3).2 : Keep e.cape s2.planner.backend.1 s3.planner.backend.1).sameMap
          subst e2
          exact this
        have hi3 : s3.hw.initialized = true := hm.initialized.trans hi
        have hn3 : e.cape.switchPin (endstop s3.hw axis t) ≠ 0 := by rw [hm.endstop]; exact hn
        obtain ⟨i1, i2, j, last, i3, i4, i5, i6⟩ := backOff_found hl hc ht fuel (total + d) s3 s' r hi3 hn3 h
        have ht3 : s3.tick = s.tick + 1 + k := by rw [g2, e2]
        refine ⟨hm.trans i1, ?_, j + 1, last, by omega, i4, ?_, ?_⟩
        · rw [i2, g2, e2]
        · have := Drove.cons h3 i5
          rw [e2] at this
          exact this
        · cases r with
          | none => rw [hm.estopInput] at i6; exact i6
          | some q =>
            rw [hm.endstop] at i6
            refine ⟨i6.1, i6.2.trans ?_⟩
            rw [g1]; push_cast; ring
    · rename_i hb
      cases h
      refine ⟨.refl _, rfl, 0, s.tick, Nat.le_refl _, rfl, .zero _, ?_⟩
      exact ⟨Bool.eq_false_iff.2 hb, by simp⟩

/-- Direction of the switch. -/
def towards : Trigger → Int
  | .min => -1
  | _ => 1

/-- Between two states, the switch was searched: either the axis was driven `k` times towards the switch, after which it
was read as active, and then `j` times away from it, after which it was read as inactive, and `total` are the steps made;
or the stop input was read as active in the meantime. -/
structure Searched (e : Env F β σ) (axis : Axis) (t : Trigger) (total : Int) (s s' : State F β σ) : Prop where
  same : SameMap s.hw s'.hw
  rest : s' = { s with planner := s'.planner, tick := s'.tick }
  drives : ∃ k j mid, Drove e axis (e.A.mul (e.A.ofInt (towards t)) (homingMm e)) k s.planner mid ∧
    Drove e axis (e.A.mul (e.A.ofInt (-(towards t))) (backoffMm e)) j mid s'.planner ∧
    ((total = k * e.A.lround (e.A.mul (e.A.mul (e.A.ofInt (towards t)) (homingMm e)) (e.plan.stepsPerMm axis)) +
        j * e.A.lround (e.A.mul (e.A.mul (e.A.ofInt (-(towards t))) (backoffMm e)) (e.plan.stepsPerMm axis)) ∧
      ∃ on off, s.tick ≤ on ∧ on < off ∧ off + 1 = s'.tick ∧ e.read on (endstop s.hw axis t) = true ∧
        e.read off (endstop s.hw axis t) = false) ∨
    (total = 0 ∧ ∃ i, s.tick ≤ i ∧ i + 1 = s'.tick ∧ e.read i s.hw.estopInput = true))

/-- **C60, one switch.** -/
theorem C60_endstop (hl : Lawful e.cape e.queue) (hc : Sane e.cape) {axis : Axis} {t : Trigger} {feed : F} {total : Int}
    {s s' : State F β σ} (ht : t ≠ .none) (hi : s.hw.initialized = true)
    (hn : e.cape.switchPin (endstop s.hw axis t) ≠ 0) (h : moveToEndstop e axis feed t s = some (total, s')) :
    Searched e axis t total s s' := by
  unfold moveToEndstop at h
  obtain ⟨_, s1, h1, h⟩ := bind_some.1 h
  cases h1
  rw [hi] at h
  have hd : (if t = Trigger.min then (-1 : Int) else 1) = towards t := by cases t <;> rfl
  simp only [Bool.not_true, Bool.false_eq_true, if_false, hd] at h
  obtain ⟨r, s2, h2, h⟩ := bind_some.1 h
  obtain ⟨a1, a2, k, on, a3, a4, a5, a6⟩ := approach_found hl hc ht _ _ _ _ _ _ hi hn h2
  cases r with
  | none =>
    cases h
    exact ⟨a1, a2, k, 0, _, a5, .zero _, .inr ⟨rfl, on, a3, a4, a6⟩⟩
  | some q =>
    obtain ⟨v0, n⟩ := q
    dsimp only at h a6
    obtain ⟨r, s3, h3, h⟩ := bind_some.1 h
    have hi2 : s2.hw.initialized = true := a1.initialized.trans hi
    have hn2 : e.cape.switchPin (endstop s2.hw axis t) ≠ 0 := by rw [a1.endstop]; exact hn
    obtain ⟨b1, b2, j, off, b3, b4, b5, b6⟩ := backOff_found hl hc ht _ _ _ _ _ hi2 hn2 h3
    have hs : s3 = { s with planner := s3.planner, tick := s3.tick } := by rw [b2, a2]
    cases r with
    | none =>
      cases h
      refine ⟨a1.trans b1, hs, k, j, _, a5, b5, .inr ⟨rfl, off, by omega, b4, ?_⟩⟩
      rw [← a1.estopInput]; exact b6
    | some q =>
      cases h
      dsimp only at b6
      rw [a1.endstop] at b6
      refine ⟨a1.trans b1, hs, k, j, _, a5, b5, .inl ⟨?_, on, off, a3, by omega, b4, a6.1, b6.1⟩⟩
      rw [b6.2, a6.2]; ring

/-! ### The position -/

/-- At rest, at a position. -/
structure RestsAt (p : Planner.State F (Hw F × β)) (pos : Axis → Int) : Prop where
  halted : p.halted = true
  at_ : ∃ seg, p.buffer = [seg] ∧ seg.target.positionSteps = pos

theorem RestsAt.halt {p p' : Planner.State F (Hw F × β)} {pos : Axis → Int} (h : RestsAt p pos)
    (hb : Planner.bringPathToHalt e.A e.plan e.backend p = some p') : p' = p := by
  unfold Planner.bringPathToHalt at hb
  rw [if_pos h.halted] at hb
  exact (Option.some.inj hb).symm

theorem Drove.rests {axis : Axis} {d : F} {k : Nat} {p p' : Planner.State F (Hw F × β)} {pos : Axis → Int}
    (h : Drove e axis d k p p') (hr : RestsAt p pos) : RestsAt p' pos := by
  obtain ⟨ops, -, h2, h3⟩ := h
  clear k
  induction ops generalizing p with
  | nil => cases h3; exact hr
  | cons op ops ih =>
    obtain ⟨v0, v1, aux, rfl⟩ := h2 op (by simp)
    have h3 : List.foldlM _ _ _ = _ := h3
    rw [List.foldlM_cons] at h3
    obtain ⟨q, hq, h3⟩ := Option.bind_eq_some_iff.1 h3
    refine ih ?_ (fun op hop => h2 op (by simp [hop])) h3
    have hq : (Planner.directDrive e.A e.plan e.backend p axis d v0 v1 aux).map Prod.fst = some q := hq
    unfold Planner.directDrive at hq
    cases hb : Planner.bringPathToHalt e.A e.plan e.backend p with
    | none => rw [hb] at hq; cases hq
    | some p1 =>
      have := hr.halt hb
      subst this
      rw [hb] at hq; cases hq
      exact ⟨hr.halted, hr.at_⟩

theorem RestsAt.position {p : Planner.State F (Hw F × β)} {pos : Axis → Int} (h : RestsAt p pos) : p.position = pos := by
  obtain ⟨seg, hb, hp⟩ := h.at_
  funext a
  unfold Planner.State.position
  rw [hb, ← hp]
  rfl

/-- Bringing the path to a halt does not change the planned position. -/
theorem halt_rests {p p' : Planner.State F (Hw F × β)} (hi : Planner.Inv e.A p)
    (h : Planner.bringPathToHalt e.A e.plan e.backend p = some p') : RestsAt p' p.position := by
  unfold Planner.bringPathToHalt at h
  split at h
  · rename_i hh
    cases h
    obtain ⟨seg, hb, _⟩ := hi.rest hh
    refine ⟨hh, seg, hb, ?_⟩
    funext a
    unfold Planner.State.position
    rw [hb]
    rfl
  · have hlen : 0 < p.buffer.length := List.length_pos_iff.2 hi.nonempty
    unfold Planner.issue at h
    rw [Planner.numSegments_flush hlen, Planner.issueLoop_eq e.A e.plan e.backend _ p true hlen rfl] at h
    cases h
    exact ⟨rfl, _, rfl, rfl⟩

theorem external_rests {p p' : Planner.State F (Hw F × β)} {pos : Axis → Int} {axis : Axis} {x : F} (hr : RestsAt p pos)
    (h : Planner.setExternalPosition e.A e.plan e.backend p axis x = some p') :
    RestsAt p' (fun a => if a = axis then e.A.lround (e.A.mul x (e.plan.stepsPerMm axis)) else pos a) ∧
      p'.positionKnown = true := by
  obtain ⟨seg, hb, hp⟩ := hr.at_
  unfold Planner.setExternalPosition at h
  rw [hb] at h
  simp only [hr.halted, if_true] at h
  cases h
  exact ⟨⟨rfl, _, rfl, by rw [← hp]⟩, rfl⟩

/-- The steps of the home position. -/
def homeSteps (e : Env F β σ) (a : Axis) : Int := e.A.lround (e.A.mul (homePos e a) (e.plan.stepsPerMm a))

/-- Where homing puts the axes: at the home position if they have a switch, otherwise they stay. -/
def homed (e : Env F β σ) (axes : Axis → Bool) (l : List (Option Axis)) (pos : Axis → Int) (a : Axis) : Int :=
  if axes a = true ∧ some a ∈ l ∧ e.cfg.homingTrigger a ≠ .none then homeSteps e a else pos a

/-- Everything but planner and time. -/
structure SameRest (s s' : State F β σ) : Prop where
  map : SameMap s.hw s'.hw
  rest : s' = { s with planner := s'.planner, tick := s'.tick }
  tick : s.tick ≤ s'.tick

theorem SameRest.refl (s : State F β σ) : SameRest s s := ⟨.refl _, rfl, Nat.le_refl _⟩

theorem SameRest.trans {a b c : State F β σ} (h : SameRest a b) (h' : SameRest b c) : SameRest a c :=
  ⟨h.map.trans h'.map, by rw [h'.rest, h.rest], h.tick.trans h'.tick⟩

theorem halt_sameRest (hl : Lawful e.cape e.queue) (hc : Sane e.cape) {s s' : State F β σ} {r : Unit}
    (h : halt e s = some (r, s')) : SameRest s s' ∧
      Planner.bringPathToHalt e.A e.plan e.backend s.planner = some s'.planner := by
  refine ⟨⟨((halt_rel (hl.respects hc) h).2 : Keep e.cape s.planner.backend.1 s'.planner.backend.1).sameMap, ?_, ?_⟩, ?_⟩
  all_goals
    unfold halt at h
    cases hb : Planner.bringPathToHalt e.A e.plan e.backend s.planner with
    | none => rw [hb] at h; cases h
    | some p => rw [hb] at h; cases h; rfl

theorem external_sameRest (hl : Lawful e.cape e.queue) (hc : Sane e.cape) {s s' : State F β σ} {r : Unit} {a : Axis} {x : F}
    (h : plannerExternal e a x s = some (r, s')) : SameRest s s' ∧
      Planner.setExternalPosition e.A e.plan e.backend s.planner a x = some s'.planner := by
  refine ⟨⟨((external_rel (hl.respects hc) h).2 : Keep e.cape s.planner.backend.1 s'.planner.backend.1).sameMap, ?_, ?_⟩, ?_⟩
  all_goals
    unfold plannerExternal at h
    cases hb : Planner.setExternalPosition e.A e.plan e.backend s.planner a x with
    | none => rw [hb] at h; cases h
    | some p => rw [hb] at h; cases h; rfl

theorem Searched.tick {axis : Axis} {t : Trigger} {total : Int} {s s' : State F β σ} (h : Searched e axis t total s s') :
    s.tick ≤ s'.tick := by
  obtain ⟨_, _, _, _, _, ⟨_, _, _, _⟩ | ⟨_, _, _⟩⟩ := h.drives <;> omega

/-- Homing one axis from rest. -/
theorem homeAxis_found (hl : Lawful e.cape e.queue) (hc : Sane e.cape) {axis : Axis} {s s' : State F β σ} {r : Unit}
    {pos : Axis → Int} (ht : e.cfg.homingTrigger axis ≠ .none) (hi : s.hw.initialized = true)
    (hn : e.cape.switchPin (endstop s.hw axis (e.cfg.homingTrigger axis)) ≠ 0) (hr : RestsAt s.planner pos)
    (h : homeAxis e axis s = some (r, s')) :
    SameRest s s' ∧ RestsAt s'.planner (fun a => if a = axis then homeSteps e axis else pos a) ∧
      s'.planner.positionKnown = true ∧
      ∃ u total, Searched e axis (e.cfg.homingTrigger axis) total s u ∧ SameRest u s' := by
  unfold homeAxis at h
  simp only [if_neg ht] at h
  obtain ⟨_, s1, h1, h⟩ := bind_some.1 h
  obtain ⟨c1, g1⟩ := halt_sameRest hl hc h1
  have e1 : s1 = s := by
    rw [c1.rest, hr.halt g1]
    have : s1.tick = s.tick := (halt_rel (respects_true e.backend) h1).1.tick
    rw [this]
  rw [e1] at h
  clear h1 c1 g1 e1
  obtain ⟨total, u, h2, h⟩ := bind_some.1 h
  have k := C60_endstop hl hc ht hi hn h2
  obtain ⟨c3, g3⟩ := external_sameRest hl hc h
  have hu : RestsAt u.planner pos := by
    obtain ⟨_, _, _, d1, d2, _⟩ := k.drives
    exact d2.rests (d1.rests hr)
  obtain ⟨r1, r2⟩ := external_rests hu g3
  exact ⟨SameRest.trans ⟨k.same, k.rest, k.tick⟩ c3, r1, r2, u, total, k, c3⟩

theorem homeAll_cons (axes : Axis → Bool) (a : Axis) (rest : List (Option Axis)) (s : State F β σ) :
    homeAll e axes (some a :: rest) s =
      ((if axes a = true then homeAxis e a else pure ()) >>= fun _ => homeAll e axes rest) s := by
  show (if axes a = true then _ else _ : M F β σ Unit) s = _
  by_cases hx : axes a = true
  · rw [if_pos hx, if_pos hx]
  · rw [if_neg hx, if_neg hx]; rfl

/-- The loop over the axes. -/
theorem homeAll_found (hl : Lawful e.cape e.queue) (hc : Sane e.cape) {axes : Axis → Bool} :
    ∀ (l : List (Option Axis)) (s s' : State F β σ) (r : Unit) (pos : Axis → Int), s.hw.initialized = true →
    (∀ a, e.cfg.homingTrigger a ≠ .none → e.cape.switchPin (endstop s.hw a (e.cfg.homingTrigger a)) ≠ 0) →
    RestsAt s.planner pos → homeAll e axes l s = some (r, s') →
    SameRest s s' ∧ RestsAt s'.planner (homed e axes l pos) ∧
      ∀ a, axes a = true → some a ∈ l → e.cfg.homingTrigger a ≠ .none →
        ∃ u u' total, SameRest s u ∧ Searched e a (e.cfg.homingTrigger a) total u u' ∧ SameRest u' s'
  | [], s, s', r, pos, _, _, hr, h => by
    cases h
    refine ⟨.refl _, ?_, by simp⟩
    have : homed e axes [] pos = pos := by funext a; simp [homed]
    rw [this]; exact hr
  | none :: rest, s, s', r, pos, hi, hn, hr, h => by
    obtain ⟨k1, k2, k3⟩ := homeAll_found hl hc rest s s' r pos hi hn hr h
    refine ⟨k1, ?_, fun a h1 h2 h3 => k3 a h1 (by simpa using h2) h3⟩
    have : homed e axes (none :: rest) pos = homed e axes rest pos := by funext a; simp [homed]
    rw [this]; exact k2
  | some a :: rest, s, s', r, pos, hi, hn, hr, h => by
    rw [homeAll_cons] at h
    obtain ⟨_, s1, h1, h⟩ := bind_some.1 h
    by_cases ha : axes a = true ∧ e.cfg.homingTrigger a ≠ .none
    · simp only [ha.1, if_true] at h1
      obtain ⟨c1, c2, _, u, total, c3, c4⟩ := homeAxis_found hl hc ha.2 hi (hn a ha.2) hr h1
      obtain ⟨k1, k2, k3⟩ := homeAll_found hl hc rest s1 s' r _ (c1.map.initialized.trans hi)
        (fun b hb => by rw [c1.map.endstop]; exact hn b hb) c2 h
      refine ⟨c1.trans k1, ?_, fun b h1 h2 h3 => ?_⟩
      · convert k2 using 1
        funext b
        by_cases hb : b = a
        · subst hb; simp [homed, ha.1, ha.2]
        · simp [homed, hb]
      · by_cases hb : b = a
        · subst hb
          exact ⟨s, u, total, .refl _, c3, c4.trans k1⟩
        · obtain ⟨u, u', n, j1, j2, j3⟩ := k3 b h1 (by simpa [hb] using h2) h3
          exact ⟨u, u', n, c1.trans j1, j2, j3⟩
    · have e1 : s1 = s := by
        by_cases hx : axes a = true
        · have ht : e.cfg.homingTrigger a = .none := by simpa [hx] using ha
          simp only [hx, if_true] at h1
          unfold homeAxis at h1
          simp only [ht, if_true] at h1
          cases h1; rfl
        · simp only [hx] at h1
          cases h1; rfl
      rw [e1] at h
      obtain ⟨k1, k2, k3⟩ := homeAll_found hl hc rest s s' r pos hi hn hr h
      refine ⟨k1, ?_, fun b h1 h2 h3 => k3 b h1 ?_ h3⟩
      · convert k2 using 1
        funext b
        by_cases hb : b = a
        · subst hb
          have : ¬ (axes b = true ∧ e.cfg.homingTrigger b ≠ .none) := ha
          unfold homed
          rw [if_neg (by tauto), if_neg (by tauto)]
        · simp [homed, hb]
      · rcases List.mem_cons.1 h2 with h2 | h2
        · cases h2; exact absurd ⟨h1, h3⟩ ha
        · exact h2

/-! ### `G28` -/

theorem setAux_sameMap (c : Cape) (h : Hw F) : SameMap h (setAuxOutputs c h) := by
  obtain ⟨l, hl⟩ := setAuxOutputs_touches (c := c) h
  rw [hl]
  clear hl
  induction l generalizing h with
  | nil => exact .refl _
  | cons a l ih =>
    refine SameMap.trans ?_ (ih _)
    cases a with
    | aux i v =>
      show SameMap h (h.write _ _)
      rw [write_same]; exact ⟨rfl, rfl, rfl, rfl⟩
    | enable on =>
      show SameMap h (enableMotors c h on)
      rw [enableMotors_same]; exact ⟨rfl, rfl, rfl, rfl⟩

theorem flag_sameMap (h : Hw F) (o : Output) (on : Bool) : SameMap h (updateAuxBitmap h o on) := by
  unfold updateAuxBitmap
  cases o <;> cases on <;> exact ⟨rfl, rfl, rfl, rfl⟩

/-- `clear_estop`. -/
theorem clearEstop_cases {s s' : State F β σ} {b : Bool} (h : clearEstop e s = some (b, s')) :
    SameMap s.hw s'.hw ∧ s.tick ≤ s'.tick ∧ s'.planner.buffer = s.planner.buffer ∧ s'.planner.halted = s.planner.halted ∧
      s'.homing = s.homing ∧ (b = false → s'.out = s.out ++ [.stillHardEstop] ∧ s'.hw = s.hw) := by
  unfold clearEstop inEstop at h
  obtain ⟨x, s1, h1, h⟩ := bind_some.1 h
  cases h1
  split at h
  · obtain ⟨y, s2, h2, h⟩ := bind_some.1 h
    obtain ⟨k, e2, _⟩ := testEStop_read h2
    subst e2
    split at h
    · cases h
      exact ⟨.refl _, Nat.le_add_right _ _, rfl, rfl, rfl, fun _ => ⟨rfl, rfl⟩⟩
    · cases h
      exact ⟨(flag_sameMap _ _ _).trans (setAux_sameMap _ _), Nat.le_add_right _ _, rfl, rfl, rfl, by simp⟩
  · cases h
    exact ⟨.refl _, Nat.le_refl _, rfl, rfl, rfl, by simp⟩

theorem setEstop_never {hard : Bool} {s s' : State F β σ} {r : Unit} (h : setEstop e hard s = some (r, s')) :
    s'.homing = .never := by
  unfold setEstop at h
  obtain ⟨_, _, _, h⟩ := bind_some.1 h
  obtain ⟨_, _, _, h⟩ := bind_some.1 h
  obtain ⟨_, _, _, h⟩ := bind_some.1 h
  obtain ⟨_, _, _, h⟩ := bind_some.1 h
  cases h
  rfl

/-- `check_for_estop` without a stop. -/
theorem checkForEstop_cases {s s' : State F β σ} {b : Bool} (h : checkForEstop e s = some (b, s')) :
    (b = true ∧ s'.homing = .never) ∨ (b = false ∧ ∃ k, s' = { s with tick := s.tick + k }) := by
  unfold checkForEstop inEstop at h
  obtain ⟨x, s1, h1, h⟩ := bind_some.1 h
  cases h1
  split at h
  · cases h; exact .inr ⟨rfl, 0, rfl⟩
  · obtain ⟨y, s2, h2, h⟩ := bind_some.1 h
    obtain ⟨k, e2, _⟩ := testEStop_read h2
    split at h
    · obtain ⟨_, s3, h3, h⟩ := bind_some.1 h
      cases h
      exact .inl ⟨rfl, setEstop_never h3⟩
    · cases h; exact .inr ⟨rfl, k, e2⟩

/-- What homing needs to know about the machine: it is initialised, and the switch of every axis with a home position
is connected (checked at the start by `GCodeMachineControl::Impl::Init`). -/
structure Wired (e : Env F β σ) (h : Hw F) : Prop where
  initialized : h.initialized = true
  switches : ∀ a, e.cfg.homingTrigger a ≠ .none → e.cape.switchPin (endstop h a (e.cfg.homingTrigger a)) ≠ 0

theorem Wired.same {h h' : Hw F} (w : Wired e h) (k : SameMap h h') : Wired e h' :=
  ⟨k.initialized.trans w.initialized, fun a ha => by rw [k.endstop]; exact w.switches a ha⟩

/-- **C60. Homing**: `G28` either refuses (the stop input is still active), or ends in an emergency stop, or the machine
is homed; then every requested axis of the home order that has a switch was driven to its switch and back as described by
`Searched`, its position is that of the configured end, and all others have the position they had before. -/
theorem C60_home_partial (hl : Lawful e.cape e.queue) (hc : Sane e.cape) {axes : Axis → Bool} {s s' : State F β σ} {r : Unit}
    (hi : Planner.Inv e.A s.planner) (hw : Wired e s.hw) (h : goHome e axes s = some (r, s')) :
    (s'.homing = s.homing ∧ s'.out = s.out ++ [.stillHardEstop] ∧ RestsAt s'.planner s.planner.position) ∨
    s'.homing = .never ∨
    (s'.homing = .homed ∧ RestsAt s'.planner (homed e axes e.cfg.homeOrder s.planner.position) ∧
      ∀ a, axes a = true → some a ∈ e.cfg.homeOrder → e.cfg.homingTrigger a ≠ .none →
        ∃ u u' total, s.tick ≤ u.tick ∧ SameMap s.hw u.hw ∧ Searched e a (e.cfg.homingTrigger a) total u u' ∧
          u'.tick ≤ s'.tick) := by
  unfold goHome at h
  obtain ⟨_, s1, h1, h⟩ := bind_some.1 h
  obtain ⟨c1, g1⟩ := halt_sameRest hl hc h1
  have r1 := halt_rests hi g1
  obtain ⟨b, s2, h2, h⟩ := bind_some.1 h
  obtain ⟨d1, d2, d3, d4, d5, d6⟩ := clearEstop_cases h2
  have r2 : RestsAt s2.planner s.planner.position := by
    obtain ⟨seg, hb, hp⟩ := r1.at_
    exact ⟨d4.trans r1.halted, seg, d3.trans hb, hp⟩
  have ho : s1.homing = s.homing := (halt_rel (respects_true e.backend) h1).1.homing
  have hout : s1.out = s.out := (halt_rel (respects_true e.backend) h1).1.out
  cases b with
  | false =>
    cases h
    refine .inl ⟨d5.trans ho, ?_, r2⟩
    rw [(d6 rfl).1, hout]
  | true =>
    right
    simp only [if_true] at h
    obtain ⟨_, s3, h3, h⟩ := bind_some.1 h
    have w2 : Wired e s2.hw := (hw.same c1.map).same d1
    obtain ⟨k1, k2, k3⟩ := homeAll_found hl hc _ _ _ _ _ w2.initialized w2.switches r2 h3
    obtain ⟨b, s4, h4, h⟩ := bind_some.1 h
    rcases checkForEstop_cases h4 with ⟨rfl, hn⟩ | ⟨rfl, k, e4⟩
    · cases h; exact .inl hn
    · right
      simp only [Bool.false_eq_true, if_false] at h
      cases h
      subst e4
      refine ⟨rfl, k2, fun a ha hm ht => ?_⟩
      obtain ⟨u, u', n, j1, j2, j3⟩ := k3 a ha hm ht
      exact ⟨u, u', n, (c1.tick.trans d2).trans j1.tick, (c1.map.trans d1).trans j1.map, j2,
        j3.tick.trans (Nat.le_add_right _ _)⟩

/-- **C60, the switch was found** if the stop input was never read as active while homing: during the homing the switch
was read as active and after that as inactive. -/
theorem C60_found (hl : Lawful e.cape e.queue) (hc : Sane e.cape) {axes : Axis → Bool} {s s' : State F β σ} {r : Unit}
    (hi : Planner.Inv e.A s.planner) (hw : Wired e s.hw) (h : goHome e axes s = some (r, s')) (hh : s'.homing = .homed)
    (hs : s.homing ≠ .homed) (hstop : ∀ i, s.tick ≤ i → i < s'.tick → e.read i s.hw.estopInput = false) {a : Axis}
    (ha : axes a = true) (hm : some a ∈ e.cfg.homeOrder) (ht : e.cfg.homingTrigger a ≠ .none) :
    s'.planner.position a = homeSteps e a ∧ ∃ on off, s.tick ≤ on ∧ on < off ∧ off < s'.tick ∧
      e.read on (endstop s.hw a (e.cfg.homingTrigger a)) = true ∧
      e.read off (endstop s.hw a (e.cfg.homingTrigger a)) = false := by
  rcases C60_home_partial hl hc hi hw h with ⟨h1, _⟩ | h1 | ⟨_, h2, h3⟩
  · exact absurd (h1.symm.trans hh) hs
  · rw [h1] at hh; cases hh
  · refine ⟨?_, ?_⟩
    · rw [h2.position]
      unfold homed
      rw [if_pos ⟨ha, hm, ht⟩]
    · obtain ⟨u, u', n, j1, j2, j3, j4⟩ := h3 a ha hm ht
      obtain ⟨_, _, _, _, _, ⟨_, on, off, i1, i2, i3, i4, i5⟩ | ⟨_, i, i1, i2, i3⟩⟩ := j3.drives
      · rw [j2.endstop] at i4 i5
        exact ⟨on, off, by omega, i2, by omega, i4, i5⟩
      · rw [j2.estopInput, hstop i (by omega) (by omega)] at i3
        cases i3

/-- The home position: 0 at the lower end, the move range at the upper end. -/
theorem C60_home_position (a : Axis) :
    (e.cfg.homingTrigger a = .max → homePos e a = e.cfg.moveRange a) ∧
    (e.cfg.homingTrigger a = .min → homePos e a = e.A.zero) :=
  ⟨fun h => by unfold homePos; rw [if_pos h], fun h => by unfold homePos; rw [if_neg (by rw [h]; decide)]⟩

end BeagleG.Machine
