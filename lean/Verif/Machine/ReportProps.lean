import Verif.Machine.Report
import Verif.Machine.SyncProps
/-!
# C76 (position shown) and C79 (reports of switches and status)
-/
namespace BeagleG.Machine

open Planner (Axis Motor Arith Inv)
open Hardware

variable {F β σ N : Type} {e : Env F β σ} {acc : Motor → β → Int}

/-- **C76. The position shown** after any events, a move that was not refused, and a wait, is its target (rounded to
steps) relative to the origin that has been told. -/
theorem C76_position_shown (hq : Counts e.queue acc) (hr : Reports e.queue acc) (hd : e.plan.Disjoint)
    (h0 : e.A.eq e.A.zero e.A.zero = true) {evs : List (Event F)} {s0 s s1 s2 : State F β σ} (hs : Known e acc s0)
    (h : run e s0 evs = some s) {feed : F} {pos : Axis → F} {ev : Event F}
    (hev : ev = .coordinated feed pos ∨ ev = .rapid feed pos) (h1 : handle e ev s = some (.bool true, s1))
    {r : Answer F} (h2 : handle e .dwell s1 = some (r, s2))
    (hw : ∀ a m, (s2.hw.axisToDriver a).getLsbD m.val = e.plan.motorMap a m) {a : Axis} {m : Motor}
    (hm : e.plan.motorMap a m = true) (hz : e.A.eq (e.plan.stepsPerMm a) e.A.zero = false)
    (d : Display F N) (o : Axis → F) (n : N) :
    shownPosition e (d.inform o n) s2 a = e.A.sub
      (e.A.div (e.A.ofInt (e.A.lround (e.A.mul (pos a) (e.plan.stepsPerMm a)))) (e.plan.stepsPerMm a)) (o a) := by
  unfold shownPosition
  rw [C77_move_and_wait hq hr hd h0 hs h hev h1 h2 hw hm hz]
  rfl

/-- **C76. M114 and the status server agree**; M114 in addition shows the position in the machine, and the name that
has been told with the origin. -/
theorem C76_line (d : Display F N) (s : State F β σ) (o : Axis → F) (n : N) :
    let l := positionLine e (d.inform o n) s
    [l.x, l.y, l.z, l.e] = [0, 1, 2, 9].map (shownPosition e (d.inform o n) s) ∧
    [l.absX, l.absY, l.absZ] = [0, 1, 2].map (currentPosition e s) ∧ l.name = n := ⟨rfl, rfl, rfl⟩

/-- **C76.** "Confident" is said only of a machine that has been homed and whose motors have not been switched off
since, "unsure" only of one that is not homed. -/
theorem C76_confidence (d : Display F N) (s : State F β σ) :
    ((positionLine e d s).confidence = .confident ↔ s.homing = .homed) ∧
    ((positionLine e d s).confidence = .unsure ↔ s.homing = .never) := by
  unfold positionLine confidence
  cases s.homing <;> simp

/-! ### M119 -/

/-- The number of the switch. -/
def switchAt (h : Hw F) (axis : Axis) : Place → Nat
  | .min => h.minEndstop axis
  | .max => h.maxEndstop axis
  | .probe => h.probeInput

/-- What a reading of a place between two moments may say: the switch if it is connected; otherwise that an end is
open, and that the probe touches. -/
def Shows (e : Env F β σ) (h : Hw F) (i : SwitchItem) (from_ until_ : Nat) : Prop :=
  if h.initialized = true ∧ e.cape.switchPin (switchAt h i.axis i.place) ≠ 0 then
    ∃ t, from_ ≤ t ∧ t < until_ ∧ i.triggered = e.read t (switchAt h i.axis i.place)
  else i.triggered = decide (i.place = .probe)

/-- The item for a place. -/
structure Item (e : Env F β σ) (i : SwitchItem) : Prop where
  min : i.place = .min → (i.home = true ↔ e.cfg.homingTrigger i.axis = .min)
  max : i.place = .max → (i.home = true ↔ e.cfg.homingTrigger i.axis = .max)

theorem testSwitch_says {n : Nat} {d : Bool} {s s' : State F β σ} {b : Bool} (h : testSwitch e n d s = some (b, s')) :
    s' = { s with tick := s'.tick } ∧ s.tick ≤ s'.tick ∧
    if s.hw.initialized = true ∧ e.cape.switchPin n ≠ 0 then ∃ t, s.tick ≤ t ∧ t < s'.tick ∧ b = e.read t n else b = d := by
  unfold testSwitch at h
  split at h
  · rename_i hc
    cases h
    refine ⟨rfl, Nat.le_refl _, ?_⟩
    rw [if_neg]
    rintro ⟨h1, h2⟩
    simp only [h1, Bool.not_true, Bool.false_or, decide_eq_true_eq] at hc
    exact h2 hc
  · rename_i hc
    cases h
    refine ⟨rfl, Nat.le_succ _, ?_⟩
    rw [if_pos]
    · exact ⟨s.tick, Nat.le_refl _, Nat.lt_succ_self _, rfl⟩
    · simp only [Bool.or_eq_true, Bool.not_eq_true', decide_eq_true_eq, not_or, Bool.not_eq_false] at hc
      exact hc

theorem switchItem_says {a : Axis} {p : Place} {s s' : State F β σ} {l : List SwitchItem}
    (h : switchItem e a p s = some (l, s')) :
    s' = { s with tick := s'.tick } ∧ s.tick ≤ s'.tick ∧
    l.map (fun i => (i.axis, i.place)) = [(a, p)].filter (fun k => available s.hw k.1 k.2) ∧
    ∀ i ∈ l, Item e i ∧ Shows e s.hw i s.tick s'.tick := by
  unfold switchItem at h
  obtain ⟨_, s1, h1, h⟩ := bind_some.1 h
  cases h1
  split at h
  · rename_i ha
    cases p with
    | min =>
      dsimp only at h
      obtain ⟨t, s2, h2, h⟩ := bind_some.1 h
      cases h
      unfold testAxis at h2
      obtain ⟨_, s3, h3, h2⟩ := bind_some.1 h2
      cases h3
      obtain ⟨k1, k2, k3⟩ := testSwitch_says h2
      refine ⟨k1, k2, by simp [ha], ?_⟩
      intro i hi
      simp only [List.mem_singleton] at hi
      subst hi
      refine ⟨⟨by simp, by simp⟩, ?_⟩
      unfold Shows switchAt
      simp only [reduceCtorEq, decide_false]
      exact k3
    | max =>
      dsimp only at h
      obtain ⟨t, s2, h2, h⟩ := bind_some.1 h
      cases h
      unfold testAxis at h2
      obtain ⟨_, s3, h3, h2⟩ := bind_some.1 h2
      cases h3
      obtain ⟨k1, k2, k3⟩ := testSwitch_says h2
      refine ⟨k1, k2, by simp [ha], ?_⟩
      intro i hi
      simp only [List.mem_singleton] at hi
      subst hi
      refine ⟨⟨by simp, by simp⟩, ?_⟩
      unfold Shows switchAt
      simp only [reduceCtorEq, decide_false]
      exact k3
    | probe =>
      dsimp only at h
      obtain ⟨t, s2, h2, h⟩ := bind_some.1 h
      cases h
      unfold testProbe at h2
      obtain ⟨_, s3, h3, h2⟩ := bind_some.1 h2
      cases h3
      obtain ⟨k1, k2, k3⟩ := testSwitch_says h2
      refine ⟨k1, k2, by simp [ha], ?_⟩
      intro i hi
      simp only [List.mem_singleton] at hi
      subst hi
      refine ⟨⟨by simp, by simp⟩, ?_⟩
      unfold Shows switchAt
      simp only [decide_true]
      exact k3
  · rename_i ha
    cases h
    exact ⟨rfl, Nat.le_refl _, by simp [ha], by simp⟩

theorem Shows.mono {h : Hw F} {i : SwitchItem} {a b a' b' : Nat} (k : Shows e h i a b) (h1 : a' ≤ a) (h2 : b ≤ b') :
    Shows e h i a' b' := by
  unfold Shows at k ⊢
  split at k
  · rename_i hc
    rw [if_pos hc]
    obtain ⟨t, k1, k2, k3⟩ := k
    exact ⟨t, h1.trans k1, k2.trans_le h2, k3⟩
  · rename_i hc
    rw [if_neg hc]
    exact k

theorem switchItems_says : ∀ (ps : List (Axis × Place)) (s s' : State F β σ) (l : List SwitchItem),
    switchItems e ps s = some (l, s') →
    s' = { s with tick := s'.tick } ∧ s.tick ≤ s'.tick ∧
    l.map (fun i => (i.axis, i.place)) = ps.filter (fun k => available s.hw k.1 k.2) ∧
    ∀ i ∈ l, Item e i ∧ Shows e s.hw i s.tick s'.tick
  | [], s, s', l, h => by cases h; exact ⟨rfl, Nat.le_refl _, rfl, by simp⟩
  | (a, p) :: ps, s, s', l, h => by
    unfold switchItems at h
    obtain ⟨l1, s1, h1, h⟩ := bind_some.1 h
    obtain ⟨l2, s2, h2, h⟩ := bind_some.1 h
    cases h
    obtain ⟨k1, k2, k3, k4⟩ := switchItem_says h1
    obtain ⟨j1, j2, j3, j4⟩ := switchItems_says ps _ _ _ h2
    have hh : s1.hw = s.hw := by rw [k1]
    rw [hh] at j3 j4
    refine ⟨?_, k2.trans j2, ?_, ?_⟩
    · rw [j1, k1]
    · rw [List.map_append, k3, j3, ← List.filter_append]
      rfl
    · intro i hi
      rcases List.mem_append.1 hi with hi | hi
      · exact ⟨(k4 i hi).1, (k4 i hi).2.mono (Nat.le_refl _) j2⟩
      · exact ⟨(j4 i hi).1, (j4 i hi).2.mono k2 (Nat.le_refl _)⟩

/-- **C79. M119 lists the switches**: exactly the configured ends of the axes and the probe, each once and in the order
of the axes; an end is called `home` exactly if the axis is homed there; the state is that of a reading made now.
Nothing changes. -/
theorem C79_switches {s s' : State F β σ} {l : List SwitchItem} (h : switchLine e s = some (l, s')) :
    s' = { s with tick := s'.tick } ∧ s.tick ≤ s'.tick ∧
    l.map (fun i => (i.axis, i.place)) = places.filter (fun k => available s.hw k.1 k.2) ∧
    ∀ i ∈ l, Item e i ∧ Shows e s.hw i s.tick s'.tick := switchItems_says _ _ _ _ h

/-- All places are covered, none twice. -/
theorem C79_places : (∀ a p, (a, p) ∈ places) ∧ places.Nodup := by
  constructor
  · intro a p
    unfold places
    rw [List.mem_flatMap]
    exact ⟨a, List.mem_finRange a, by cases p <;> simp⟩
  · decide

/-- An end is listed if it is wired, in a dry run always; the probe belongs to Z and has to be wired. -/
theorem C79_available (h : Hw F) (a : Axis) :
    (available h a .min = true ↔ (h.initialized = true → h.minEndstop a ≠ 0)) ∧
    (available h a .max = true ↔ (h.initialized = true → h.maxEndstop a ≠ 0)) ∧
    (available h a .probe = true ↔ a = 2 ∧ h.probeInput ≠ 0) := by
  refine ⟨?_, ?_, ?_⟩
  · cases hi : h.initialized <;> simp [available, hi]
  · cases hi : h.initialized <;> simp [available, hi]
  · simp [available]

/-! ### Status -/

/-- **C79. The status**: emergency stop is reported exactly if the machine is in emergency stop, and as "hard" exactly if
the stop input then reads as active; pause and start are reported exactly if such an input is configured, homing and
motors as they are. Nothing changes. -/
theorem C79_status {s s' : State F β σ} {r : Status} (h : status e s = some (r, s')) :
    s' = { s with tick := s'.tick } ∧ (r.estop = .none ↔ s.hw.estop = false) ∧
    (r.estop = .hard ↔ s.hw.estop = true ∧ s.hw.initialized = true ∧ e.cape.switchPin s.hw.estopInput ≠ 0 ∧
      e.read s.tick s.hw.estopInput = true) ∧
    (r.pause = .none ↔ s.hw.pauseInput = 0) ∧ (r.start = .none ↔ s.hw.startInput = 0) ∧
    (r.pause = .active → ∃ t, s.tick ≤ t ∧ t < s'.tick ∧ e.read t s.hw.pauseInput = true) ∧
    (r.start = .inactive → ∃ t, s.tick ≤ t ∧ t < s'.tick ∧ e.read t s.hw.startInput = false) ∧
    r.homed = s.homing ∧ r.motors = s.hw.motorsEnabled := by
  unfold status at h
  obtain ⟨x, s1, h1, h⟩ := bind_some.1 h
  obtain ⟨y, s2, h2, h⟩ := bind_some.1 h
  obtain ⟨z, s3, h3, h⟩ := bind_some.1 h
  obtain ⟨_, s4, h4, h⟩ := bind_some.1 h
  cases h4
  cases h
  have a1 : s1 = { s with tick := s1.tick } ∧ s.tick ≤ s1.tick ∧ (x = .none ↔ s.hw.estop = false) ∧
      (x = .hard ↔ s.hw.estop = true ∧ s.hw.initialized = true ∧ e.cape.switchPin s.hw.estopInput ≠ 0 ∧
      e.read s.tick s.hw.estopInput = true) := by
    unfold estopStatus inEstop at h1
    obtain ⟨b, s5, h5, h1⟩ := bind_some.1 h1
    cases h5
    split at h1
    · rename_i hb
      have hb : s.hw.estop = true := hb
      obtain ⟨c, s6, h6, h1⟩ := bind_some.1 h1
      unfold testEStop at h6
      obtain ⟨_, s7, h7, h6⟩ := bind_some.1 h6
      cases h7
      unfold testSwitch at h6
      split at h6
      · rename_i hc
        cases h6
        cases h1
        refine ⟨rfl, Nat.le_refl _, by simp [hb], ?_⟩
        simp only [Bool.or_eq_true, Bool.not_eq_true', decide_eq_true_eq] at hc
        rcases hc with hc | hc <;> simp [hc]
      · rename_i hc
        simp only [Bool.or_eq_true, Bool.not_eq_true', decide_eq_true_eq, not_or, Bool.not_eq_false] at hc
        cases h6
        split at h1
        · rename_i hr
          cases h1
          exact ⟨rfl, Nat.le_succ _, by simp [hb], by simp [hb, hc.1, hc.2, hr]⟩
        · rename_i hr
          cases h1
          exact ⟨rfl, Nat.le_succ _, by simp [hb], by simp [hb, hc.1, hc.2, hr]⟩
    · rename_i hb
      have hb : s.hw.estop = false := by simpa using hb
      cases h1
      exact ⟨rfl, Nat.le_refl _, by simp [hb], by simp [hb]⟩
  have a2 : s2 = { s1 with tick := s2.tick } ∧ s1.tick ≤ s2.tick ∧ (y = .none ↔ s1.hw.pauseInput = 0) ∧
      (y = .active → ∃ t, s1.tick ≤ t ∧ t < s2.tick ∧ e.read t s1.hw.pauseInput = true) := by
    unfold pauseStatus at h2
    obtain ⟨b, s5, h5, h2⟩ := bind_some.1 h2
    cases h5
    split at h2
    · rename_i hb
      obtain ⟨c, s6, h6, h2⟩ := bind_some.1 h2
      unfold testPause at h6
      obtain ⟨_, s7, h7, h6⟩ := bind_some.1 h6
      cases h7
      obtain ⟨k1, k2, k3⟩ := testSwitch_says h6
      split at h2
      · rename_i hc
        cases h2
        refine ⟨k1, k2, by simp [hb], fun _ => ?_⟩
        split at k3
        · obtain ⟨t, k4, k5, k6⟩ := k3
          exact ⟨t, k4, k5, k6.symm.trans hc⟩
        · rw [k3] at hc; cases hc
      · cases h2
        exact ⟨k1, k2, by simp [hb], fun h => by cases h⟩
    · rename_i hb
      cases h2
      exact ⟨rfl, Nat.le_refl _, by simpa using hb, fun h => by cases h⟩
  have a3 : s' = { s2 with tick := s'.tick } ∧ s2.tick ≤ s'.tick ∧ (z = .none ↔ s2.hw.startInput = 0) ∧
      (z = .inactive → ∃ t, s2.tick ≤ t ∧ t < s'.tick ∧ e.read t s2.hw.startInput = false) := by
    unfold startStatus at h3
    obtain ⟨b, s5, h5, h3⟩ := bind_some.1 h3
    cases h5
    split at h3
    · rename_i hb
      obtain ⟨c, s6, h6, h3⟩ := bind_some.1 h3
      unfold testStart at h6
      obtain ⟨_, s7, h7, h6⟩ := bind_some.1 h6
      cases h7
      obtain ⟨k1, k2, k3⟩ := testSwitch_says h6
      split at h3
      · cases h3
        exact ⟨k1, k2, by simp [hb], fun h => by cases h⟩
      · rename_i hc
        cases h3
        refine ⟨k1, k2, by simp [hb], fun _ => ?_⟩
        split at k3
        · obtain ⟨t, k4, k5, k6⟩ := k3
          exact ⟨t, k4, k5, k6.symm.trans (by simpa using hc)⟩
        · rw [k3] at hc; exact absurd rfl hc
    · rename_i hb
      cases h3
      exact ⟨rfl, Nat.le_refl _, by simpa using hb, fun h => by cases h⟩
  obtain ⟨b1, b2, b3, b4⟩ := a1
  obtain ⟨c1, c2, c3, c4⟩ := a2
  obtain ⟨d1, d2, d3, d4⟩ := a3
  have hw1 : s1.hw = s.hw := by rw [b1]
  have hw2 : s2.hw = s.hw := by rw [c1]; exact hw1
  rw [hw1] at c3 c4
  rw [hw2] at d3 d4
  refine ⟨by rw [d1, c1, b1], b3, b4, c3, d3, ?_, ?_, ?_, ?_⟩
  · intro h
    obtain ⟨t, t1, t2, t3⟩ := c4 h
    exact ⟨t, by omega, by omega, t3⟩
  · intro h
    obtain ⟨t, t1, t2, t3⟩ := d4 h
    exact ⟨t, by omega, by omega, t3⟩
  · show s'.homing = _
    rw [d1, c1, b1]
  · show s'.hw.motorsEnabled = _
    rw [d1, c1, b1]

end BeagleG.Machine
