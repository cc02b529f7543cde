import Verif.Machine.StopProps
/-!
# C48: switching off motors and fan after idle time

Specification: in terms of events, messages, calls of `MotorEnable(false)` (a `Counter` counts them), outputs
of the hardware and readings of the clock. `Fires`: in an event, `MotorEnable(false)` was called more often than
emergency stops were announced.
-/
namespace BeagleG.Machine

open Planner (Axis Motor Arith Command)
open Hardware

variable {F β σ : Type} (e : Env F β σ)

/-- The message announces an emergency stop. -/
def Msg.isStop : Msg → Bool
  | .stopped _ => true
  | _ => false

/-- Specification: the emergency stops announced so far. -/
def State.stops (s : State F β σ) : Nat := s.out.countP Msg.isStop

variable {cnt : β → Nat}

/-- Specification: the motors were switched off for another reason than an emergency stop. -/
def Fires (cnt : β → Nat) (s s' : State F β σ) : Prop :=
  s.disabled cnt + s'.stops < s'.disabled cnt + s.stops

/-- Every switching off was an emergency stop and vice versa. -/
def Balanced (cnt : β → Nat) (s s' : State F β σ) : Prop :=
  s.disabled cnt + s'.stops = s'.disabled cnt + s.stops

theorem Balanced.trans {s s' s'' : State F β σ} (h : Balanced cnt s s') (h' : Balanced cnt s' s'') :
    Balanced cnt s s'' := by
  unfold Balanced at *
  omega

theorem step_balanced (hc : Counter e.queue cnt) {l : Label F} {s s' : State F β σ} (h : Step e l s s')
    (h1 : ∀ hard, l ≠ .stopped hard) (h2 : ∀ on, l ≠ .enable on) : Balanced cnt s s' := by
  have key : s'.out = s.out → s'.disabled cnt = s.disabled cnt → Balanced cnt s s' := by
    intro h3 h4
    unfold Balanced State.stops
    rw [h3, h4]
  have hR := hc.respects e rfl
  cases l with
  | say m =>
    obtain ⟨hm, h⟩ := h
    subst h
    have : Msg.isStop m = false := by
      cases m <;> first | rfl | exact absurd rfl (hm _)
    unfold Balanced State.stops
    simp [this]
    rfl
  | stopped hard => exact absurd rfl (h1 hard)
  | flag o on => obtain ⟨_, h⟩ := h; subst h; exact key rfl rfl
  | spindle => obtain ⟨_, _, h⟩ := h; subst h; exact key rfl rfl
  | halt => obtain ⟨h1, h2⟩ := halt_rel hR h; exact key h1.out h2
  | move => obtain ⟨_, _, _, h⟩ := h; obtain ⟨h1, h2⟩ := move_rel hR h; exact key h1.out h2
  | drive => obtain ⟨_, _, _, _, h⟩ := h; obtain ⟨h1, h2⟩ := drive_rel hR h; exact key h1.out h2
  | external => obtain ⟨_, h⟩ := h; obtain ⟨h1, h2⟩ := external_rel hR h; exact key h1.out h2
  | enable on => exact absurd rfl (h2 on)
  | wait => subst h; exact key rfl (hc.wait _)
  | lookahead =>
    obtain ⟨n, h⟩ := h
    subst h
    refine key rfl ?_
    unfold State.disabled Planner.setLookahead
    split <;> rfl
  | _ => subst h; exact key rfl rfl

theorem trace_balanced (hc : Counter e.queue cnt) {ls : List (Label F)} {s s' : State F β σ}
    (h : Trace e s ls s') (h1 : ∀ l ∈ ls, ∀ hard, l ≠ .stopped hard) (h2 : ∀ l ∈ ls, ∀ on, l ≠ .enable on) :
    Balanced cnt s s' := by
  induction h with
  | nil => rfl
  | cons h3 _ ih =>
    exact (step_balanced e hc h3 (h1 _ List.mem_cons_self) (h2 _ List.mem_cons_self)).trans
      (ih (fun l hm => h1 l (List.mem_cons_of_mem _ hm)) fun l hm => h2 l (List.mem_cons_of_mem _ hm))

theorem does_balanced (hc : Counter e.queue cnt) {α : Type} {p : Powers} {m : M F β σ α}
    (hp : p.stop = false) (hp' : p.enable = false) (h : Does e (Label.within p) m)
    {s s' : State F β σ} {a : α} (hm : m s = some (a, s')) : Balanced cnt s s' := by
  obtain ⟨ls, ht, hl⟩ := h _ _ _ hm
  refine trace_balanced e hc ht (fun l hm hard hh => ?_) (fun l hm on hh => ?_)
  · subst hh
    have := hl _ hm
    simp [Label.within, hp] at this
  · subst hh
    have := hl _ hm
    simp [Label.within, hp'] at this

/-- The number of readings never decreases; the timers are changed only by their own steps. -/
theorem step_tick {l : Label F} {s s' : State F β σ} (h : Step e l s s') :
    s.tick ≤ s'.tick ∧
    ((∀ m f, l ≠ .timers m f) → s'.nextMotor = s.nextMotor ∧ s'.nextFan = s.nextFan) := by
  have key : s'.tick = s.tick → s'.nextMotor = s.nextMotor → s'.nextFan = s.nextFan →
      s.tick ≤ s'.tick ∧
      ((∀ m f, l ≠ .timers m f) → s'.nextMotor = s.nextMotor ∧ s'.nextFan = s.nextFan) :=
    fun h1 h2 h3 => ⟨h1.ge, fun _ => ⟨h2, h3⟩⟩
  have hR := respects_true e.backend
  cases l with
  | say m => obtain ⟨hm, h⟩ := h; subst h; exact key rfl rfl rfl
  | stopped hard => obtain ⟨hm, h⟩ := h; subst h; exact key rfl rfl rfl
  | flag o on => obtain ⟨_, h⟩ := h; subst h; exact key rfl rfl rfl
  | spindle => obtain ⟨_, _, h⟩ := h; subst h; exact key rfl rfl rfl
  | halt => obtain ⟨h, _⟩ := halt_rel hR h; exact key h.tick h.nextMotor h.nextFan
  | move => obtain ⟨_, _, _, h⟩ := h; obtain ⟨h, _⟩ := move_rel hR h; exact key h.tick h.nextMotor h.nextFan
  | drive =>
    obtain ⟨_, _, _, _, h⟩ := h; obtain ⟨h, _⟩ := drive_rel hR h; exact key h.tick h.nextMotor h.nextFan
  | external => obtain ⟨_, h⟩ := h; obtain ⟨h, _⟩ := external_rel hR h; exact key h.tick h.nextMotor h.nextFan
  | lookahead => obtain ⟨n, h⟩ := h; subst h; exact key rfl rfl rfl
  | tick => subst h; exact ⟨Nat.le_succ _, fun _ => ⟨rfl, rfl⟩⟩
  | timers m f => subst h; exact ⟨Nat.le_refl _, fun h => absurd rfl (h m f)⟩
  | _ => subst h; exact key rfl rfl rfl

theorem trace_tick {ls : List (Label F)} {s s' : State F β σ} (h : Trace e s ls s') :
    s.tick ≤ s'.tick ∧
    ((∀ l ∈ ls, ∀ m f, l ≠ .timers m f) → s'.nextMotor = s.nextMotor ∧ s'.nextFan = s.nextFan) := by
  induction h with
  | nil => exact ⟨Nat.le_refl _, fun _ => ⟨rfl, rfl⟩⟩
  | cons h1 _ ih =>
    have h2 := step_tick e h1
    refine ⟨h2.1.trans ih.1, fun hl => ?_⟩
    have h3 := ih.2 fun l hm => hl l (List.mem_cons_of_mem _ hm)
    have h4 := h2.2 (hl _ List.mem_cons_self)
    exact ⟨h3.1.trans h4.1, h3.2.trans h4.2⟩

theorem does_tick {α : Type} {p : Powers} {m : M F β σ α} (h : Does e (Label.within p) m)
    {s s' : State F β σ} {a : α} (hm : m s = some (a, s')) :
    s.tick ≤ s'.tick ∧ (p.timers = false → s'.nextMotor = s.nextMotor ∧ s'.nextFan = s.nextFan) := by
  obtain ⟨ls, ht, hl⟩ := h _ _ _ hm
  refine ⟨(trace_tick e ht).1, fun hp => (trace_tick e ht).2 fun l hm m f hh => ?_⟩
  subst hh
  have := hl _ hm
  simp [Label.within, hp] at this

/-- `motors_enable(false)`: one call of `MotorEnable(false)`. -/
theorem motorsEnable_off (hc : Counter e.queue cnt) {s s' : State F β σ}
    (h : motorsEnable e false s = some ((), s')) :
    s'.disabled cnt = s.disabled cnt + 1 ∧ s'.out = s.out ∧ s'.tick = s.tick ∧
      s'.nextMotor = s.nextMotor ∧ s'.nextFan = s.nextFan := by
  unfold motorsEnable at h
  obtain ⟨_, u1, j1, h⟩ := bind_some.1 h
  obtain ⟨_, u2, j2, h⟩ := bind_some.1 h
  have j2 := (Prod.mk.injEq ..).mp (Option.some.inj j2) |>.2
  have h := (Prod.mk.injEq ..).mp (Option.some.inj h) |>.2
  obtain ⟨k1, k2⟩ := halt_rel (hc.respects e rfl) j1
  have : s' = { u2 with homing := s'.homing } := by
    rw [← h]
    dsimp only
    split <;> rfl
  rw [this, ← j2]
  refine ⟨?_, k1.out, k1.tick, k1.nextMotor, k1.nextFan⟩
  show cnt (e.queue.motorEnable u1.planner.backend false).2 = _
  rw [hc.off, k2]
  rfl

theorem setEstop_balanced (hc : Counter e.queue cnt) {hard : Bool} {s s' : State F β σ}
    (h : setEstop e hard s = some ((), s')) : Balanced cnt s s' := by
  unfold setEstop at h
  obtain ⟨_, t1, k1, h⟩ := bind_some.1 h
  obtain ⟨_, t2, k2, h⟩ := bind_some.1 h
  obtain ⟨_, t3, k3, h⟩ := bind_some.1 h
  obtain ⟨_, t4, k4, h⟩ := bind_some.1 h
  obtain ⟨_, t5, k5, h⟩ := bind_some.1 h
  cases h
  cases k5
  have b1 := does_balanced e hc (p := {}) rfl rfl (does_spindleOff e _) k1
  have k2 := (Prod.mk.injEq ..).mp (Option.some.inj k2) |>.2
  have k3 := (Prod.mk.injEq ..).mp (Option.some.inj k3) |>.2
  have d2 : t2.disabled cnt = t1.disabled cnt ∧ t2.out = t1.out := by rw [← k2]; exact ⟨rfl, rfl⟩
  have d3 : t3.disabled cnt = t2.disabled cnt ∧ t3.out = t2.out := by rw [← k3]; exact ⟨rfl, rfl⟩
  have d4 := motorsEnable_off e hc k4
  unfold Balanced State.stops at *
  show _ = t4.disabled cnt + _
  dsimp only
  rw [List.countP_append, d4.1, d4.2.1, d3.1, d3.2, d2.1, d2.2]
  have : List.countP Msg.isStop [Msg.stopped hard] = 1 := rfl
  omega

theorem check_balanced (hc : Counter e.queue cnt) {s s' : State F β σ} {b : Bool}
    (h : checkForEstop e s = some (b, s')) : Balanced cnt s s' := by
  unfold checkForEstop inEstop at h
  obtain ⟨b1, s1, h1, h⟩ := bind_some.1 h
  cases h1
  split at h
  · cases h; rfl
  · obtain ⟨b2, s2, h2, h⟩ := bind_some.1 h
    have q2 : Balanced cnt s s2 := by
      unfold testEStop at h2
      exact does_balanced e hc (p := {}) rfl rfl
        (Does.bind Does.get (fun a => Does.testSwitch a.hw.estopInput false trivial)) h2
    split at h
    · obtain ⟨_, s3, h3, h⟩ := bind_some.1 h
      cases h
      exact q2.trans (setEstop_balanced e hc h3)
    · cases h; exact q2

/-- The outputs that idle events may change: auxiliary bits and PWM outputs. -/
def SameOutputs (h h' : Hw F) : Prop :=
  h'.auxBits = h.auxBits ∧ h'.pwmOn = h.pwmOn ∧ h'.duty = h.duty

theorem SameOutputs.trans {h h' h'' : Hw F} (k : SameOutputs h h') (k' : SameOutputs h' h'') :
    SameOutputs h h'' := ⟨k'.1.trans k.1, k'.2.1.trans k.2.1, k'.2.2.trans k.2.2⟩

theorem Keep.outputs {c : Cape} {h h' : Hw F} (k : Keep c h h') : SameOutputs h h' := by
  rw [k.same]; exact ⟨rfl, rfl, rfl⟩

theorem motorsEnable_outputs (hs : Sane e.cape) (hq : Lawful e.cape e.queue) {s s' : State F β σ}
    (h : motorsEnable e false s = some ((), s')) : SameOutputs s.hw s'.hw := by
  unfold motorsEnable at h
  obtain ⟨_, u1, j1, h⟩ := bind_some.1 h
  obtain ⟨_, u2, j2, h⟩ := bind_some.1 h
  have j2 := (Prod.mk.injEq ..).mp (Option.some.inj j2) |>.2
  have h := (Prod.mk.injEq ..).mp (Option.some.inj h) |>.2
  have k1 := (halt_rel (hq.respects hs) j1).2
  obtain ⟨hh, ht, he⟩ := hq.enable u1.planner.backend false
  have e4 : s'.hw = enableMotors e.cape hh false := by
    rw [← h, ← j2]
    dsimp only
    split <;> exact he
  rw [e4]
  exact ((k1.trans (ht.keep hs)).trans (QAct.keep hs hh (.enable false))).outputs

/-- What `idleMotor` does. -/
theorem idleMotor_cases {first : Bool} {s s' : State F β σ} (h : idleMotor e first s = some ((), s')) :
    ((first = true → e.cfg.autoMotorDisable ≤ 0) ∧ (s' = s ∨ s' = { s with tick := s.tick + 1 })) ∨
    (0 < e.cfg.autoMotorDisable ∧ first = true ∧ s' = { s with
      tick := s.tick + 1
      nextMotor := e.clock s.tick + e.cfg.autoMotorDisable
      nextFan := -1 }) ∨
    (0 < e.cfg.autoMotorDisable ∧ first = false ∧ s.nextMotor ≠ -1 ∧ s.nextMotor ≤ e.clock s.tick ∧
      ∃ t, motorsEnable e false { s with tick := s.tick + 1 } = some ((), t) ∧
        s' = if 0 < e.cfg.autoFanDisable then { t with
            nextMotor := -1
            tick := t.tick + 1
            nextFan := e.clock t.tick + e.cfg.autoFanDisable }
          else { t with nextMotor := -1 }) := by
  unfold idleMotor at h
  by_cases h0 : 0 < e.cfg.autoMotorDisable
  · rw [if_pos h0] at h
    cases first with
    | true =>
      cases h
      exact .inr (.inl ⟨h0, rfl, rfl⟩)
    | false =>
      simp only [Bool.false_eq_true, if_false] at h
      obtain ⟨_, s1, h1, h⟩ := bind_some.1 h
      cases h1
      by_cases h2 : s.nextMotor ≠ -1
      · rw [if_pos h2] at h
        obtain ⟨_, s1, h1, h⟩ := bind_some.1 h
        cases h1
        obtain ⟨_, s1, h1, h⟩ := bind_some.1 h
        cases h1
        by_cases h3 : s.nextMotor ≤ e.clock s.tick
        · rw [if_pos h3] at h
          obtain ⟨_, t, h4, h⟩ := bind_some.1 h
          refine .inr (.inr ⟨h0, rfl, h2, h3, t, h4, ?_⟩)
          obtain ⟨_, t1, h5, h⟩ := bind_some.1 h
          cases h5
          by_cases h6 : 0 < e.cfg.autoFanDisable
          · rw [if_pos h6] at h
            rw [if_pos h6]
            cases h
            rfl
          · rw [if_neg h6] at h
            rw [if_neg h6]
            cases h
            rfl
        · rw [if_neg h3] at h
          cases h
          exact .inl ⟨by simp, .inr rfl⟩
      · rw [if_neg h2] at h
        cases h
        exact .inl ⟨by simp, .inl rfl⟩
  · rw [if_neg h0] at h
    cases h
    exact .inl ⟨fun _ => not_lt.1 h0, .inl rfl⟩

/-- What `idleFan` does. -/
theorem idleFan_cases {s s' : State F β σ} (h : idleFan e s = some ((), s')) :
    (s' = s ∨ s' = { s with tick := s.tick + 1 }) ∨
    (s.nextFan ≠ -1 ∧ s.nextFan ≤ e.clock s.tick ∧ s.tick < s'.tick ∧ s'.nextFan = -1 ∧
      s'.nextMotor = s.nextMotor ∧ s'.out = s.out ∧ ∀ cnt, s'.disabled cnt = s.disabled cnt) := by
  unfold idleFan at h
  obtain ⟨_, s1, h1, h⟩ := bind_some.1 h
  cases h1
  by_cases h2 : s.nextFan ≠ -1
  · rw [if_pos h2] at h
    obtain ⟨_, s1, h1, h⟩ := bind_some.1 h
    cases h1
    obtain ⟨_, s1, h1, h⟩ := bind_some.1 h
    cases h1
    by_cases h3 : s.nextFan ≤ e.clock s.tick
    · rw [if_pos h3] at h
      obtain ⟨_, t, h4, h⟩ := bind_some.1 h
      cases h
      refine .inr ⟨h2, h3, ?_⟩
      unfold setFanspeed at h4
      split at h4
      · cases h4
        exact ⟨Nat.lt_succ_self _, rfl, rfl, rfl, fun _ => rfl⟩
      · cases h4
        exact ⟨Nat.lt_succ_self _, rfl, rfl, rfl, fun _ => rfl⟩
    · rw [if_neg h3] at h
      cases h
      exact .inl (.inr rfl)
  · rw [if_neg h2] at h
    cases h
    exact .inl (.inl rfl)

theorem setEstop_alarm {hard : Bool} {s s' : State F β σ} (h : setEstop e hard s = some ((), s')) :
    Alarm s s' := by
  unfold setEstop at h
  obtain ⟨_, t1, k1, h⟩ := bind_some.1 h
  obtain ⟨_, t2, k2, h⟩ := bind_some.1 h
  obtain ⟨_, t3, k3, h⟩ := bind_some.1 h
  obtain ⟨_, t4, k4, h⟩ := bind_some.1 h
  obtain ⟨_, t5, k5, h⟩ := bind_some.1 h
  cases h
  cases k5
  obtain ⟨_, l1, _⟩ := does_spindleOff e {} _ _ _ k1
  obtain ⟨_, l2, _⟩ := does_motorsEnable e { enable := true } _ rfl _ _ _ k4
  obtain ⟨n1, h1⟩ := trace_says e l1
  obtain ⟨n2, h2⟩ := trace_says e l2
  cases k2
  cases k3
  refine ⟨n1 ++ n2 ++ [.stopped hard], hard, ?_, by simp⟩
  unfold Says at *
  show t4.out ++ [.stopped hard] = _
  rw [h2]
  show t1.out ++ n2 ++ _ = _
  rw [h1]
  simp

theorem check_alarm {s s' : State F β σ} (h : checkForEstop e s = some (true, s')) : Alarm s s' := by
  unfold checkForEstop inEstop at h
  obtain ⟨b1, s1, h1, h⟩ := bind_some.1 h
  cases h1
  split at h
  · cases h
  · obtain ⟨b2, s2, h2, h⟩ := bind_some.1 h
    unfold testEStop at h2
    obtain ⟨ls, ht, hl⟩ := Does.bind (e := e) (Q := Label.within {}) Does.get
      (fun a => Does.testSwitch a.hw.estopInput false trivial) _ _ _ h2
    obtain ⟨n, hn⟩ := trace_says e ht
    split at h
    · obtain ⟨_, s3, h3, h⟩ := bind_some.1 h
      cases h
      obtain ⟨n', hard, hn', hm⟩ := setEstop_alarm e h3
      exact ⟨n ++ n', hard, by unfold Says at *; rw [hn', hn, List.append_assoc], List.mem_append_right _ hm⟩
    · cases h

/-- Specification: reading `k` of the clock was made in the course of the event. -/
def During (k : Nat) (s s' : State F β σ) : Prop := s.tick ≤ k ∧ k < s'.tick

/-- What an idle event does to the motor timer. -/
theorem idle_motor (hc : Counter e.queue cnt) {first : Bool} {s s' : State F β σ} {a : Answer F}
    (h : handle e (.idle first) s = some (a, s')) :
    (s'.nextMotor = s.nextMotor ∧ ¬ Fires cnt s s' ∧ (first = true → e.cfg.autoMotorDisable ≤ 0)) ∨
    (0 < e.cfg.autoMotorDisable ∧ first = true ∧ ¬ Fires cnt s s' ∧
      ∃ k, During k s s' ∧ s'.nextMotor = e.clock k + e.cfg.autoMotorDisable) ∨
    (0 < e.cfg.autoMotorDisable ∧ first = false ∧ s.nextMotor ≠ -1 ∧ s'.nextMotor = -1 ∧
      Fires cnt s s' ∧ ∃ k, During k s s' ∧ s.nextMotor ≤ e.clock k) := by
  unfold handle inputIdle at h
  obtain ⟨_, s1, h, h'⟩ := bind_some.1 h
  cases h'
  obtain ⟨_, s2, h2, h⟩ := bind_some.1 h
  obtain ⟨_, s3, h3, h⟩ := bind_some.1 h
  obtain ⟨_, s4, h4, h⟩ := bind_some.1 h
  obtain ⟨_, s5, h5, h⟩ := bind_some.1 h
  cases h
  have q2 := (halt_rel (hc.respects e rfl) h2).1
  have b2 := does_balanced e hc (p := {}) rfl rfl (.halt trivial) h2
  have q4 := does_tick e (does_idleFan e { timers := true } rfl) h4
  have b4 := does_balanced e hc rfl rfl (does_idleFan e { timers := true } rfl) h4
  have m4 : s4.nextMotor = s3.nextMotor := by
    rcases idleFan_cases e h4 with (rfl | rfl) | ⟨_, _, _, _, hh, _⟩
    · rfl
    · rfl
    · exact hh
  have q5 := does_tick e (does_checkForEstop e { stop := true, enable := true } rfl rfl) h5
  have b5 := check_balanced e hc h5
  have m5 := (q5.2 rfl).1
  have t5 := q5.1
  have t4 := q4.1
  have t2 := q2.tick
  have b45 := b4.trans b5
  rcases idleMotor_cases e h3 with ⟨hf, hh⟩ | ⟨h6, h7, rfl⟩ | ⟨h6, h7, h8, h9, t, h10, h11⟩
  · left
    have : s3.nextMotor = s2.nextMotor ∧ Balanced cnt s2 s3 := by
      rcases hh with rfl | rfl <;> exact ⟨rfl, rfl⟩
    refine ⟨by rw [m5, m4, this.1, q2.nextMotor], ?_, hf⟩
    · have := b2.trans (this.2.trans b45)
      unfold Fires
      unfold Balanced at this
      omega
  · right; left
    refine ⟨h6, h7, ?_, s2.tick, ⟨t2.ge, ?_⟩, by rw [m5, m4]⟩
    · have := b2.trans ((show Balanced cnt s2 _ from rfl).trans b45)
      unfold Fires
      unfold Balanced at this
      omega
    · dsimp only at t4
      omega
  · right; right
    have k := motorsEnable_off e hc h10
    dsimp only at k
    have n3 : s3.nextMotor = -1 := by rw [h11]; split <;> rfl
    have d3 : s3.disabled cnt = t.disabled cnt := by rw [h11]; split <;> rfl
    have o3 : s3.out = t.out := by rw [h11]; split <;> rfl
    have t3 : t.tick ≤ s3.tick := by rw [h11]; split <;> simp
    refine ⟨h6, h7, ?_, by rw [m5, m4, n3], ?_, s2.tick, ⟨t2.ge, ?_⟩, by rw [← q2.nextMotor]; exact h9⟩
    · rw [← q2.nextMotor]; exact h8
    · have e1 : s3.stops = s2.stops := by unfold State.stops; rw [o3, k.2.1]
      have e2 : s3.disabled cnt = s2.disabled cnt + 1 := by rw [d3, k.1]; rfl
      unfold Fires
      unfold Balanced at b2 b45
      omega
    · have := k.2.2.1
      omega

/-- Specification: in this history no idle event switches the motors off. -/
def NoFire (cnt : β → Nat) (s : State F β σ) (evs : List (Event F)) : Prop :=
  ∀ before first after t t' a, evs = before ++ .idle first :: after → run e s before = some t →
    handle e (.idle first) t = some (a, t') → ¬ Fires cnt t t'

/-- Specification: reading `k` was made in the first idle event of the idle period in which the history ends;
nothing switched off the motors in this idle period so far. -/
def IdleSince (cnt : β → Nat) (s : State F β σ) (evs : List (Event F)) (k : Nat) : Prop :=
  ∃ before after t a t', evs = before ++ .idle true :: after ∧ run e s before = some t ∧
    handle e (.idle true) t = some (a, t') ∧ During k t t' ∧
    (∀ ev ∈ after, ev ≠ .idle true) ∧ NoFire e cnt t' after

theorem run_append : ∀ (l l' : List (Event F)) (s : State F β σ),
    run e s (l ++ l') = (run e s l).bind fun t => run e t l'
  | [], _, _ => rfl
  | ev :: l, l', s => by
    show (handle e ev s).bind _ = ((handle e ev s).bind _).bind _
    cases handle e ev s with
    | none => rfl
    | some r => exact run_append l l' r.2

theorem run_snoc {l : List (Event F)} {ev : Event F} {s s' : State F β σ}
    (h : run e s (l ++ [ev]) = some s') :
    ∃ t a, run e s l = some t ∧ handle e ev t = some (a, s') := by
  rw [run_append] at h
  cases hr : run e s l with
  | none => rw [hr] at h; cases h
  | some t =>
    rw [hr] at h
    obtain ⟨a, s1, h1, h2⟩ := (run_cons e).1 h
    cases h2
    exact ⟨t, a, rfl, h1⟩

theorem NoFire.snoc {s t : State F β σ} {evs : List (Event F)} {ev : Event F}
    (h : NoFire e cnt s evs) (hr : run e s evs = some t)
    (hn : ∀ first a t', ev = .idle first → handle e ev t = some (a, t') → ¬ Fires cnt t t') :
    NoFire e cnt s (evs ++ [ev]) := by
  intro before first after u u' a hs hu hh
  rcases List.eq_nil_or_concat after with rfl | ⟨after', x, rfl⟩
  · have := List.append_inj' hs rfl
    obtain ⟨rfl, h2⟩ := this
    cases h2
    rw [hr] at hu
    cases hu
    exact hn first a u' rfl hh
  · rw [List.concat_eq_append, ← List.cons_append, ← List.append_assoc] at hs
    obtain ⟨rfl, _⟩ := List.append_inj' hs rfl
    exact h before first after' u u' a rfl hu hh

/-- The motor timer, whenever it is set, comes from the first idle event of the current idle period. -/
theorem motor_timer (hc : Counter e.queue cnt) {s0 : State F β σ} (h0 : s0.nextMotor = -1)
    (evs : List (Event F)) : ∀ s, run e s0 evs = some s →
    s.nextMotor = -1 ∨ (0 < e.cfg.autoMotorDisable ∧
      ∃ k, IdleSince e cnt s0 evs k ∧ s.nextMotor = e.clock k + e.cfg.autoMotorDisable) := by
  induction evs using List.reverseRecOn with
  | nil => intro s h; cases h; exact .inl h0
  | append_singleton evs ev ih =>
    intro s h
    obtain ⟨t, a, ht, hh⟩ := run_snoc e h
    have keep : s.nextMotor = t.nextMotor → (ev = .idle true → e.cfg.autoMotorDisable ≤ 0) →
        (∀ first, ev = .idle first → ¬ Fires cnt t s) →
        s.nextMotor = -1 ∨ (0 < e.cfg.autoMotorDisable ∧
          ∃ k, IdleSince e cnt s0 (evs ++ [ev]) k ∧ s.nextMotor = e.clock k + e.cfg.autoMotorDisable) := by
      intro hs hi hf
      rcases ih t ht with h | ⟨h1, k, ⟨before, after, u, a', u', rfl, r1, r2, r3, r4, r5⟩, h2⟩
      · exact .inl (hs.trans h)
      · refine .inr ⟨h1, k, ⟨before, after ++ [ev], u, a', u', by simp, r1, r2, r3, ?_, ?_⟩, hs.trans h2⟩
        · intro x hx
          rcases List.mem_append.1 hx with hx | hx
          · exact r4 x hx
          · rw [List.mem_singleton.1 hx]
            intro hev
            exact absurd (hi hev) (not_le.2 h1)
        · refine r5.snoc e ?_ ?_ (t := t)
          · rw [run_append, r1] at ht
            obtain ⟨_, _, q1, q2⟩ := (run_cons e).1 ht
            rw [r2] at q1
            cases q1
            exact q2
          · intro first a'' t' hev hh'
            rw [hh] at hh'
            cases hh'
            exact hf first hev
    by_cases hidle : ∃ first, ev = .idle first
    · obtain ⟨first, rfl⟩ := hidle
      rcases idle_motor e hc hh with ⟨h1, h2, h3⟩ | ⟨h1, h2, h3, k, h4, h5⟩ | ⟨h1, h2, h3, h4, _⟩
      · exact keep h1 (fun hev => h3 (by cases hev; rfl)) (fun _ _ => h2)
      · subst h2
        exact .inr ⟨h1, k, ⟨evs, [], t, a, s, rfl, ht, hh, h4, by simp, by
          intro b f af _ _ _ hnil
          cases b <;> cases hnil⟩, h5⟩
      · exact .inl h4
    · refine keep ?_ (fun h => absurd ⟨_, h⟩ hidle) (fun f h => absurd ⟨f, h⟩ hidle)
      refine ((does_tick e (does_handle e ev) hh).2 ?_).1
      cases ev <;> first | rfl | exact absurd ⟨_, rfl⟩ hidle

/-- C48. When an idle event switches off the motors (other than by an emergency stop): switching off is
configured, the event is not the first of the idle period, at least the configured number of seconds has passed
since the first one, and nothing switched them off in this idle period before. -/
theorem C48_motors (hc : Counter e.queue cnt) {s0 s s' : State F β σ} (h0 : s0.nextMotor = -1)
    {evs : List (Event F)} (hrun : run e s0 evs = some s) {first : Bool} {a : Answer F}
    (h : handle e (.idle first) s = some (a, s')) (hf : Fires cnt s s') :
    0 < e.cfg.autoMotorDisable ∧ first = false ∧ ∃ k k', IdleSince e cnt s0 evs k ∧ During k' s s' ∧
      e.clock k + e.cfg.autoMotorDisable ≤ e.clock k' := by
  rcases idle_motor e hc h with ⟨_, h2, _⟩ | ⟨_, _, h3, _⟩ | ⟨h1, h2, h3, _, _, k', h5, h6⟩
  · exact absurd hf h2
  · exact absurd hf h3
  · refine ⟨h1, h2, ?_⟩
    rcases motor_timer e hc h0 evs s hrun with hh | ⟨_, k, hk, hv⟩
    · exact absurd hh h3
    · exact ⟨k, k', hk, h5, hv ▸ h6⟩

/-- C48. Conversely, when the time has come the motors are switched off. -/
theorem C48_motors_due (hc : Counter e.queue cnt) {s s' : State F β σ} {a : Answer F}
    (h : handle e (.idle false) s = some (a, s')) (hp : 0 < e.cfg.autoMotorDisable)
    (hs : s.nextMotor ≠ -1) (hk : ∀ k, During k s s' → s.nextMotor ≤ e.clock k) : Fires cnt s s' := by
  rcases idle_motor e hc h with ⟨h1, h2, h3⟩ | ⟨_, h3, _⟩ | ⟨_, _, _, _, h5, _⟩
  · exfalso
    have h' := h
    unfold handle inputIdle at h
    obtain ⟨_, s1, h, hx⟩ := bind_some.1 h
    cases hx
    obtain ⟨_, t2, k2, h⟩ := bind_some.1 h
    obtain ⟨_, t3, k3, h⟩ := bind_some.1 h
    obtain ⟨_, t4, k4, h⟩ := bind_some.1 h
    obtain ⟨_, t5, k5, h⟩ := bind_some.1 h
    cases h
    have q2 := (halt_rel (hc.respects e rfl) k2).1
    have q4 := (does_tick e (does_idleFan e { timers := true } rfl) k4).1
    have q5 := (does_tick e (does_checkForEstop e { stop := true, enable := true } rfl rfl) k5).1
    have hne : t2.nextMotor ≠ -1 := by rw [q2.nextMotor]; exact hs
    unfold idleMotor at k3
    rw [if_pos hp] at k3
    simp only [Bool.false_eq_true, if_false] at k3
    obtain ⟨_, u, j, k3⟩ := bind_some.1 k3
    cases j
    rw [if_pos hne] at k3
    obtain ⟨_, u, j, k3⟩ := bind_some.1 k3
    cases j
    obtain ⟨_, u, j, k3⟩ := bind_some.1 k3
    cases j
    have q3 : t2.tick < t3.tick := by
      by_cases hle : t2.nextMotor ≤ e.clock t2.tick
      · rw [if_pos hle] at k3
        obtain ⟨_, u, j, k3⟩ := bind_some.1 k3
        have := (motorsEnable_off e hc j).2.2.1
        obtain ⟨_, u', j', k3⟩ := bind_some.1 k3
        cases j'
        dsimp only at this
        split at k3
        · cases k3
          show t2.tick < u.tick + 1
          omega
        · cases k3
          show t2.tick < u.tick
          omega
      · rw [if_neg hle] at k3
        cases k3
        exact Nat.lt_succ_self _
    have hd : s.nextMotor ≤ e.clock t2.tick := hk _ ⟨q2.tick.ge, by omega⟩
    rw [if_pos (by rw [q2.nextMotor]; exact hd)] at k3
    obtain ⟨_, u, j, k3⟩ := bind_some.1 k3
    obtain ⟨_, u', j', k3⟩ := bind_some.1 k3
    cases j'
    have n3 : t3.nextMotor = -1 := by
      split at k3 <;> cases k3 <;> rfl
    have m4 : t4.nextMotor = t3.nextMotor := by
      rcases idleFan_cases e k4 with (rfl | rfl) | ⟨_, _, _, _, hh, _⟩
      · rfl
      · rfl
      · exact hh
    have m5 := ((does_tick e (does_checkForEstop e { stop := true, enable := true } rfl rfl) k5).2 rfl).1
    rw [m5, m4, n3] at h1
    exact hs h1.symm
  · cases h3
  · exact h5

/-- Specification: reading `k` was made in the course of an idle event of the history that switched off the
motors, and no other idle period began since. -/
def OffSince (cnt : β → Nat) (s : State F β σ) (evs : List (Event F)) (k : Nat) : Prop :=
  ∃ before after t a t', evs = before ++ .idle false :: after ∧ run e s before = some t ∧
    handle e (.idle false) t = some (a, t') ∧ Fires cnt t t' ∧ During k t t' ∧
    ∀ ev ∈ after, ev ≠ .idle true

/-- What an idle event does to the fan timer. The last part: without emergency stop the outputs change only
when the timer is due. -/
theorem idle_fan (hc : Counter e.queue cnt) (hsane : Sane e.cape) (hq : Lawful e.cape e.queue) {first : Bool}
    {s s' : State F β σ} {a : Answer F} (h : handle e (.idle first) s = some (a, s')) :
    ∃ v : Int, (v = -1 ∨ (v = s.nextFan ∧ (first = true → e.cfg.autoMotorDisable ≤ 0)) ∨
        (first = false ∧ 0 < e.cfg.autoFanDisable ∧ Fires cnt s s' ∧
          ∃ k, During k s s' ∧ v = e.clock k + e.cfg.autoFanDisable)) ∧
      (s'.nextFan = v ∨ s'.nextFan = -1) ∧
      (Quiet s s' → ¬ SameOutputs s.hw s'.hw → v ≠ -1 ∧ ∃ k, During k s s' ∧ v ≤ e.clock k) := by
  have hfire := idle_motor e hc h
  unfold handle inputIdle at h
  obtain ⟨_, s1, h, h'⟩ := bind_some.1 h
  cases h'
  obtain ⟨_, s2, h2, h⟩ := bind_some.1 h
  obtain ⟨_, s3, h3, h⟩ := bind_some.1 h
  obtain ⟨_, s4, h4, h⟩ := bind_some.1 h
  obtain ⟨b, s5, h5, h⟩ := bind_some.1 h
  cases h
  have q2 := (halt_rel (hc.respects e rfl) h2).1
  have o2 := (halt_rel (hq.respects hsane) h2).2.outputs
  have q5 := does_tick e (does_checkForEstop e { stop := true, enable := true } rfl rfl) h5
  have t45 : s3.tick ≤ s4.tick := (does_tick e (does_idleFan e { timers := true } rfl) h4).1
  have f5 := (q5.2 rfl).2
  have t5 := q5.1
  have t2 := q2.tick
  have t23 : s2.tick ≤ s3.tick := (does_tick e (does_idleMotor e { timers := true, enable := true } _ rfl rfl) h3).1
  have o3 : SameOutputs s2.hw s3.hw := by
    rcases idleMotor_cases e h3 with ⟨_, rfl | rfl⟩ | ⟨_, _, rfl⟩ | ⟨_, _, _, _, t, h10, h11⟩
    · exact ⟨rfl, rfl, rfl⟩
    · exact ⟨rfl, rfl, rfl⟩
    · exact ⟨rfl, rfl, rfl⟩
    · have := motorsEnable_outputs e hsane hq h10
      have e3 : s3.hw = t.hw := by rw [h11]; split <;> rfl
      rw [e3]
      exact this
  have hsay : ∃ n, Says s s4 n := by
    obtain ⟨_, l1, _⟩ := Does.halt (Q := Label.within {}) trivial _ _ _ h2
    obtain ⟨_, l2, _⟩ := does_idleMotor e { timers := true, enable := true } _ rfl rfl _ _ _ h3
    obtain ⟨_, l3, _⟩ := does_idleFan e { timers := true } rfl _ _ _ h4
    exact trace_says e (l1.append (l2.append l3))
  have o5 : Quiet s s' → SameOutputs s4.hw s'.hw := by
    intro hquiet
    rcases check_cases e h5 with ⟨hb, t, ht⟩ | ⟨hb, _⟩
    · exfalso
      obtain ⟨n, hn⟩ := hsay
      refine hquiet.not_alarm ?_
      obtain ⟨n', hard, hn', hm⟩ := check_alarm e (hb ▸ h5)
      exact ⟨n ++ n', hard, by unfold Says at *; rw [hn', hn, List.append_assoc], List.mem_append_right _ hm⟩
    · subst hb
      unfold checkForEstop inEstop at h5
      obtain ⟨b1, u1, k1, h5⟩ := bind_some.1 h5
      cases k1
      split at h5
      · cases h5; exact ⟨rfl, rfl, rfl⟩
      · obtain ⟨b2, u2, k2, h5⟩ := bind_some.1 h5
        split at h5
        · obtain ⟨_, u3, k3, h5⟩ := bind_some.1 h5
          cases h5
        · cases h5
          unfold testEStop at k2
          obtain ⟨_, u3, k3, k2⟩ := bind_some.1 k2
          cases k3
          unfold testSwitch at k2
          split at k2 <;> cases k2 <;> exact ⟨rfl, rfl, rfl⟩
  have o3' : SameOutputs s.hw s3.hw := o2.trans o3
  refine ⟨s3.nextFan, ?_, ?_, ?_⟩
  · rcases idleMotor_cases e h3 with ⟨hf, hh⟩ | ⟨_, _, rfl⟩ | ⟨h6, h7, h8, h9, t, h10, h11⟩
    · right; left
      refine ⟨?_, hf⟩
      rcases hh with rfl | rfl <;> exact q2.nextFan
    · exact .inl rfl
    · by_cases h12 : 0 < e.cfg.autoFanDisable
      · rw [if_pos h12] at h11
        right; right
        refine ⟨h7, h12, ?_, t.tick, ⟨?_, ?_⟩, by rw [h11]⟩
        · have m4 : s4.nextMotor = s3.nextMotor := by
            rcases idleFan_cases e h4 with (rfl | rfl) | ⟨_, _, _, _, hh, _⟩
            · rfl
            · rfl
            · exact hh
          rcases hfire with ⟨x, _⟩ | ⟨_, x, _⟩ | ⟨_, _, _, _, x, _⟩
          · rw [(q5.2 rfl).1, m4, h11, ← q2.nextMotor] at x
            exact absurd x.symm h8
          · rw [h7] at x; cases x
          · exact x
        · have := (motorsEnable_off e hc h10).2.2.1
          dsimp only at this
          omega
        · rw [h11] at t45
          dsimp only at t45
          omega
      · rw [if_neg h12] at h11
        right; left
        have := (motorsEnable_off e hc h10).2.2.2.2
        refine ⟨by rw [h11]; exact this.trans q2.nextFan, ?_⟩
        rw [h7]; intro h; cases h
  · rw [f5]
    rcases idleFan_cases e h4 with (rfl | rfl) | ⟨_, _, _, hh, _⟩
    · exact .inl rfl
    · exact .inl rfl
    · exact .inr hh
  · intro hquiet hno
    rcases idleFan_cases e h4 with (rfl | rfl) | ⟨h6, h7, h8, _⟩
    · exact absurd (o3'.trans (o5 hquiet)) hno
    · exact absurd (o3'.trans (o5 hquiet)) hno
    · exact ⟨h6, s3.tick, ⟨by omega, by omega⟩, h7⟩

/-- The fan timer, whenever it is set, comes from the event that switched off the motors. -/
theorem fan_timer (hc : Counter e.queue cnt) (hsane : Sane e.cape) (hq : Lawful e.cape e.queue)
    {s0 : State F β σ} (h0 : s0.nextMotor = -1) (h0' : s0.nextFan = -1)
    (evs : List (Event F)) : ∀ s, run e s0 evs = some s →
    s.nextFan = -1 ∨ (0 < e.cfg.autoFanDisable ∧
      ∃ k, OffSince e cnt s0 evs k ∧ s.nextFan = e.clock k + e.cfg.autoFanDisable) := by
  induction evs using List.reverseRecOn with
  | nil => intro s h; cases h; exact .inl h0'
  | append_singleton evs ev ih =>
    intro s h
    obtain ⟨t, a, ht, hh⟩ := run_snoc e h
    have keep : s.nextFan = t.nextFan → (ev = .idle true → e.cfg.autoMotorDisable ≤ 0) →
        s.nextFan = -1 ∨ (0 < e.cfg.autoFanDisable ∧
          ∃ k, OffSince e cnt s0 (evs ++ [ev]) k ∧ s.nextFan = e.clock k + e.cfg.autoFanDisable) := by
      intro hs hi
      rcases ih t ht with h | ⟨h1, k, ⟨before, after, u, a', u', rfl, r1, r2, r3, r4, r5⟩, h2⟩
      · exact .inl (hs.trans h)
      · refine .inr ⟨h1, k, ⟨before, after ++ [ev], u, a', u', by simp, r1, r2, r3, r4, ?_⟩, hs.trans h2⟩
        intro x hx
        rcases List.mem_append.1 hx with hx | hx
        · exact r5 x hx
        · rw [List.mem_singleton.1 hx]
          intro hev
          have := (C48_motors e hc h0 r1 r2 r3).1
          exact absurd (hi hev) (not_le.2 this)
    by_cases hidle : ∃ first, ev = .idle first
    · obtain ⟨first, rfl⟩ := hidle
      obtain ⟨v, h1, h2, _⟩ := idle_fan e hc hsane hq hh
      rcases h2 with h2 | h2
      · rcases h1 with h1 | ⟨h1, h3⟩ | ⟨rfl, h3, h4, k, h5, h6⟩
        · exact .inl (h2.trans h1)
        · exact keep (h2.trans h1) (fun hev => h3 (by cases hev; rfl))
        · exact .inr ⟨h3, k, ⟨evs, [], t, a, s, rfl, ht, hh, h4, h5, by simp⟩, h2.trans h6⟩
      · exact .inl h2
    · refine keep ?_ (fun h => absurd ⟨_, h⟩ hidle)
      refine ((does_tick e (does_handle e ev) hh).2 ?_).2
      cases ev <;> first | rfl | exact absurd ⟨_, rfl⟩ hidle

/-- C48. An idle event without emergency stop changes the outputs (auxiliary bits, PWM outputs) only in
`set_fanspeed(0)`, at least the configured number of seconds after an idle event switched off the motors, with no
other idle period beginning in between. -/
theorem C48_fan (hc : Counter e.queue cnt) (hsane : Sane e.cape) (hq : Lawful e.cape e.queue)
    {s0 s s' : State F β σ} (h0 : s0.nextMotor = -1) (h0' : s0.nextFan = -1) {evs : List (Event F)}
    (hrun : run e s0 evs = some s) {first : Bool} {a : Answer F}
    (h : handle e (.idle first) s = some (a, s')) (hquiet : Quiet s s') (hn : ¬ SameOutputs s.hw s'.hw) :
    0 < e.cfg.autoFanDisable ∧ first = false ∧ ∃ k k', OffSince e cnt s0 (evs ++ [.idle first]) k ∧
      During k' s s' ∧ e.clock k + e.cfg.autoFanDisable ≤ e.clock k' := by
  obtain ⟨v, h1, _, h3⟩ := idle_fan e hc hsane hq h
  obtain ⟨hv, k', hk, hle⟩ := h3 hquiet hn
  rcases h1 with h1 | ⟨h1, h4⟩ | ⟨rfl, h4, h5, k, h6, h7⟩
  · exact absurd h1 hv
  · rcases fan_timer e hc hsane hq h0 h0' evs s hrun with hh | ⟨h5, k, ⟨before, after, u, a', u', rfl, r1, r2, r3, r4, r5⟩, h6⟩
    · exact absurd (h1.trans hh) hv
    · have hp := (C48_motors e hc h0 r1 r2 r3).1
      have hf : first = false := by
        cases first with
        | false => rfl
        | true => exact absurd (h4 rfl) (not_le.2 hp)
      subst hf
      refine ⟨h5, rfl, k, k', ⟨before, after ++ [.idle false], u, a', u', by simp, r1, r2, r3, r4, ?_⟩, hk, ?_⟩
      · intro x hx
        rcases List.mem_append.1 hx with hx | hx
        · exact r5 x hx
        · rw [List.mem_singleton.1 hx]; intro h; cases h
      · rw [← h6, ← h1]; exact hle
  · exact ⟨h4, rfl, k, k', ⟨evs, [], s, a, s', rfl, hrun, h, h5, h6, by simp⟩, hk, h7 ▸ hle⟩

end BeagleG.Machine
