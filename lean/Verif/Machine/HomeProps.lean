import Verif.Machine.PlannerRel
import Verif.Machine.LimitProps
import Mathlib.Tactic.ByContra
/-!
# C34, C36: homing

Specification: all in terms of events, messages and calls of `MotorEnable(false)`. `Quiet s s'`: between these
two states no emergency stop was announced. A `Counter` counts the calls of `MotorEnable(false)`.
-/
namespace BeagleG.Machine

open Planner (Axis Motor Arith Command)
open Hardware

variable {F β σ : Type} (e : Env F β σ)

/-- Specification: the messages between two states. -/
def Says (s s' : State F β σ) (new : List Msg) : Prop := s'.out = s.out ++ new

/-- Specification: no emergency stop was announced between the states. -/
def Quiet (s s' : State F β σ) : Prop := ∃ new, Says s s' new ∧ ∀ hard, Msg.stopped hard ∉ new

/-- Specification: an emergency stop was announced between the states. -/
def Alarm (s s' : State F β σ) : Prop := ∃ new hard, Says s s' new ∧ Msg.stopped hard ∈ new

/-- `cnt` counts the calls of `MotorEnable(false)`. -/
structure Counter (Q : Queue F β) (cnt : β → Nat) : Prop where
  enqueue : ∀ x c, cnt (Q.enqueue x c).1.2 = cnt x.2
  wait : ∀ x, cnt (Q.waitQueueEmpty x).2 = cnt x.2
  ext : ∀ x m p, cnt (Q.setExternalPosition x m p).2 = cnt x.2
  on : ∀ x, cnt (Q.motorEnable x true).2 = cnt x.2
  off : ∀ x, cnt (Q.motorEnable x false).2 = cnt x.2 + 1

/-- The calls of `MotorEnable(false)` so far. -/
def State.disabled (cnt : β → Nat) (s : State F β σ) : Nat := cnt s.planner.backend.2

theorem Quiet.refl (s : State F β σ) : Quiet s s := ⟨[], by simp [Says], by simp⟩

theorem Quiet.trans {s s' s'' : State F β σ} (h : Quiet s s') (h' : Quiet s' s'') : Quiet s s'' := by
  obtain ⟨n, h1, h2⟩ := h
  obtain ⟨n', h1', h2'⟩ := h'
  refine ⟨n ++ n', by unfold Says at *; rw [h1', h1, List.append_assoc], fun hard hm => ?_⟩
  rcases List.mem_append.1 hm with h | h
  · exact h2 hard h
  · exact h2' hard h

theorem Quiet.not_alarm {s s' : State F β σ} (h : Quiet s s') : ¬ Alarm s s' := by
  rintro ⟨n, hard, h1, h2⟩
  obtain ⟨n', h1', h2'⟩ := h
  unfold Says at *
  rw [h1'] at h1
  rw [List.append_cancel_left h1] at h2'
  exact h2' hard h2

variable {cnt : β → Nat}

theorem Counter.respects {Q : Queue F β} (hc : Counter Q cnt) (e : Env F β σ) (hq : e.queue = Q) :
    Respects e.backend (fun x y => cnt y.2 = cnt x.2) := by
  subst hq
  exact ⟨fun _ => rfl, fun h h' => h'.trans h, fun x c => hc.enqueue x c, fun x => hc.wait x,
    fun x m p => hc.ext x m p⟩

/-- What a step means for homing. -/
theorem step_homing (hc : Counter e.queue cnt) {l : Label F} {s s' : State F β σ} (h : Step e l s s')
    (hl : l ≠ .homed) (hs' : s'.homing = .homed) :
    s.homing = .homed ∧ Quiet s s' ∧ s'.disabled cnt = s.disabled cnt := by
  have key : s'.homing = s.homing → s'.out = s.out → s'.disabled cnt = s.disabled cnt →
      s.homing = .homed ∧ Quiet s s' ∧ s'.disabled cnt = s.disabled cnt :=
    fun h1 h2 h3 => ⟨h1 ▸ hs', ⟨[], by simp [Says, h2], by simp⟩, h3⟩
  have hR := hc.respects e rfl
  cases l with
  | say m =>
    obtain ⟨h1, h2⟩ := h
    subst h2
    exact ⟨hs', ⟨[m], rfl, fun hard hm => h1 hard (List.mem_singleton.1 hm).symm⟩, rfl⟩
  | stopped hard =>
    obtain ⟨h1, h2⟩ := h
    subst h2
    rw [h1] at hs'
    cases hs'
  | tick => subst h; exact key rfl rfl rfl
  | flag o on => obtain ⟨_, h⟩ := h; subst h; exact key rfl rfl rfl
  | clear => subst h; exact key rfl rfl rfl
  | auxBit => subst h; exact key rfl rfl rfl
  | setAux => subst h; exact key rfl rfl rfl
  | auxOff => subst h; exact key rfl rfl rfl
  | fan => subst h; exact key rfl rfl rfl
  | spindle => obtain ⟨_, _, h⟩ := h; subst h; exact key rfl rfl rfl
  | halt => obtain ⟨h1, h2⟩ := halt_rel hR h; exact key h1.homing h1.out h2
  | move => obtain ⟨_, _, _, h⟩ := h; obtain ⟨h1, h2⟩ := move_rel hR h; exact key h1.homing h1.out h2
  | drive => obtain ⟨_, _, _, _, h⟩ := h; obtain ⟨h1, h2⟩ := drive_rel hR h; exact key h1.homing h1.out h2
  | external => obtain ⟨_, h⟩ := h; obtain ⟨h1, h2⟩ := external_rel hR h; exact key h1.homing h1.out h2
  | enable on =>
    cases on with
    | true => subst h; exact key (by simp) rfl (hc.on _)
    | false =>
      subst h
      exfalso
      dsimp only at hs'
      by_cases hh : s.homing = .homed
      · simp [hh] at hs'
      · simp [hh] at hs'
  | wait => subst h; exact key rfl rfl (hc.wait _)
  | lookahead =>
    obtain ⟨n, h⟩ := h
    subst h
    refine key rfl rfl ?_
    unfold State.disabled Planner.setLookahead
    split <;> rfl
  | never => subst h; cases hs'
  | homed => exact absurd rfl hl
  | feed => subst h; exact key rfl rfl rfl
  | factor => subst h; exact key rfl rfl rfl
  | pause => subst h; exact key rfl rfl rfl
  | timers => subst h; exact key rfl rfl rfl

theorem trace_homing (hc : Counter e.queue cnt) {ls : List (Label F)} {s s' : State F β σ}
    (h : Trace e s ls s') (hl : ∀ l ∈ ls, l ≠ .homed) (hs' : s'.homing = .homed) :
    s.homing = .homed ∧ Quiet s s' ∧ s'.disabled cnt = s.disabled cnt := by
  induction h with
  | nil => exact ⟨hs', .refl _, rfl⟩
  | cons h1 _ ih =>
    obtain ⟨i1, i2, i3⟩ := ih (fun l hm => hl l (List.mem_cons_of_mem _ hm)) hs'
    obtain ⟨j1, j2, j3⟩ := step_homing e hc h1 (hl _ List.mem_cons_self) i1
    exact ⟨j1, j2.trans i2, i3.trans j3⟩

/-- Not `NEVER_HOMED` at the end means: not at the beginning either, and no stop in between. -/
theorem step_never {l : Label F} {s s' : State F β σ} (h : Step e l s s')
    (hl : l ≠ .homed) (hs' : s'.homing ≠ .never) : s.homing ≠ .never ∧ Quiet s s' := by
  have key : s'.homing = s.homing → s'.out = s.out → s.homing ≠ .never ∧ Quiet s s' :=
    fun h1 h2 => ⟨h1 ▸ hs', ⟨[], by simp [Says, h2], by simp⟩⟩
  have hR := respects_true e.backend
  cases l with
  | say m =>
    obtain ⟨h1, h2⟩ := h
    subst h2
    exact ⟨hs', ⟨[m], rfl, fun hard hm => h1 hard (List.mem_singleton.1 hm).symm⟩⟩
  | stopped hard =>
    obtain ⟨h1, h2⟩ := h
    subst h2
    exact absurd h1 hs'
  | tick => subst h; exact key rfl rfl
  | flag o on => obtain ⟨_, h⟩ := h; subst h; exact key rfl rfl
  | clear => subst h; exact key rfl rfl
  | auxBit => subst h; exact key rfl rfl
  | setAux => subst h; exact key rfl rfl
  | auxOff => subst h; exact key rfl rfl
  | fan => subst h; exact key rfl rfl
  | spindle => obtain ⟨_, _, h⟩ := h; subst h; exact key rfl rfl
  | halt => obtain ⟨h1, h2⟩ := halt_rel hR h; exact key h1.homing h1.out
  | move => obtain ⟨_, _, _, h⟩ := h; obtain ⟨h1, h2⟩ := move_rel hR h; exact key h1.homing h1.out
  | drive => obtain ⟨_, _, _, _, h⟩ := h; obtain ⟨h1, h2⟩ := drive_rel hR h; exact key h1.homing h1.out
  | external => obtain ⟨_, h⟩ := h; obtain ⟨h1, h2⟩ := external_rel hR h; exact key h1.homing h1.out
  | enable on =>
    subst h
    dsimp only at hs'
    refine ⟨?_, ⟨[], by simp [Says], by simp⟩⟩
    intro h
    simp [h] at hs'
  | wait => subst h; exact key rfl rfl
  | lookahead => obtain ⟨n, h⟩ := h; subst h; exact key rfl rfl
  | never => subst h; exact absurd rfl hs'
  | homed => exact absurd rfl hl
  | feed => subst h; exact key rfl rfl
  | factor => subst h; exact key rfl rfl
  | pause => subst h; exact key rfl rfl
  | timers => subst h; exact key rfl rfl

theorem trace_never {ls : List (Label F)} {s s' : State F β σ}
    (h : Trace e s ls s') (hl : ∀ l ∈ ls, l ≠ .homed) (hs' : s'.homing ≠ .never) :
    s.homing ≠ .never ∧ Quiet s s' := by
  induction h with
  | nil => exact ⟨hs', .refl _⟩
  | cons h1 _ ih =>
    obtain ⟨i1, i2⟩ := ih (fun l hm => hl l (List.mem_cons_of_mem _ hm)) hs'
    obtain ⟨j1, j2⟩ := step_never e h1 (hl _ List.mem_cons_self) i1
    exact ⟨j1, j2.trans i2⟩

/-- A trace without emergency stop is quiet. -/
theorem trace_quiet {ls : List (Label F)} {s s' : State F β σ}
    (h : Trace e s ls s') (hl : ∀ l ∈ ls, ∀ hard, l ≠ .stopped hard) : Quiet s s' := by
  have hR := respects_true e.backend
  induction h with
  | nil => exact .refl _
  | @cons s l s' ls s'' h1 _ ih =>
    refine Quiet.trans ?_ (ih (fun l hm => hl l (List.mem_cons_of_mem _ hm)))
    have hl := hl l List.mem_cons_self
    have key : s'.out = s.out → Quiet s s' := fun h2 => ⟨[], by simp [Says, h2], by simp⟩
    clear ih
    cases l with
    | say m =>
      obtain ⟨h1, h2⟩ := h1
      subst h2
      exact ⟨[m], rfl, fun hard hm => h1 hard (List.mem_singleton.1 hm).symm⟩
    | stopped hard => exact absurd rfl (hl hard)
    | flag o on => obtain ⟨_, h⟩ := h1; subst h; exact key rfl
    | spindle => obtain ⟨_, _, h⟩ := h1; subst h; exact key rfl
    | halt => exact key (halt_rel hR h1).1.out
    | move => obtain ⟨_, _, _, h⟩ := h1; exact key (move_rel hR h).1.out
    | drive => obtain ⟨_, _, _, _, h⟩ := h1; exact key (drive_rel hR h).1.out
    | external => obtain ⟨_, h⟩ := h1; exact key (external_rel hR h).1.out
    | lookahead => obtain ⟨n, h⟩ := h1; subst h; exact key rfl
    | _ => subst h1; exact key rfl

/-- `go_home` in detail: it sets `HOMED` only without any announced stop. -/
theorem home_cases {axes : Axis → Bool} {s s' : State F β σ} {r : Unit}
    (h : goHome e axes s = some (r, s')) :
    (∃ ls, Trace e s ls s' ∧ ∀ l ∈ ls, l ≠ .homed) ∨ (s'.homing = .homed ∧ Quiet s s') := by
  let p : Powers := { drive := fun _ => true, clear := true }
  have sub : ∀ {ls : List (Label F)}, (∀ l ∈ ls, Label.within p l) →
      (∀ l ∈ ls, l ≠ .homed) ∧ ∀ l ∈ ls, ∀ hard, l ≠ .stopped hard := by
    intro ls hl
    constructor
    · intro l hm h; subst h; exact absurd (hl _ hm) (by simp [Label.within, p])
    · intro l hm hard h; subst h; exact absurd (hl _ hm) (by simp [Label.within, p])
  unfold goHome at h
  obtain ⟨_, s1, h1, h⟩ := bind_some.1 h
  obtain ⟨b, s2, h2, h⟩ := bind_some.1 h
  obtain ⟨l1, t1, q1⟩ := Does.halt (e := e) (Q := Label.within p) trivial _ _ _ h1
  obtain ⟨l2, t2, q2⟩ := does_clearEstop e p rfl _ _ _ h2
  cases b with
  | false =>
    cases h
    left
    refine ⟨l1 ++ l2, t1.append t2, fun l hm => ?_⟩
    rcases List.mem_append.1 hm with hm | hm
    · exact (sub q1).1 l hm
    · exact (sub q2).1 l hm
  | true =>
    simp only [if_true] at h
    obtain ⟨_, s3, h3, h⟩ := bind_some.1 h
    obtain ⟨l3, t3, q3⟩ := does_homeAll e p axes (fun _ => rfl) _ _ _ _ h3
    obtain ⟨b, s4, h4, h⟩ := bind_some.1 h
    cases b with
    | true =>
      cases h
      obtain ⟨l4, t4, q4⟩ := does_checkForEstop e { stop := true, enable := true } rfl rfl _ _ _ h4
      left
      refine ⟨l1 ++ (l2 ++ (l3 ++ l4)), t1.append (t2.append (t3.append t4)), fun l hm => ?_⟩
      rcases List.mem_append.1 hm with hm | hm
      · exact (sub q1).1 l hm
      rcases List.mem_append.1 hm with hm | hm
      · exact (sub q2).1 l hm
      rcases List.mem_append.1 hm with hm | hm
      · exact (sub q3).1 l hm
      · intro h; subst h; exact absurd (q4 _ hm) (by simp [Label.within])
    | false =>
      right
      have q4 : Quiet s3 s4 := by
        unfold checkForEstop inEstop at h4
        obtain ⟨b, s5, h5, h4⟩ := bind_some.1 h4
        cases h5
        split at h4
        · cases h4; exact .refl _
        · obtain ⟨b, s6, h6, h4⟩ := bind_some.1 h4
          unfold testEStop at h6
          obtain ⟨l6, t6, p6⟩ := Does.bind (e := e) (Q := Label.within p) Does.get
            (fun a => Does.testSwitch a.hw.estopInput false trivial) _ _ _ h6
          split at h4
          · obtain ⟨_, _, _, h4⟩ := bind_some.1 h4; cases h4
          · cases h4; exact trace_quiet e t6 (sub p6).2
      cases h
      refine ⟨rfl, ?_⟩
      have := ((trace_quiet e t1 (sub q1).2).trans (trace_quiet e t2 (sub q2).2)).trans
        ((trace_quiet e t3 (sub q3).2).trans q4)
      exact this

/-- One event that leaves the machine `HOMED`. -/
theorem handle_homed (hc : Counter e.queue cnt) {ev : Event F} {s s' : State F β σ} {a : Answer F}
    (h : handle e ev s = some (a, s')) (hs' : s'.homing = .homed) :
    (s.homing = .homed ∧ Quiet s s' ∧ s'.disabled cnt = s.disabled cnt) ∨
    (Quiet s s' ∧ ∃ axes, ev = .home axes) := by
  by_cases hev : ∃ axes, ev = .home axes
  · obtain ⟨axes, rfl⟩ := hev
    unfold handle at h
    obtain ⟨_, s1, h1, h2⟩ := bind_some.1 h
    cases h2
    rcases home_cases e h1 with ⟨ls, ht, hl⟩ | ⟨_, hq⟩
    · exact .inl (trace_homing e hc ht hl hs')
    · exact .inr ⟨hq, axes, rfl⟩
  · obtain ⟨ls, ht, hl⟩ := does_handle e ev _ _ _ h
    refine .inl (trace_homing e hc ht (fun l hm => ?_) hs')
    intro hh
    subst hh
    have := hl _ hm
    cases ev <;> simp [Label.within, Event.powers] at this hev

/-- One event that leaves the machine not `NEVER_HOMED`. -/
theorem handle_never {ev : Event F} {s s' : State F β σ} {a : Answer F}
    (h : handle e ev s = some (a, s')) (hs' : s'.homing ≠ .never) :
    (s.homing ≠ .never ∧ Quiet s s') ∨ (Quiet s s' ∧ s'.homing = .homed ∧ ∃ axes, ev = .home axes) := by
  by_cases hev : ∃ axes, ev = .home axes
  · obtain ⟨axes, rfl⟩ := hev
    unfold handle at h
    obtain ⟨_, s1, h1, h2⟩ := bind_some.1 h
    cases h2
    rcases home_cases e h1 with ⟨ls, ht, hl⟩ | ⟨hh, hq⟩
    · exact .inl (trace_never e ht hl hs')
    · exact .inr ⟨hq, hh, axes, rfl⟩
  · obtain ⟨ls, ht, hl⟩ := does_handle e ev _ _ _ h
    refine .inl (trace_never e ht (fun l hm => ?_) hs')
    intro hh
    subst hh
    have := hl _ hm
    cases ev <;> simp [Label.within, Event.powers] at this hev

theorem run_cons {s s' : State F β σ} {ev : Event F} {evs : List (Event F)} :
    run e s (ev :: evs) = some s' ↔ ∃ a s1, handle e ev s = some (a, s1) ∧ run e s1 evs = some s' := by
  show (handle e ev s).bind _ = _ ↔ _
  cases h : handle e ev s with
  | none => simp
  | some x =>
    constructor
    · intro h'; exact ⟨x.1, x.2, rfl, h'⟩
    · rintro ⟨a, s1, h1, h2⟩; cases h1; exact h2

/-- C36. If after a history of events the machine reports to be homed and did not do so at the beginning,
then a homing command is part of the history after which it was reported to be homed, and neither
during that command nor since was an emergency stop announced, and the motors have not been disabled by
a command since (`MotorEnable(false)` was not called). -/
theorem C36_homed (hc : Counter e.queue cnt) : ∀ (evs : List (Event F)) (s s' : State F β σ),
    run e s evs = some s' → s'.homing = .homed →
    (s.homing = .homed ∧ Quiet s s' ∧ s'.disabled cnt = s.disabled cnt) ∨
    ∃ before axes after s1 s2 a, evs = before ++ .home axes :: after ∧ run e s before = some s1 ∧
      handle e (.home axes) s1 = some (a, s2) ∧ run e s2 after = some s' ∧
      s2.homing = .homed ∧ Quiet s1 s' ∧ s'.disabled cnt = s2.disabled cnt
  | [], s, s', h, hs' => by
    cases h
    exact .inl ⟨hs', .refl _, rfl⟩
  | ev :: evs, s, s', h, hs' => by
    obtain ⟨a, s1, h1, h2⟩ := (run_cons e).1 h
    rcases C36_homed hc evs s1 s' h2 hs' with ⟨i1, i2, i3⟩ | ⟨b, axes, c, t1, t2, a', rfl, j1, j⟩
    · rcases handle_homed e hc h1 i1 with ⟨k1, k2, k3⟩ | ⟨k, axes, rfl⟩
      · exact .inl ⟨k1, k2.trans i2, i3.trans k3⟩
      · exact .inr ⟨[], axes, evs, s, s1, a, rfl, rfl, h1, h2, i1, k.trans i2, i3⟩
    · exact .inr ⟨ev :: b, axes, c, t1, t2, a', rfl, (run_cons e).2 ⟨a, s1, h1, j1⟩, j⟩

/-- C36. An emergency stop lowers the report to "never homed". -/
theorem C36_stop {ev : Event F} {s s' : State F β σ} {a : Answer F}
    (h : handle e ev s = some (a, s')) (hq : Alarm s s') : s'.homing = .never := by
  by_contra hn
  rcases handle_never e h hn with ⟨_, h'⟩ | ⟨h', _⟩
  · exact h'.not_alarm hq
  · exact h'.not_alarm hq

/-- C36. Disabling the motors by command lowers the report to "motors unpowered". -/
theorem C36_unpowered {s s' : State F β σ} {a : Answer F} (hs : s.homing = .homed)
    (h : handle e (.motors false) s = some (a, s')) : s'.homing = .unpowered := by
  unfold handle motorsEnable at h
  obtain ⟨_, s1, h1, h2⟩ := bind_some.1 h
  obtain ⟨_, s2, h3, h4⟩ := bind_some.1 h1
  have := (halt_rel (respects_true _) h3).1.homing
  rw [hs] at this
  cases h2
  cases h4
  simp [this]

/-- Events that move the machine for the program. -/
def Event.movesOrProbes : Event F → Prop
  | .coordinated _ _ => True
  | .rapid _ _ => True
  | .probe _ _ => True
  | _ => False

/-- C34. One event: without homing (where required) a move or probe is answered with "no" and a message,
and nothing else happens. -/
theorem never_refused {s : State F β σ} {ev : Event F} (hev : ev.movesOrProbes)
    (hr : e.cfg.requireHoming = true) (hs : s.homing = .never) :
    ∃ a m, handle e ev s = some (a, { s with out := s.out ++ [m] }) ∧
      (a = .bool false ∨ a = .probed none) := by
  have hno : ∀ pos, ¬ InOrder e s pos := fun pos h => h.homing hr hs
  cases ev <;> first | exact hev.elim | skip
  · rename_i feed axis
    refine ⟨.probed none, .homeFirst, ?_, .inr rfl⟩
    unfold handle
    rw [bind_some]
    refine ⟨none, _, ?_, rfl⟩
    unfold probeAxis
    rw [bind_some]
    refine ⟨false, { s with out := s.out ++ [.homeFirst] }, ?_, rfl⟩
    unfold allowedHoming
    simp only [hr, Bool.not_true, Bool.false_eq_true, if_false]
    show (if s.homing ≠ .never then (pure true : M F β σ Bool) else _) s = _
    rw [if_neg (by simpa using hs)]; rfl
  · obtain ⟨m, _, hm⟩ := C33_refused e (ev := .coordinated _ _) (pos := _) rfl (hno _)
    exact ⟨_, m, hm, .inl rfl⟩
  · obtain ⟨m, _, hm⟩ := C33_refused e (ev := .rapid _ _) (pos := _) rfl (hno _)
    exact ⟨_, m, hm, .inl rfl⟩

/-- Histories that end not `NEVER_HOMED`. -/
theorem run_never : ∀ (evs : List (Event F)) (s s' : State F β σ),
    run e s evs = some s' → s'.homing ≠ .never →
    (s.homing ≠ .never ∧ Quiet s s') ∨
    ∃ before axes after s1 s2 a, evs = before ++ .home axes :: after ∧ run e s before = some s1 ∧
      handle e (.home axes) s1 = some (a, s2) ∧ run e s2 after = some s' ∧
      s2.homing = .homed ∧ Quiet s1 s'
  | [], s, s', h, hs' => by
    cases h
    exact .inl ⟨hs', .refl _⟩
  | ev :: evs, s, s', h, hs' => by
    obtain ⟨a, s1, h1, h2⟩ := (run_cons e).1 h
    rcases run_never evs s1 s' h2 hs' with ⟨i1, i2⟩ | ⟨b, axes, c, t1, t2, a', rfl, j1, j⟩
    · rcases handle_never e h1 i1 with ⟨k1, k2⟩ | ⟨k, k', axes, rfl⟩
      · exact .inl ⟨k1, k2.trans i2⟩
      · exact .inr ⟨[], axes, evs, s, s1, a, rfl, rfl, h1, h2, k', k.trans i2⟩
    · exact .inr ⟨ev :: b, axes, c, t1, t2, a', rfl, (run_cons e).2 ⟨a, s1, h1, j1⟩, j⟩

/-- C34. With homing required and a machine never homed at the beginning: if after a history of events
a move or a probe does anything to the planner, the motors or the hardware, then the history contains a
homing command that ended with the machine homed, and no emergency stop was announced since that
command began. -/
theorem C34_moves_only_homed {s0 s s' : State F β σ} {evs : List (Event F)} {ev : Event F} {a : Answer F}
    (hr : e.cfg.requireHoming = true) (h0 : s0.homing = .never) (hev : ev.movesOrProbes)
    (hrun : run e s0 evs = some s) (h : handle e ev s = some (a, s')) (hch : s'.planner ≠ s.planner) :
    ∃ before axes after s1 s2 a, evs = before ++ .home axes :: after ∧ run e s0 before = some s1 ∧
      handle e (.home axes) s1 = some (a, s2) ∧ run e s2 after = some s ∧
      s2.homing = .homed ∧ Quiet s1 s := by
  by_cases hs : s.homing = .never
  · obtain ⟨a', m, h', _⟩ := never_refused e hev hr hs
    rw [h'] at h
    cases h
    exact absurd rfl hch
  · rcases run_never e evs s0 s hrun hs with ⟨h', _⟩ | h'
    · exact absurd h0 h'
    · exact h'

/-- C34. After an emergency stop and until the next homing command, moves and probes have no effect. -/
theorem C34_after_stop {s0 s1 s : State F β σ} {ev0 ev : Event F} {evs : List (Event F)} {a : Answer F}
    (hr : e.cfg.requireHoming = true) (h0 : handle e ev0 s0 = some (a, s1)) (halarm : Alarm s0 s1)
    (hrun : run e s1 evs = some s) (hno : ∀ axes, Event.home axes ∉ evs) (hev : ev.movesOrProbes) :
    ∃ a' m, handle e ev s = some (a', { s with out := s.out ++ [m] }) ∧
      (a' = .bool false ∨ a' = .probed none) := by
  apply never_refused e hev hr
  by_contra hs
  rcases run_never e evs s1 s hrun hs with ⟨h', _⟩ | ⟨b, axes, c, _, _, _, rfl, _⟩
  · exact h' (C36_stop e h0 halarm)
  · exact hno axes (by simp)

/-- M0 announces an emergency stop. -/
theorem C34_m0_stops {s s' : State F β σ} {a : Answer F} {v : F} {args : List (Char × F)}
    (hv : e.A.toInt v = 0) (h : handle e (.unprocessed 'M' v args) s = some (a, s')) : Alarm s s' := by
  unfold handle special at h
  obtain ⟨_, s1, h1, h2⟩ := bind_some.1 h
  cases h2
  rw [if_neg (by simp)] at h1
  rw [if_pos hv] at h1
  obtain ⟨_, s2, h3, h4⟩ := bind_some.1 h1
  cases h4
  unfold setEstop at h3
  obtain ⟨_, t1, k1, h3⟩ := bind_some.1 h3
  obtain ⟨_, t2, k2, h3⟩ := bind_some.1 h3
  obtain ⟨_, t3, k3, h3⟩ := bind_some.1 h3
  obtain ⟨_, t4, k4, h3⟩ := bind_some.1 h3
  obtain ⟨_, t5, k5, h3⟩ := bind_some.1 h3
  cases h3
  cases k5
  cases k3
  cases k2
  obtain ⟨l1, u1, q1⟩ := does_spindleOff e {} _ _ _ k1
  have n1 : Quiet s t1 := trace_quiet e u1 (fun l hm hard hh => by
    subst hh; exact absurd (q1 _ hm) (by simp [Label.within]))
  obtain ⟨l4, u4, q4⟩ := does_motorsEnable e { enable := true } _ rfl _ _ _ k4
  have n4 : Quiet _ t4 := trace_quiet e u4 (fun l hm hard hh => by
    subst hh; exact absurd (q4 _ hm) (by simp [Label.within]))
  obtain ⟨m1, e1, _⟩ := n1
  obtain ⟨m4, e4, _⟩ := n4
  unfold Says at e1 e4
  refine ⟨m1 ++ m4 ++ [.stopped false], false, ?_, by simp⟩
  unfold Says
  try dsimp only at e4
  try dsimp only
  rw [e4, e1]
  simp

end BeagleG.Machine
