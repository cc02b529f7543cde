import Verif.Machine.HomeProps
/-!
# C37: feed rates

Specification: `Sets e t ev v` says that event `ev`, coming in state `t`, gives the feed rate `v` that holds
from then on. `C37_source` says where the feed rate of a history comes from.
-/
namespace BeagleG.Machine

open Planner (Axis Motor Arith Command)
open Hardware

variable {F β σ : Type} (e : Env F β σ)

/-- The F value of a rapid move with all factors. -/
def given (s : State F β σ) (feed : F) : F := e.A.mul (e.A.mul e.cfg.speedFactor s.progFactor) feed

/-- Specification: the event gives the feed rate `v`. A coordinated move that is in order does when it
has a positive F value; a rapid move that is in order does when there was none before. -/
def Sets (s : State F β σ) : Event F → F → Prop
  | .coordinated feed pos, v =>
    InOrder e s pos ∧ e.A.lt e.A.zero feed = true ∧ v = e.A.mul e.cfg.speedFactor feed
  | .rapid feed pos, v =>
    InOrder e s pos ∧ e.A.lt e.A.zero (given e s feed) = true ∧ e.A.le s.feedrate e.A.zero = true ∧
      v = given e s feed
  | _, _ => False

/-- Steps that are not about feed leave feed rate and factor alone. -/
theorem step_feed {l : Label F} {s s' : State F β σ} (h : Step e l s s') :
    ((∀ v, l ≠ .feed v) → s'.feedrate = s.feedrate) ∧
    ((∀ v, l ≠ .factor v) → s'.progFactor = s.progFactor) := by
  have hR := respects_true e.backend
  have key : s'.feedrate = s.feedrate → s'.progFactor = s.progFactor →
      ((∀ v, l ≠ .feed v) → s'.feedrate = s.feedrate) ∧
      ((∀ v, l ≠ .factor v) → s'.progFactor = s.progFactor) := fun h1 h2 => ⟨fun _ => h1, fun _ => h2⟩
  cases l with
  | say m => obtain ⟨_, h⟩ := h; subst h; exact key rfl rfl
  | stopped hard => obtain ⟨_, h⟩ := h; subst h; exact key rfl rfl
  | flag o on => obtain ⟨_, h⟩ := h; subst h; exact key rfl rfl
  | spindle => obtain ⟨_, _, h⟩ := h; subst h; exact key rfl rfl
  | halt => obtain ⟨h, _⟩ := halt_rel hR h; exact key h.feedrate h.progFactor
  | move => obtain ⟨_, _, _, h⟩ := h; obtain ⟨h, _⟩ := move_rel hR h; exact key h.feedrate h.progFactor
  | drive =>
    obtain ⟨_, _, _, _, h⟩ := h; obtain ⟨h, _⟩ := drive_rel hR h; exact key h.feedrate h.progFactor
  | external => obtain ⟨_, h⟩ := h; obtain ⟨h, _⟩ := external_rel hR h; exact key h.feedrate h.progFactor
  | lookahead => obtain ⟨n, h⟩ := h; subst h; exact key rfl rfl
  | feed v => subst h; exact ⟨fun h => absurd rfl (h v), fun _ => rfl⟩
  | factor v => subst h; exact ⟨fun _ => rfl, fun h => absurd rfl (h v)⟩
  | _ => subst h; exact key rfl rfl

theorem trace_feed {ls : List (Label F)} {s s' : State F β σ} (h : Trace e s ls s')
    (hl : ∀ l ∈ ls, ∀ v, l ≠ .feed v) : s'.feedrate = s.feedrate := by
  induction h with
  | nil => rfl
  | cons h1 _ ih =>
    rw [ih fun l hm => hl l (List.mem_cons_of_mem _ hm), (step_feed e h1).1 (hl _ List.mem_cons_self)]

theorem trace_factor {ls : List (Label F)} {s s' : State F β σ} (h : Trace e s ls s')
    (hl : ∀ l ∈ ls, ∀ v, l ≠ .factor v) : s'.progFactor = s.progFactor := by
  induction h with
  | nil => rfl
  | cons h1 _ ih =>
    rw [ih fun l hm => hl l (List.mem_cons_of_mem _ hm), (step_feed e h1).2 (hl _ List.mem_cons_self)]

theorem does_feed {α : Type} {p : Powers} {m : M F β σ α} (hp : p.move = false)
    (h : Does e (Label.within p) m) {s s' : State F β σ} {a : α} (hm : m s = some (a, s')) :
    s'.feedrate = s.feedrate := by
  obtain ⟨ls, ht, hl⟩ := h _ _ _ hm
  refine trace_feed e ht fun l hm v hh => ?_
  subst hh
  have := hl _ hm
  simp [Label.within, hp] at this

theorem submit_feed {pos : Axis → F} {feed : F} {s s' : State F β σ} {b : Bool}
    (h : submit e pos feed s = some (b, s')) : s'.feedrate = s.feedrate := by
  unfold submit at h
  obtain ⟨b1, s1, h1, h⟩ := bind_some.1 h
  have q1 := (move_rel (respects_true e.backend) h1).1.feedrate
  split at h
  · cases h; exact q1
  · obtain ⟨b2, s2, h2, h⟩ := bind_some.1 h
    have := does_feed e rfl (does_checkForEstop e { stop := true, enable := true } rfl rfl) h2
    split at h <;> cases h <;> exact this.trans q1

theorem handle_coordinated (s : State F β σ) (feed : F) (pos : Axis → F) :
    handle e (.coordinated feed pos) s = (coordinatedMove e feed pos s).map fun r => (.bool r.1, r.2) := by
  show (coordinatedMove e feed pos s).bind _ = _
  cases coordinatedMove e feed pos s <;> rfl

theorem handle_rapid (s : State F β σ) (feed : F) (pos : Axis → F) :
    handle e (.rapid feed pos) s = (rapidMove e feed pos s).map fun r => (.bool r.1, r.2) := by
  show (rapidMove e feed pos s).bind _ = _
  cases rapidMove e feed pos s <;> rfl

/-- The feed rate that holds after the F value of a coordinated move. -/
def feedAfter (s : State F β σ) (feed : F) : F :=
  if e.A.lt e.A.zero feed = true then e.A.mul e.cfg.speedFactor feed else s.feedrate

/-- C37. A coordinated move that is in order: an F value that is positive replaces the feed rate; the move
is handed to the planner with the feed rate times the M220 factor, and is refused when there is no feed rate. -/
theorem C37_coordinated {s : State F β σ} {feed : F} {pos : Axis → F} (h : InOrder e s pos) :
    handle e (.coordinated feed pos) s =
      if e.A.le (feedAfter e s feed) e.A.zero = true then
        some (.bool false, { s with feedrate := feedAfter e s feed, out := s.out ++ [.noFeedrate] })
      else (submit e pos (e.A.mul s.progFactor (feedAfter e s feed))
        { s with feedrate := feedAfter e s feed }).map fun r => (.bool r.1, r.2) := by
  rw [handle_coordinated]
  have hb : coordinatedMove e feed pos s = (do
      if e.A.lt e.A.zero feed then
        modify fun s => { s with feedrate := e.A.mul e.cfg.speedFactor feed }
      let s ← get
      if e.A.le s.feedrate e.A.zero then
        say .noFeedrate
        return false
      else submit e pos (e.A.mul s.progFactor s.feedrate) : M F β σ Bool) s := by
    unfold coordinatedMove
    show (allowed e pos s).bind _ = _
    rw [allowed_yes e h]
    rfl
  rw [hb]
  unfold feedAfter
  rcases Bool.eq_false_or_eq_true (e.A.lt e.A.zero feed) with h1 | h1
  · simp only [h1, if_true]
    show ((if e.A.le (e.A.mul e.cfg.speedFactor feed) e.A.zero = true then _ else _ : M F β σ Bool) _).map _ = _
    by_cases h2 : e.A.le (e.A.mul e.cfg.speedFactor feed) e.A.zero = true
    · rw [if_pos h2, if_pos h2]; rfl
    · rw [if_neg h2, if_neg h2]
  · simp only [h1, Bool.false_eq_true, if_false]
    show ((if e.A.le s.feedrate e.A.zero = true then _ else _ : M F β σ Bool) s).map _ = _
    by_cases h2 : e.A.le s.feedrate e.A.zero = true
    · rw [if_pos h2, if_pos h2]; rfl
    · rw [if_neg h2, if_neg h2]

/-- C37. A rapid move that is in order goes with its F value times the factors, or with the configured
speed. -/
theorem C37_rapid {s : State F β σ} {feed : F} {pos : Axis → F} (h : InOrder e s pos) :
    handle e (.rapid feed pos) s =
      (submit e pos (if e.A.lt e.A.zero (given e s feed) then given e s feed else e.cfg.g0Feedrate)
        (if e.A.lt e.A.zero (given e s feed) && e.A.le s.feedrate e.A.zero then
          { s with feedrate := given e s feed } else s)).map fun r => (.bool r.1, r.2) := by
  rw [handle_rapid]
  congr 1
  unfold rapidMove
  show (allowed e pos s).bind _ = _
  rw [allowed_yes e h]
  unfold given
  show (Option.bind (some (true, s)) _) = _
  simp only [Option.bind_some]
  show (do
      if e.A.lt e.A.zero (e.A.mul (e.A.mul e.cfg.speedFactor s.progFactor) feed) &&
          e.A.le s.feedrate e.A.zero then
        modify fun s' => { s' with feedrate := e.A.mul (e.A.mul e.cfg.speedFactor s.progFactor) feed }
      submit e pos _ : M F β σ Bool) s = _
  dsimp only
  generalize (e.A.lt e.A.zero (e.A.mul (e.A.mul e.cfg.speedFactor s.progFactor) feed) &&
    e.A.le s.feedrate e.A.zero) = c
  cases c <;> rfl

/-- C37. What one event does to the feed rate. -/
theorem C37_feed_step {ev : Event F} {s s' : State F β σ} {a : Answer F}
    (h : handle e ev s = some (a, s')) :
    (∃ v, Sets e s ev v ∧ s'.feedrate = v) ∨ ((∀ v, ¬ Sets e s ev v) ∧ s'.feedrate = s.feedrate) := by
  have other : (ev.powers e.A).move = false → s'.feedrate = s.feedrate := fun hp =>
    does_feed e hp (does_handle e ev) h
  cases ev with
  | coordinated feed pos =>
    by_cases ho : InOrder e s pos
    · rw [C37_coordinated e ho] at h
      have hv : s'.feedrate = feedAfter e s feed := by
        by_cases h2 : e.A.le (feedAfter e s feed) e.A.zero = true
        · rw [if_pos h2] at h; cases h; rfl
        · rw [if_neg h2] at h
          obtain ⟨r, hr, hh⟩ := Option.map_eq_some_iff.1 h
          cases hh
          exact submit_feed e hr
      rcases Bool.eq_false_or_eq_true (e.A.lt e.A.zero feed) with h1 | h1
      · refine .inl ⟨_, ⟨ho, h1, rfl⟩, ?_⟩
        rw [hv, feedAfter, if_pos h1]
      · refine .inr ⟨?_, ?_⟩
        · rintro v ⟨_, h2, _⟩; rw [h1] at h2; cases h2
        · rw [hv, feedAfter, if_neg (by simp [h1])]
    · obtain ⟨m, _, hh⟩ := C33_refused e (ev := .coordinated feed pos) rfl ho
      rw [hh] at h
      cases h
      exact .inr ⟨fun v hv => ho hv.1, rfl⟩
  | rapid feed pos =>
    by_cases ho : InOrder e s pos
    · rw [C37_rapid e ho] at h
      obtain ⟨r, hr, hh⟩ := Option.map_eq_some_iff.1 h
      cases hh
      have := submit_feed e hr
      by_cases h1 : (e.A.lt e.A.zero (given e s feed) && e.A.le s.feedrate e.A.zero) = true
      · rw [if_pos h1] at this
        have h1' := (Bool.and_eq_true _ _).mp h1
        exact .inl ⟨_, ⟨ho, h1'.1, h1'.2, rfl⟩, this⟩
      · rw [if_neg h1] at this
        refine .inr ⟨?_, this⟩
        rintro v ⟨_, h2, h3, _⟩
        exact h1 (by rw [h2, h3]; rfl)
    · obtain ⟨m, _, hh⟩ := C33_refused e (ev := .rapid feed pos) rfl ho
      rw [hh] at h
      cases h
      exact .inr ⟨fun v hv => ho hv.1, rfl⟩
  | _ => exact .inr ⟨fun v hv => hv.elim, other rfl⟩

/-- Specification: no event of the history gives a feed rate. -/
def NoFeed (s : State F β σ) (evs : List (Event F)) : Prop :=
  ∀ before ev after t, evs = before ++ ev :: after → run e s before = some t → ∀ v, ¬ Sets e t ev v

/-- C37. Where the feed rate after a history comes from: from the most recent event that gives one. -/
theorem C37_source : ∀ (evs : List (Event F)) (s s' : State F β σ), run e s evs = some s' →
    (NoFeed e s evs ∧ s'.feedrate = s.feedrate) ∨
    ∃ before ev after t a t' v, evs = before ++ ev :: after ∧ run e s before = some t ∧
      handle e ev t = some (a, t') ∧ run e t' after = some s' ∧
      Sets e t ev v ∧ NoFeed e t' after ∧ s'.feedrate = v
  | [], s, s', h => by
    cases h
    refine .inl ⟨fun before ev after t hh => ?_, rfl⟩
    cases before <;> cases hh
  | ev :: evs, s, s', h => by
    obtain ⟨a, s1, h1, h2⟩ := (run_cons e).1 h
    rcases C37_source evs s1 s' h2 with ⟨hn, hf⟩ | ⟨before, ev', after, t, a', t', v, rfl, r1, r2, r3, r4, r5, r6⟩
    · rcases C37_feed_step e h1 with ⟨v, hv, hf'⟩ | ⟨hno, hf'⟩
      · exact .inr ⟨[], ev, evs, s, a, s1, v, rfl, rfl, h1, h2, hv, hn, hf.trans hf'⟩
      · refine .inl ⟨?_, hf.trans hf'⟩
        intro before ev' after t hh hr
        cases before with
        | nil => cases hh; cases hr; exact hno
        | cons b before =>
          cases hh
          obtain ⟨a'', s1', h1', hr⟩ := (run_cons e).1 hr
          rw [h1] at h1'
          cases h1'
          exact hn _ _ _ _ rfl hr
    · refine .inr ⟨ev :: before, ev', after, t, a', t', v, rfl, ?_, r2, r3, r4, r5, r6⟩
      show (handle e ev s).bind _ = _
      rw [h1]
      exact r1

/-- C37. M220: the event changes only the factor, or is answered with a message. -/
theorem C37_factor {s : State F β σ} {f : F} :
    let f' := if e.A.lt f e.A.zero then e.A.add (e.A.ofInt 1) f else f
    handle e (.speedFactor f) s = some (.unit,
      if e.A.lt f' (e.A.div (e.A.ofInt 5) (e.A.ofInt 1000)) then
        { s with out := s.out ++ [.speedFactorRefused] }
      else { s with progFactor := f' }) := by
  intro f'
  unfold handle setSpeedFactor
  by_cases h : e.A.lt f' (e.A.div (e.A.ofInt 5) (e.A.ofInt 1000)) = true
  · rw [if_pos h]
    show (((if e.A.lt f' (e.A.div (e.A.ofInt 5) (e.A.ofInt 1000)) = true then say .speedFactorRefused
      else modify fun s => { s with progFactor := f' }) : M F β σ Unit) s).bind _ = _
    rw [if_pos h]; rfl
  · rw [if_neg h]
    show (((if e.A.lt f' (e.A.div (e.A.ofInt 5) (e.A.ofInt 1000)) = true then say .speedFactorRefused
      else modify fun s => { s with progFactor := f' }) : M F β σ Unit) s).bind _ = _
    rw [if_neg h]; rfl

/-- C37. No other event changes the M220 factor. -/
theorem C37_factor_only {ev : Event F} {s s' : State F β σ} {a : Answer F}
    (h : handle e ev s = some (a, s')) (hev : ∀ f, ev ≠ .speedFactor f) :
    s'.progFactor = s.progFactor := by
  obtain ⟨ls, ht, hl⟩ := does_handle e ev _ _ _ h
  refine trace_factor e ht fun l hm v hh => ?_
  subst hh
  have := hl _ hm
  cases ev <;> first | exact absurd rfl (hev _) | simp [Label.within, Event.powers] at this

/-! ### Exact arithmetic -/

section
open Planner (Exact)
variable [Field F] [LinearOrder F] [IsStrictOrderedRing F]

/-- C37. M220 accepts a factor exactly if it is at least 0.5%, negative values being relative to 100%. -/
theorem C37_factor_exact (ex : Exact e.A) {s : State F β σ} {f : F} :
    handle e (.speedFactor f) s = some (.unit,
      if 5 / 1000 ≤ (if f < 0 then 1 + f else f) then
        { s with progFactor := if f < 0 then 1 + f else f }
      else { s with out := s.out ++ [.speedFactorRefused] }) := by
  rw [C37_factor]
  simp only [ex.lt, ex.ofInt, ex.div, ex.add, ex.zero, decide_eq_true_eq]
  generalize hg : (if f < 0 then 1 + f else f) = g
  have hc : (if f < 0 then ((1 : Int) : F) + f else f) = g := by rw [← hg]; norm_num
  rw [hc]
  have h5 : (((5 : Int) : F) / ((1000 : Int) : F)) = 5 / 1000 := by norm_num
  rw [h5]
  by_cases h : g < 5 / 1000
  · rw [if_pos h, if_neg (not_le.2 h)]
  · rw [if_neg h, if_pos (not_lt.1 h)]

/-- C37. In exact arithmetic, for a positive speed factor: as long as no event gave a feed rate, every
coordinated move without F value is refused; afterwards none is refused for this reason, and the speed is
`M220 factor * speed factor * F` when the most recent feed rate came from a coordinated move. -/
theorem C37_history_partial (ex : Exact e.A) (hp : 0 < e.cfg.speedFactor) {s0 s : State F β σ}
    (h0 : s0.feedrate = 0) {evs : List (Event F)} (hrun : run e s0 evs = some s) {feed : F}
    {pos : Axis → F} (ho : InOrder e s pos) :
    (0 < feed → handle e (.coordinated feed pos) s =
      (submit e pos (s.progFactor * (e.cfg.speedFactor * feed))
        { s with feedrate := e.cfg.speedFactor * feed }).map fun r => (.bool r.1, r.2)) ∧
    (feed ≤ 0 →
      (NoFeed e s0 evs ∧ handle e (.coordinated feed pos) s =
        some (.bool false, { s with out := s.out ++ [.noFeedrate] })) ∨
      ∃ before ev after t a t', evs = before ++ ev :: after ∧ run e s0 before = some t ∧
        handle e ev t = some (a, t') ∧ run e t' after = some s ∧
        Sets e t ev s.feedrate ∧ NoFeed e t' after ∧ 0 < s.feedrate ∧
        handle e (.coordinated feed pos) s =
          (submit e pos (s.progFactor * s.feedrate) s).map fun r => (.bool r.1, r.2)) := by
  rw [C37_coordinated e ho]
  unfold feedAfter
  simp only [ex.lt, ex.le, ex.zero, ex.mul, decide_eq_true_eq]
  constructor
  · intro hf
    rw [if_pos hf, if_neg (not_le.2 (mul_pos hp hf))]
  · intro hf
    rw [if_neg (not_lt.2 hf)]
    rcases C37_source e evs s0 s hrun with ⟨hn, hh⟩ | ⟨before, ev, after, t, a, t', v, h1, h2, h3, h4, h5, h6, h7⟩
    · left
      refine ⟨hn, ?_⟩
      rw [if_pos (by rw [hh, h0])]
    · right
      have hpos : 0 < v := by
        cases ev with
        | coordinated feed pos =>
          obtain ⟨_, hf, rfl⟩ := h5
          rw [ex.lt, ex.zero, decide_eq_true_eq] at hf
          rw [ex.mul]
          exact mul_pos hp hf
        | rapid feed pos =>
          obtain ⟨_, hf, _, rfl⟩ := h5
          rwa [ex.lt, ex.zero, decide_eq_true_eq] at hf
        | _ => exact h5.elim
      subst h7
      refine ⟨before, ev, after, t, a, t', h1, h2, h3, h4, h5, h6, hpos, ?_⟩
      rw [if_neg (not_le.2 hpos)]

end
end BeagleG.Machine
