import Verif.Planner.Props
/-!
# C52: the assertions of the planner, and C47 for `M181`
-/
namespace BeagleG.Planner

variable {F β : Type} (A : Arith F) (cfg : Config F) (B : Backend F β)

/-! ### The segment that only keeps the last position -/

/-- What remains true of the zero segment that is left after a halt while further moves are planned. -/
structure Idle (seg : Segment F) : Prop where
  speed : seg.target.speed = A.zero
  delta : ∀ a, seg.target.deltaSteps a = 0
  accel : seg.planned.accel = 0
  decel : seg.planned.decel = 0
  v1 : seg.planned.v1 = A.zero

theorem idle_zero (pos : Axis → Int) :
    Idle A (⟨{ AxisTarget.zero A with positionSteps := pos }, Profile.zero A⟩ : Segment F) :=
  ⟨rfl, fun _ => rfl, rfl, rfl, rfl⟩

theorem decel_idle (h0 : A.eq A.zero A.zero = true) {seg : Segment F} (h : Idle A seg)
    (next : Option (Segment F)) : decelerationPlan A seg next = (seg.planned, true) := by
  unfold decelerationPlan
  simp only [h.speed, h0, if_true]

theorem accel_idle (h0 : A.eq A.zero A.zero = true) {seg : Segment F} (h : Idle A seg)
    (prev : Option (Segment F)) : Idle A { seg with planned := (accelerationPlan A prev seg).1 } := by
  unfold accelerationPlan
  simp only [h.v1, h0, if_true]
  exact ⟨h.speed, h.delta, h.accel, h.decel, rfl⟩

theorem backward_idle (h0 : A.eq A.zero A.zero = true) (z : Segment F) (h : Idle A z) :
    ∀ (l done : List (Segment F)),
      (∃ k ks, (backwardPass A (l ++ [z]) done).1 = ks ++ [k] ∧ Idle A k) ∨
      ((backwardPass A (l ++ [z]) done).1 = [] ∧
        ∃ k ks, (backwardPass A (l ++ [z]) done).2 = k :: ks ∧ Idle A k) := by
  intro l
  induction l with
  | nil =>
    intro done
    right
    simp only [List.nil_append, backwardPass, decel_idle A h0 h]
    exact ⟨trivial, _, _, rfl, h⟩
  | cons x l ih =>
    intro done
    simp only [List.cons_append, backwardPass]
    cases hd : decelerationPlan A x done.head? with
    | mk p b =>
      cases b
      · exact .inl ⟨z, x :: l, rfl, h⟩
      · exact ih _

/-- Planning leaves a leading idle segment idle. -/
theorem update_idle (h0 : A.eq A.zero A.zero = true) (z : Segment F) (h : Idle A z)
    (l : List (Segment F)) (ready : Nat) :
    ∃ k ks, (updateMotionProfile A (z :: l) ready).1 = k :: ks ∧ Idle A k := by
  cases ready with
  | succ r =>
    simp only [updateMotionProfile, List.take_succ_cons, List.cons_append]
    exact ⟨z, _, rfl, h⟩
  | zero =>
    simp only [updateMotionProfile, List.take_zero, List.drop_zero, List.reverse_cons, List.nil_append]
    rcases backward_idle A h0 z h l.reverse [] with ⟨k, ks, e, hk⟩ | ⟨e1, k, ks, e2, hk⟩
    · rw [e]
      exact ⟨k, ks.reverse ++ _, by simp only [List.reverse_append, List.reverse_cons,
        List.reverse_nil, List.nil_append, List.cons_append]; rfl, hk⟩
    · rw [e1, e2]
      exact ⟨_, _, by simp only [List.reverse_nil, List.nil_append, forwardPass]; rfl,
        accel_idle A h0 hk _⟩

theorem assignAll_zeros (f : Axis → Int) (h : ∀ a, f a = 0) (m : Motor) : assignAll cfg f m = 0 := by
  have : f = fun _ => 0 := funext h
  rw [this]
  exact assignAll_zero cfg m

/-- Sending an idle segment enqueues nothing, so it cannot be refused. -/
theorem send_idle {seg : Segment F} (h : Idle A seg) (b : β) (ret : Bool) :
    sendSegment A cfg B b seg ret = (if cfg.synchronous then B.waitQueueEmpty b else b, ret) := by
  have hm : hasMove A cfg seg = false := by
    simp only [hasMove, List.any_eq_false, moveCommand, accelCommand, decelCommand, h.accel, h.decel,
      ne_eq, not_true_eq_false, if_false]
    intro m _
    simp [assignAll_zeros cfg _ h.delta m]
  unfold sendSegment
  simp only [h.accel, h.decel, hm, ne_eq, not_true_eq_false, if_false, Bool.false_and,
    Bool.false_eq_true, decide_false]

/-! ### The invariant -/

/-- `path_halted_` means what its name says. -/
structure Inv (s : State F β) : Prop where
  nonempty : s.buffer ≠ []
  ahead : 1 ≤ s.lookahead
  rest : s.halted = true → ∃ seg, s.buffer = [seg] ∧ Idle A seg

/-- The two ways `issue` can end. -/
theorem issue_cases {s : State F β} {flush : Bool} (hne : s.buffer ≠ []) (hl : 1 ≤ s.lookahead) :
    ∃ r, issue A cfg B s flush = some r ∧ r.1.lookahead = s.lookahead ∧
      r.1.positionKnown = s.positionKnown ∧ r.1.buffer.length ≤ s.buffer.length ∧
      (r.1.buffer.length < s.lookahead ∨ r.1.buffer.length = 1) ∧
    ((numSegments s.buffer.length s.lookahead flush < s.buffer.length ∧ r.1.buffer ≠ [] ∧
      r.1.halted = s.halted ∧ r.2 = (sendAll A cfg B s.backend
        (s.buffer.take (numSegments s.buffer.length s.lookahead flush)) true).2) ∨
    (numSegments s.buffer.length s.lookahead flush = s.buffer.length ∧ r.2 = false ∧
      r.1.halted = true ∧ ∃ seg, r.1.buffer = [seg] ∧ Idle A seg)) := by
  have hlen : 0 < s.buffer.length := List.length_pos_iff.2 hne
  have hn : numSegments s.buffer.length s.lookahead flush ≤ s.buffer.length ∧
      (s.buffer.length - numSegments s.buffer.length s.lookahead flush < s.lookahead) := by
    unfold numSegments
    cases flush <;> simp <;> split <;> omega
  unfold issue
  generalize numSegments s.buffer.length s.lookahead flush = n at *
  by_cases hlt : n < s.buffer.length
  · rw [issueLoop_lt A cfg B n s true hlt]
    refine ⟨_, rfl, rfl, rfl, by simp, .inl (by simpa using hn.2), .inl ⟨hlt, ?_, rfl, rfl⟩⟩
    intro e
    have e' : s.buffer.drop n = [] := e
    rw [List.drop_eq_nil_iff] at e'
    omega
  · rw [issueLoop_eq A cfg B n s true (by omega) (by omega)]
    exact ⟨_, rfl, rfl, rfl, by simp; omega, .inr rfl, .inr ⟨by omega, rfl, rfl, _, rfl, idle_zero A _⟩⟩

theorem inv_halt (s : State F β) (h : Inv A s) :
    ∃ s', bringPathToHalt A cfg B s = some s' ∧ Inv A s' ∧ s'.halted = true ∧
      s'.positionKnown = s.positionKnown ∧ s'.lookahead = s.lookahead ∧
      s'.buffer.length ≤ s.buffer.length := by
  unfold bringPathToHalt
  split
  · rename_i hh; exact ⟨s, rfl, h, hh, rfl, rfl, Nat.le_refl _⟩
  · obtain ⟨r, e, h1, h2, h3, -, h5⟩ := issue_cases A cfg B (flush := true) h.nonempty h.ahead
    have hlen : 0 < s.buffer.length := List.length_pos_iff.2 h.nonempty
    rw [numSegments_flush hlen] at h5
    rcases h5 with h5 | ⟨-, -, hh, seg, hb, hi⟩
    · omega
    · rw [e]
      exact ⟨_, rfl, ⟨by rw [hb]; simp, by rw [h1]; exact h.ahead, fun _ => ⟨seg, hb, hi⟩⟩, hh, h2, h1, h3⟩

theorem inv_external (s : State F β) (h : Inv A s) (hh : s.halted = true) (a : Axis) (p : F) :
    ∃ s', setExternalPosition A cfg B s a p = some s' ∧ Inv A s' ∧ s'.halted = true ∧
      s'.positionKnown = true ∧ s'.lookahead = s.lookahead ∧ s'.buffer.length = s.buffer.length := by
  obtain ⟨seg, hb, hi⟩ := h.rest hh
  unfold setExternalPosition
  rw [hb]
  simp only [hh, if_true]
  refine ⟨_, rfl, ⟨by simp, h.ahead, fun _ => ⟨_, rfl, ⟨hi.speed, hi.delta, hi.accel, hi.decel, hi.v1⟩⟩⟩,
    rfl, rfl, rfl, rfl⟩

theorem inv_move (h0 : A.eq A.zero A.zero = true) (s : State F β) (h : Inv A s)
    (hk : s.positionKnown = true) (hsize : s.buffer.length ≤ 1022) (axis : Axis → F) (feed : F)
    (aux : Nat) :
    ∃ r, machineMove A cfg B s axis feed aux = some r ∧ Inv A r.1 ∧ r.1.positionKnown = true ∧
      r.1.lookahead = s.lookahead ∧
      (r.1.buffer.length ≤ s.buffer.length ∨ r.1.buffer.length < s.lookahead ∨ r.1.buffer.length = 1) := by
  unfold machineMove
  rw [if_neg (by simp [hk, planningBufferCapacity]; omega), List.getLast?_eq_some_getLast h.nonempty]
  simp only
  generalize newTarget A cfg _ axis feed aux = t
  split
  · exact ⟨_, rfl, h, hk, rfl, .inl (Nat.le_refl _)⟩
  · have hul := updateMotionProfile_length A (s.buffer ++ [⟨t, Profile.zero A⟩]) s.ready
    have hid : s.halted = true → ∃ k ks,
        (updateMotionProfile A (s.buffer ++ [⟨t, Profile.zero A⟩]) s.ready).1 = k :: ks ∧ Idle A k := by
      intro hh
      obtain ⟨z, hb, hz⟩ := h.rest hh
      rw [hb]
      exact update_idle A h0 z hz _ _
    have hub : s.halted = true → s.buffer.length = 1 := by
      intro hh
      obtain ⟨z, hb, hz⟩ := h.rest hh
      rw [hb]; rfl
    generalize updateMotionProfile A (s.buffer ++ [⟨t, Profile.zero A⟩]) s.ready = u at *
    simp only [List.length_append, List.length_singleton] at hul
    have hune : u.1 ≠ [] := by intro e; rw [e] at hul; simp at hul
    obtain ⟨r, e, h1, h2, h3, h4, h5⟩ := issue_cases A cfg B (flush := false)
      (s := { s with buffer := u.1, ready := u.2 }) hune h.ahead
    rw [e]
    refine ⟨_, rfl, ⟨?_, ?_, ?_⟩, ?_, h1, .inr h4⟩
    · rcases h5 with ⟨-, g, -⟩ | ⟨-, -, -, seg, g, -⟩
      · exact g
      · show r.1.buffer ≠ []
        rw [g]; simp
    · show 1 ≤ r.1.lookahead
      rw [h1]; exact h.ahead
    · intro hh
      rcases h5 with ⟨g1, g2, g3, g4⟩ | ⟨-, -, -, seg, g, hi⟩
      · exfalso
        simp only at hh
        have hr2 : r.2 = false := by
          cases hr : r.2
          · rfl
          · rw [hr] at hh; simp at hh
        rw [hr2] at hh
        have hs : s.halted = true := by
          have : r.1.halted = true := by simpa using hh
          rw [g3] at this; exact this
        -- the segments sent are at most the idle one
        obtain ⟨k, ks, e1, hk1⟩ := hid hs
        have hl2 := hub hs
        simp only at g1 g4
        rw [hr2] at g4
        have hn : numSegments u.1.length s.lookahead false = 0 ∨
            numSegments u.1.length s.lookahead false = 1 := by omega
        rcases hn with hn | hn
        · rw [hn] at g4
          simp [sendAll] at g4
        · rw [hn, e1] at g4
          simp [sendAll, send_idle A cfg B hk1] at g4
      · exact ⟨seg, g, hi⟩
    · show r.1.positionKnown = true
      rw [h2]; exact hk

/-! ### The protocol -/

/-- The rules a caller must obey, in terms of calls only: `known`: there was no `DirectDrive` since the
last `SetExternalPosition`; `halted`: no move since the last `BringPathToHalt`. -/
def Legal : (known halted : Bool) → List (Op F) → Prop
  | _, _, [] => True
  | known, _, .move _ _ _ :: ops => known = true ∧ Legal known false ops
  | known, _, .halt :: ops => Legal known true ops
  | known, halted, .lookahead n :: ops => n ≠ 1024 ∧ Legal known halted ops
  | _, halted, .external _ _ :: ops => halted = true ∧ Legal true true ops
  | _, _, .direct _ _ _ _ _ :: ops => Legal false true ops

/-- **C52.** If callers keep to the protocol, no assertion of the planner fails: not those of
`SetExternalPosition`, `machine_move` and of the ring buffer. This holds for every arithmetic in which
`0 == 0`, every backend and every pattern of aborts. After `BringPathToHalt`, `path_halted_` is set and
the buffer consists of one segment without motion. -/
theorem C52_no_assertion_fails (h0 : A.eq A.zero A.zero = true) (ops : List (Op F)) :
    ∀ (s : State F β) (known halted : Bool), Inv A s → (known = true → s.positionKnown = true) →
      (halted = true → s.halted = true) → s.lookahead ≤ 1023 → s.buffer.length ≤ 1022 →
      Legal known halted ops → ∃ s', run A cfg B s ops = some s' ∧ Inv A s' := by
  induction ops with
  | nil => intro s _ _ h _ _ _ _ _; exact ⟨s, rfl, h⟩
  | cons op ops ih =>
    intro s known halted h hk hh hl hsize hleg
    have fin : ∀ (s1 : State F β) (known halted : Bool), step A cfg B s op = some s1 → Inv A s1 →
        (known = true → s1.positionKnown = true) → (halted = true → s1.halted = true) →
        s1.lookahead ≤ 1023 → s1.buffer.length ≤ 1022 → Legal known halted ops →
        ∃ s', run A cfg B s (op :: ops) = some s' ∧ Inv A s' := by
      intro s1 k1 h1 e a1 a2 a3 a4 a5 a6
      obtain ⟨s', g1, g2⟩ := ih s1 k1 h1 a1 a2 a3 a4 a5 a6
      refine ⟨s', ?_, g2⟩
      simp only [run, List.foldlM_cons, Option.bind_eq_bind, e, Option.bind_some]
      exact g1
    cases op with
    | move axis feed aux =>
      obtain ⟨l1, l2⟩ := hleg
      obtain ⟨r, e, g1, g2, g3, g4⟩ := inv_move A cfg B h0 s h (hk l1) hsize axis feed aux
      exact fin r.1 known false (by simp only [step, e, Option.map_some]) g1 (fun _ => g2) (by simp)
        (by omega) (by omega) l2
    | halt =>
      obtain ⟨s1, e, g1, g2, g3, g4, g5⟩ := inv_halt A cfg B s h
      exact fin s1 known true e g1 (by rw [g3]; exact hk) (fun _ => g2) (by omega) (by omega) hleg
    | lookahead n =>
      obtain ⟨l1, l2⟩ := hleg
      obtain ⟨c1, c2, c3⟩ := C47_set_lookahead s n
      cases hc : (setLookahead s n).2
      · exact fin s known halted (by simp only [step]; rw [c3 hc]) h hk hh hl hsize l2
      · have g := c1.1 hc
        unfold planningBufferCapacity at g
        refine fin { s with lookahead := n.toNat } known halted
          (by simp only [step]; rw [(c2 hc).1]) ⟨h.nonempty, ?_, h.rest⟩ hk hh ?_ hsize l2
        · simp only; omega
        · simp only; omega
    | external a p =>
      obtain ⟨l1, l2⟩ := hleg
      obtain ⟨s1, e, g1, g2, g3, g4, g5⟩ := inv_external A cfg B s h (hh l1) a p
      exact fin s1 true true e g1 (fun _ => g3) (fun _ => g2) (by omega) (by omega) l2
    | direct a d v0 v1 aux =>
      obtain ⟨s1, e, g1, g2, g3, g4, g5⟩ := inv_halt A cfg B s h
      refine fin { s1 with positionKnown := false, backend := _ } false true
        (by simp only [step, directDrive, e, Option.map_some]; rfl)
        ⟨g1.nonempty, g1.ahead, g1.rest⟩ (by simp) (fun _ => g2) (by simp only; omega)
        (by simp only; omega) hleg

/-- **C52**, from the start: the constructor succeeds and establishes the invariant. -/
theorem C52_init (b : β) (home : Axis → F) :
    ∃ s, init A cfg B b home = some s ∧ Inv A s ∧ s.halted = true ∧ s.positionKnown = true ∧
      s.buffer.length = 1 := by
  unfold init
  have key : ∀ (l : List Axis) (s : State F β), Inv A s → s.halted = true → s.positionKnown = true →
      s.buffer.length = 1 → ∃ s', l.foldlM (fun s a => setExternalPosition A cfg B s a (home a)) s =
        some s' ∧ Inv A s' ∧ s'.halted = true ∧ s'.positionKnown = true ∧ s'.buffer.length = 1 := by
    intro l
    induction l with
    | nil => intro s h1 h2 h3 h4; exact ⟨s, rfl, h1, h2, h3, h4⟩
    | cons a l ih =>
      intro s h1 h2 h3 h4
      obtain ⟨s1, e, g1, g2, g3, g4, g5⟩ := inv_external A cfg B s h1 h2 a (home a)
      obtain ⟨s', e', g⟩ := ih s1 g1 g2 g3 (by omega)
      refine ⟨s', ?_, g⟩
      simp only [List.foldlM_cons, Option.bind_eq_bind, e, Option.bind_some]
      exact e'
  exact key _ _ ⟨by simp, by simp [planningBufferCapacity], fun _ => ⟨_, rfl, idle_zero A _⟩⟩ rfl rfl rfl

/-- A backend that refuses everything. -/
def refuser : Backend F Unit where
  enqueue := fun _ _ => ((), false)
  waitQueueEmpty := fun _ => ()
  setExternalPosition := fun _ _ _ => ()

/-- Non-vacuity: moves, homing, moves on an aborting backend. -/
example : ∃ s', run intArith intConfig refuser
      { backend := (), buffer := [Segment.zero intArith], ready := 0, lookahead := 2, halted := true
        positionKnown := true }
      [.move (xy 20 5) 30 0, .move (xy 30 7) 20 0, .move (xy 30 (-4)) 30 0, .direct 0 5 1 1 0,
       .external 0 0, .move (xy 1 2) 30 0] = some s' ∧ Inv intArith s' :=
  C52_no_assertion_fails intArith intConfig refuser rfl _ _ true true
    ⟨by simp, by simp, fun _ => ⟨_, rfl, idle_zero _ _⟩⟩ (fun _ => rfl) (fun _ => rfl) (by simp)
    (by simp) (by simp [Legal])

/-- The rule about `SetExternalPosition` is needed. -/
example : run intArith intConfig refuser
      { backend := (), buffer := [Segment.zero intArith], ready := 0, lookahead := 3, halted := true
        positionKnown := true }
      [.move (xy 20 5) 30 0, .external 0 0] = none := by decide +kernel

/-! ### M181 -/

/-- What `handle_set_lookahead` (gcode-machine-control.cc 458-485) does to the planner; `none`: failed
assertion. `pair` is the result of `ParsePair`, `toInt` the conversion of its value to `int`;
`WaitQueueEmpty` and the message are left out. -/
def handleSetLookahead (toInt : F → Int) (s : State F β) (pair : Option (Char × F)) :
    Option (State F β) :=
  match pair with
  | none => if (setLookahead s planningBufferCapacity).2 then
      some (setLookahead s planningBufferCapacity).1 else none
  | some (letter, value) =>
    if letter ≠ 'S' then some s
    else if toInt value ≤ 0 ∨ toInt value > planningBufferCapacity then some s
    else if (setLookahead s (toInt value)).2 then some (setLookahead s (toInt value)).1 else none

/-- **C47** for `M181`: its assertions never fail; an argument `S` in range is in effect, one out of
range changes nothing, no argument means the maximum. -/
theorem C47_m181 (toInt : F → Int) (s : State F β) (pair : Option (Char × F)) :
    ∃ s', handleSetLookahead toInt s pair = some s' ∧
      s' = { s with lookahead := s'.lookahead } ∧
      (s'.lookahead : Int) =
        match pair with
        | none => 1024
        | some (letter, value) =>
          if letter = 'S' ∧ 1 ≤ toInt value ∧ toInt value ≤ 1024 then toInt value else s.lookahead := by
  have hset : ∀ n : Int, 1 ≤ n → n ≤ 1024 → setLookahead s n = ({ s with lookahead := n.toNat }, true) := by
    intro n h1 h2
    unfold setLookahead planningBufferCapacity
    rw [if_neg (by omega)]
  cases pair with
  | none =>
    simp only [handleSetLookahead]
    rw [show ((planningBufferCapacity : Nat) : Int) = 1024 from rfl, hset 1024 (by omega) (by omega)]
    exact ⟨_, rfl, rfl, rfl⟩
  | some lv =>
    obtain ⟨letter, value⟩ := lv
    simp only [handleSetLookahead]
    by_cases hS : letter = 'S'
    · rw [if_neg (by simp [hS])]
      by_cases hr : 1 ≤ toInt value ∧ toInt value ≤ 1024
      · rw [if_neg (by simp only [planningBufferCapacity]; omega), hset _ hr.1 hr.2]
        refine ⟨_, rfl, rfl, ?_⟩
        rw [if_pos ⟨hS, hr⟩]
        simp only; omega
      · rw [if_pos (by simp only [planningBufferCapacity]; omega)]
        refine ⟨_, rfl, rfl, ?_⟩
        rw [if_neg (by tauto)]
    · rw [if_pos hS]
      refine ⟨_, rfl, rfl, ?_⟩
      rw [if_neg (by tauto)]

end BeagleG.Planner
