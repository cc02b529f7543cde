import Verif.Planner.Spec
import Mathlib.Tactic.ByContra
import Mathlib.Tactic.Linarith
/-!
# Lemmas on the planner that hold for every arithmetic
-/
namespace BeagleG.Planner

variable {F β : Type} (A : Arith F) (cfg : Config F) (B : Backend F β)

/-! ### Motor assignment -/

theorem assign_foldl (steps : Axis → Int) (m : Motor) (l : List Axis) (out : Motor → Int) :
    (∀ a ∈ l, cfg.motorMap a m = false) →
    l.foldl (fun out a => fun m => if cfg.motorMap a m then steps a else out m) out m = out m := by
  induction l generalizing out with
  | nil => intro _; rfl
  | cons b l ih =>
    intro h
    rw [List.foldl_cons, ih _ (fun a ha => h a (List.mem_cons_of_mem _ ha))]
    simp [h b List.mem_cons_self]

theorem assign_foldl_hit (hd : cfg.Disjoint) (steps : Axis → Int) (m : Motor) (a : Axis)
    (ha : cfg.motorMap a m = true) (l : List Axis) (out : Motor → Int) (hl : a ∈ l) :
    l.foldl (fun out a => fun m => if cfg.motorMap a m then steps a else out m) out m = steps a := by
  induction l generalizing out with
  | nil => simp at hl
  | cons b l ih =>
    rw [List.foldl_cons]
    by_cases hal : a ∈ l
    · exact ih _ hal
    · have hb : a = b := by simpa [hal] using hl
      subst hb
      rw [assign_foldl]
      · simp [ha]
      · intro c hc
        by_contra h
        have := hd a c m ha (by simpa using h)
        subst this
        exact hal hc

theorem assignAll_mapped (hd : cfg.Disjoint) (steps : Axis → Int) (a : Axis) (m : Motor)
    (ha : cfg.motorMap a m = true) : assignAll cfg steps m = steps a :=
  assign_foldl_hit cfg hd steps m a ha _ _ (List.mem_finRange a)

theorem assignAll_unmapped (steps : Axis → Int) (m : Motor)
    (h : ∀ a, cfg.motorMap a m = false) : assignAll cfg steps m = 0 :=
  assign_foldl cfg steps m _ _ fun a _ => h a

theorem assignAll_sub (f g : Axis → Int) (m : Motor) :
    assignAll cfg (fun a => f a - g a) m = assignAll cfg f m - assignAll cfg g m := by
  unfold assignAll
  have : ∀ (l : List Axis) (o1 o2 o3 : Motor → Int), o3 m = o1 m - o2 m →
      l.foldl (fun out a => fun m => if cfg.motorMap a m then f a - g a else out m) o3 m =
      l.foldl (fun out a => fun m => if cfg.motorMap a m then f a else out m) o1 m -
      l.foldl (fun out a => fun m => if cfg.motorMap a m then g a else out m) o2 m := by
    intro l
    induction l with
    | nil => intro o1 o2 o3 h; exact h
    | cons b l ih =>
      intro o1 o2 o3 h
      simp only [List.foldl_cons]
      exact ih _ _ _ (by by_cases hb : cfg.motorMap b m <;> simp [hb, h])
  exact this _ _ _ _ rfl

theorem assignAll_zero (m : Motor) : assignAll cfg (fun _ => 0) m = 0 := by
  unfold assignAll
  have : ∀ (l : List Axis) (out : Motor → Int), out m = 0 →
      l.foldl (fun out a => fun m => if cfg.motorMap a m then (0 : Int) else out m) out m = 0 := by
    intro l
    induction l with
    | nil => intro out h; exact h
    | cons b l ih => intro out h; rw [List.foldl_cons]; exact ih _ (by by_cases hb : cfg.motorMap b m <;> simp [hb, h])
  exact this _ _ rfl

/-! ### The issue loop -/

/-- Send several segments. -/
def sendAll (b : β) (segs : List (Segment F)) (ret : Bool) : β × Bool :=
  segs.foldl (fun r seg => sendSegment A cfg B r.1 seg r.2) (b, ret)

/-- The segment that is kept after a complete flush. -/
def restAt (pos : Axis → Int) : Segment F :=
  { Segment.zero A with target := { AxisTarget.zero A with positionSteps := pos } }

theorem issueLoop_lt (n : Nat) : ∀ (s : State F β) (ret : Bool), n < s.buffer.length →
    issueLoop A cfg B n s ret = some
      ({ s with backend := (sendAll A cfg B s.backend (s.buffer.take n) ret).1
                buffer := s.buffer.drop n, ready := s.ready - n },
        (sendAll A cfg B s.backend (s.buffer.take n) ret).2) := by
  induction n with
  | zero => intro s ret _; simp [issueLoop, sendAll]
  | succ n ih =>
    intro s ret h
    cases hb : s.buffer with
    | nil => simp [hb] at h
    | cons seg rest =>
      rw [hb] at h
      simp only [List.length_cons] at h
      have hr : rest ≠ [] := by intro e; rw [e] at h; simp at h
      simp only [issueLoop, hb]
      rw [if_pos hr, ih _ _ (by simpa using h)]
      simp only [sendAll, List.take_succ_cons, List.foldl_cons, List.drop_succ_cons]
      rw [Nat.sub_sub, Nat.add_comm 1 n]

theorem issueLoop_eq (n : Nat) : ∀ (s : State F β) (ret : Bool), 0 < n → n = s.buffer.length →
    issueLoop A cfg B n s ret = some
      ({ s with backend := (sendAll A cfg B s.backend s.buffer ret).1
                buffer := [restAt A s.position], ready := 0, halted := true }, false) := by
  induction n with
  | zero => intro s ret hn; omega
  | succ n ih =>
    intro s ret hn h
    cases hb : s.buffer with
    | nil => simp [hb] at h
    | cons seg rest =>
      rw [hb] at h
      simp only [List.length_cons, Nat.add_right_cancel_iff] at h
      simp only [issueLoop, hb]
      by_cases hr : rest = []
      · subst hr
        simp only [List.length_nil] at h
        subst h
        have hp : s.position = seg.target.positionSteps := by
          funext a; simp [State.position, hb]
        simp [issueLoop, sendAll, restAt, hp]
      · rw [if_pos hr, ih _ _ (by cases rest with | nil => exact absurd rfl hr | cons => simp at h; omega)
          (by simpa using h)]
        simp only [sendAll, List.foldl_cons]
        congr 4
        unfold State.position restAt
        simp only [hb]
        rw [List.getLast?_cons_of_ne_nil hr] 

/-! ### Planning only touches the profiles -/

theorem backwardPass_target (rest : List (Segment F)) : ∀ done,
    ((backwardPass A rest done).1.reverse ++ (backwardPass A rest done).2).map Segment.target =
      (rest.reverse ++ done).map Segment.target := by
  induction rest with
  | nil => intro done; rfl
  | cons seg rest ih =>
    intro done
    unfold backwardPass
    cases h : decelerationPlan A seg done.head? with
    | mk p r =>
      cases r with
      | false => rfl
      | true =>
        simp only
        rw [ih]
        simp

theorem forwardPass_target (l : List (Segment F)) : ∀ prev i,
    (forwardPass A prev i l).1.map Segment.target = l.map Segment.target := by
  induction l with
  | nil => intro prev i; rfl
  | cons seg l ih => intro prev i; simp [forwardPass, ih]

theorem updateMotionProfile_target (l : List (Segment F)) (ready : Nat) :
    (updateMotionProfile A l ready).1.map Segment.target = l.map Segment.target := by
  unfold updateMotionProfile
  simp only [List.map_append, forwardPass_target]
  have := backwardPass_target A (l.drop ready).reverse []
  simp only [List.reverse_reverse, List.append_nil, List.map_append] at this
  rw [List.append_assoc, this, ← List.map_append, List.take_append_drop]

theorem updateMotionProfile_length (l : List (Segment F)) (ready : Nat) :
    (updateMotionProfile A l ready).1.length = l.length := by
  have := congrArg List.length (updateMotionProfile_target A l ready)
  simpa using this

/-! ### Sums -/

theorem stepsOf_append (m : Motor) (l l' : List (Call F)) :
    stepsOf m (l ++ l') = stepsOf m l + stepsOf m l' := by
  induction l with
  | nil => simp [stepsOf]
  | cons c l ih => cases c <;> simp [stepsOf, ih]; omega

/-- Steps of a motor requested by a list of targets. -/
def pendingSteps (m : Motor) (l : List (AxisTarget F)) : Int :=
  (l.map fun t => assignAll cfg t.deltaSteps m).sum

theorem hasMove_false {seg : Segment F} (h : hasMove A cfg seg = false) (m : Motor) :
    (moveCommand A cfg seg).steps m = 0 := by
  unfold hasMove at h
  rw [List.any_eq_false] at h
  have := h m (List.mem_finRange m)
  simpa using this

/-! ### Backends that accept everything -/

/-- A backend that accepts every segment; `acc` is an account of the steps it has been given. -/
structure Ledger (B : Backend F β) (acc : Motor → β → Int) : Prop where
  ok : ∀ b c, (B.enqueue b c).2 = true
  enqueue : ∀ b c m, acc m (B.enqueue b c).1 = acc m b + c.steps m
  wait : ∀ b m, acc m (B.waitQueueEmpty b) = acc m b

theorem recorder_ledger : Ledger (recorder (F := F)) stepsOf where
  ok _ _ := rfl
  enqueue b c m := by simp [recorder, stepsOf_append, stepsOf]
  wait b m := by simp [recorder, stepsOf_append, stepsOf]

variable {acc : Motor → β → Int} (L : Ledger B acc)

include L in
/-- A segment is sent completely: acceleration, travel and deceleration add up to its steps. -/
theorem sendSegment_ledger (b : β) (seg : Segment F) :
    (sendSegment A cfg B b seg true).2 = true ∧
    ∀ m, acc m (sendSegment A cfg B b seg true).1 =
      acc m b + assignAll cfg seg.target.deltaSteps m := by
  have hb : ∀ m, acc m (if cfg.synchronous then B.waitQueueEmpty b else b) =
      acc m b := by
    intro m
    split
    · exact L.wait _ _
    · rfl
  unfold sendSegment
  generalize (if cfg.synchronous = true then B.waitQueueEmpty b else b) = b' at hb
  have hmv : ∀ m, (moveCommand A cfg seg).steps m = assignAll cfg seg.target.deltaSteps m
      - (accelCommand A cfg seg).steps m - (decelCommand A cfg seg).steps m := fun m => rfl
  have hmove := hasMove_false A cfg (seg := seg)
  have hacc : seg.planned.accel = 0 → ∀ m, (accelCommand A cfg seg).steps m = 0 := by
    intro h m; simp [accelCommand, h]
  have hdec : seg.planned.decel = 0 → ∀ m, (decelCommand A cfg seg).steps m = 0 := by
    intro h m; simp [decelCommand, h]
  by_cases h1 : seg.planned.accel = 0 <;> by_cases h2 : seg.planned.decel = 0 <;>
    cases h3 : hasMove A cfg seg <;>
    simp [h1, h2, L.ok] <;>
    intro m <;> simp only [L.enqueue, hb] <;>
    have e1 := hmv m <;>
    first
    | (have e2 := hmove h3 m; have e3 := hacc h1 m; have e4 := hdec h2 m; omega)
    | (have e2 := hmove h3 m; have e3 := hacc h1 m; omega)
    | (have e2 := hmove h3 m; have e4 := hdec h2 m; omega)
    | (have e3 := hacc h1 m; have e4 := hdec h2 m; omega)
    | (have e2 := hmove h3 m; omega)
    | (have e3 := hacc h1 m; omega)
    | (have e4 := hdec h2 m; omega)
    | omega

include L in
theorem sendAll_ledger (segs : List (Segment F)) : ∀ b : β,
    (sendAll A cfg B b segs true).2 = true ∧
    ∀ m, acc m (sendAll A cfg B b segs true).1 =
      acc m b + pendingSteps cfg m (segs.map Segment.target) := by
  induction segs with
  | nil => intro b; simp [sendAll, pendingSteps]
  | cons seg segs ih =>
    intro b
    obtain ⟨h1, h2⟩ := sendSegment_ledger A cfg B L b seg
    have e : sendAll A cfg B b (seg :: segs) true =
        sendAll A cfg B (sendSegment A cfg B b seg true).1 segs true := by
      unfold sendAll
      rw [List.foldl_cons]
      congr 1
      exact Prod.ext rfl h1
    rw [e]
    obtain ⟨g1, g2⟩ := ih (sendSegment A cfg B b seg true).1
    refine ⟨g1, ?_⟩
    intro m
    rw [g2, h2]
    simp [pendingSteps]
    omega

theorem pendingSteps_append (m : Motor) (l l' : List (AxisTarget F)) :
    pendingSteps cfg m (l ++ l') = pendingSteps cfg m l + pendingSteps cfg m l' := by
  simp [pendingSteps]

/-! ### Well-formed states -/

/-- What holds of the planner between calls. -/
structure Wf (s : State F β) : Prop where
  nonempty : s.buffer ≠ []
  ahead : 1 ≤ s.lookahead
  rest : s.halted = true → ∃ seg, s.buffer = [seg] ∧ ∀ a, seg.target.deltaSteps a = 0

/-- Steps buffered for a motor. -/
def State.pending (cfg : Config F) (s : State F β) (m : Motor) : Int :=
  pendingSteps cfg m (s.buffer.map Segment.target)

theorem pendingSteps_zero (m : Motor) (t : AxisTarget F) (h : ∀ a, t.deltaSteps a = 0) :
    pendingSteps cfg m [t] = 0 := by
  have : t.deltaSteps = fun _ => 0 := funext h
  simp [pendingSteps, this, assignAll_zero]

theorem definingAxis_zero (delta : Axis → Int) (h : (definingAxis delta).1 = 0) (a : Axis) :
    delta a = 0 := by
  have key : ∀ (l : List Axis) (acc : Int × Axis), acc.1 ≤ (l.foldl (fun acc a =>
      if ((delta a).natAbs : Int) > acc.1 then (((delta a).natAbs : Int), a) else acc) acc).1 ∧
      ∀ b ∈ l, ((delta b).natAbs : Int) ≤ (l.foldl (fun acc a =>
      if ((delta a).natAbs : Int) > acc.1 then (((delta a).natAbs : Int), a) else acc) acc).1 := by
    intro l
    induction l with
    | nil => intro acc; simp
    | cons b l ih =>
      intro acc
      rw [List.foldl_cons]
      obtain ⟨h1, h2⟩ := ih (if ((delta b).natAbs : Int) > acc.1 then (((delta b).natAbs : Int), b) else acc)
      have h3 : acc.1 ≤ (if ((delta b).natAbs : Int) > acc.1 then (((delta b).natAbs : Int), b) else acc).1 ∧
          ((delta b).natAbs : Int) ≤ (if ((delta b).natAbs : Int) > acc.1 then (((delta b).natAbs : Int), b) else acc).1 := by
        split <;> constructor <;> omega
      refine ⟨Int.le_trans h3.1 h1, ?_⟩
      intro c hc
      rcases List.mem_cons.1 hc with hc | hc
      · subst hc; exact Int.le_trans h3.2 h1
      · exact h2 c hc
  have := (key (List.finRange 10) (-1, 0)).2 a (List.mem_finRange a)
  unfold definingAxis at h
  rw [h] at this
  omega

theorem newTarget_position (prev : AxisTarget F) (axis : Axis → F) (feed : F) (aux : Nat) (a : Axis) :
    (newTarget A cfg prev axis feed aux).positionSteps a =
      A.lround (A.mul (axis a) (cfg.stepsPerMm a)) := rfl

theorem newTarget_delta (prev : AxisTarget F) (axis : Axis → F) (feed : F) (aux : Nat) (a : Axis) :
    (newTarget A cfg prev axis feed aux).deltaSteps a =
      A.lround (A.mul (axis a) (cfg.stepsPerMm a)) - prev.positionSteps a := rfl

theorem numSegments_flush {size la : Nat} (h : 0 < size) : numSegments size la true = size := by
  unfold numSegments
  simp only [if_true]
  rw [if_neg (by omega)]

theorem position_of_targets {s : State F β} {l : List (Segment F)} (h : l ≠ [])
    (he : s.buffer.map Segment.target = l.map Segment.target) (a : Axis) :
    s.position a = (l.getLast h).target.positionSteps a := by
  unfold State.position
  have h1 : s.buffer.getLast?.map Segment.target = l.getLast?.map Segment.target := by
    rw [← List.getLast?_map, ← List.getLast?_map, he]
  rw [List.getLast?_eq_some_getLast h] at h1
  cases hx : s.buffer.getLast? with
  | none => rw [hx] at h1; simp at h1
  | some seg =>
    rw [hx] at h1
    simp only [Option.map_some, Option.some.injEq] at h1
    simp only
    rw [h1]

include L in
/-- Sending with a backend that accepts everything keeps the account. -/
theorem issue_ledger {s s' : State F β} {flush ret : Bool}
    (hne : s.buffer ≠ []) (hn : numSegments s.buffer.length s.lookahead flush ≤ s.buffer.length)
    (h : issue A cfg B s flush = some (s', ret)) :
    s'.buffer ≠ [] ∧ s'.lookahead = s.lookahead ∧ s'.positionKnown = s.positionKnown ∧
    (∀ m, acc m s'.backend + s'.pending cfg m = acc m s.backend + s.pending cfg m) ∧
    (∀ a, s'.position a = s.position a) ∧
    (if numSegments s.buffer.length s.lookahead flush = s.buffer.length
      then s'.buffer = [restAt A s.position] ∧ s'.halted = true ∧ ret = false ∧ s'.ready = 0
      else s'.buffer = s.buffer.drop (numSegments s.buffer.length s.lookahead flush) ∧
        s'.halted = s.halted ∧ ret = true ∧
        s'.ready = s.ready - numSegments s.buffer.length s.lookahead flush) := by
  unfold issue at h
  have hlen : 0 < s.buffer.length := List.length_pos_iff.2 hne
  generalize numSegments s.buffer.length s.lookahead flush = n at *
  by_cases hlt : n < s.buffer.length
  · rw [issueLoop_lt A cfg B n s true hlt] at h
    obtain ⟨g1, g2⟩ := sendAll_ledger A cfg B L (s.buffer.take n) s.backend
    injection h with h
    injection h with h1 h2
    subst h1
    refine ⟨?_, rfl, rfl, ?_, ?_, ?_⟩
    · intro e
      have e' : s.buffer.drop n = [] := e
      rw [List.drop_eq_nil_iff] at e'
      omega
    · intro m
      simp only [State.pending]
      rw [g2]
      have := pendingSteps_append cfg m ((s.buffer.take n).map Segment.target)
        ((s.buffer.drop n).map Segment.target)
      rw [← List.map_append, List.take_append_drop] at this
      omega
    · intro a
      simp only [State.position]
      rw [List.getLast?_drop, if_neg (by omega)]
    · rw [if_neg (by omega)]
      exact ⟨rfl, rfl, by rw [← h2]; exact g1, rfl⟩
  · have he : n = s.buffer.length := by omega
    rw [issueLoop_eq A cfg B n s true (by omega) he] at h
    obtain ⟨g1, g2⟩ := sendAll_ledger A cfg B L s.buffer s.backend
    injection h with h
    injection h with h1 h2
    subst h1
    refine ⟨by simp, rfl, rfl, ?_, ?_, ?_⟩
    · intro m
      simp only [State.pending]
      rw [g2]
      have : pendingSteps cfg m ([restAt A s.position].map Segment.target) = 0 :=
        pendingSteps_zero cfg m _ (fun a => rfl)
      rw [this]
      omega
    · intro a
      simp [State.position, restAt]
    · rw [if_pos he]
      exact ⟨rfl, rfl, h2.symm, rfl⟩

include L in
theorem step_ledger {s s' : State F β} {op : Op F} (hw : Wf s)
    (hop : op.isPath = true) (h : step A cfg B s op = some s') :
    Wf s' ∧ (∀ a, s'.position a = destination A cfg s.position [op] a) ∧
    ∀ m, acc m s'.backend + s'.pending cfg m = acc m s.backend + s.pending cfg m +
      (assignAll cfg s'.position m - assignAll cfg s.position m) := by
  have hlen : 0 < s.buffer.length := List.length_pos_iff.2 hw.nonempty
  cases op with
  | external a p => simp [Op.isPath] at hop
  | direct => simp [Op.isPath] at hop
  | lookahead n =>
    simp only [step, Option.some.injEq] at h
    subst h
    unfold setLookahead
    split
    · exact ⟨hw, fun _ => rfl, fun m => by simp only; omega⟩
    · refine ⟨⟨hw.nonempty, ?_, hw.rest⟩, fun _ => rfl, fun m => ?_⟩
      · simp only; omega
      · have e : ({ s with lookahead := n.toNat } : State F β).position = s.position := rfl
        simp only [State.pending, e]; omega
  | halt =>
    simp only [step, bringPathToHalt] at h
    split at h
    · injection h with h; subst h
      exact ⟨hw, fun _ => rfl, fun m => by omega⟩
    · cases hi : issue A cfg B s true with
      | none => simp [hi] at h
      | some r =>
        rw [hi] at h
        simp only [Option.map_some, Option.some.injEq] at h
        obtain ⟨r1, r2⟩ := r
        simp only at h
        subst h
        obtain ⟨g1, g2, g3, g4, g5, g6⟩ := issue_ledger A cfg B L hw.nonempty
          (by rw [numSegments_flush hlen]) hi
        rw [if_pos (numSegments_flush hlen)] at g6
        refine ⟨⟨g1, by rw [g2]; exact hw.ahead, fun _ => ⟨_, g6.1, fun _ => rfl⟩⟩, g5, ?_⟩
        intro m
        have : r1.position = s.position := funext g5
        rw [g4, this]; omega
  | move axis feed aux =>
    simp only [step, machineMove] at h
    split at h
    · simp at h
    · rename_i hcond
      have hl := List.getLast?_eq_some_getLast hw.nonempty
      rw [hl] at h
      simp only at h
      generalize hprev : s.buffer.getLast hw.nonempty = prev at h hl
      have hpos : ∀ a, s.position a = prev.target.positionSteps a := by
        intro a; unfold State.position; rw [hl]
      split at h
      · rename_i hz
        simp only [Option.map_some, Option.some.injEq] at h
        subst h
        refine ⟨hw, ?_, fun m => by omega⟩
        intro a
        have := definingAxis_zero _ hz a
        rw [newTarget_delta] at this
        simp only [destination]
        rw [hpos]; omega
      · generalize hu : updateMotionProfile A (s.buffer ++
          [⟨newTarget A cfg prev.target axis feed aux, Profile.zero A⟩]) s.ready = u at h
        have htg : u.1.map Segment.target = (s.buffer ++
            [(⟨newTarget A cfg prev.target axis feed aux, Profile.zero A⟩ : Segment F)]).map
              Segment.target := by
          rw [← hu]; exact updateMotionProfile_target A _ _
        have hulen : u.1.length = s.buffer.length + 1 := by
          have := congrArg List.length htg; simpa using this
        cases hi : issue A cfg B { s with buffer := u.1, ready := u.2 } false with
        | none => simp [hi] at h
        | some r =>
          rw [hi] at h
          simp only [Option.map_some, Option.some.injEq] at h
          obtain ⟨r1, r2⟩ := r
          have hune : u.1 ≠ [] := by intro e; rw [e] at hulen; simp at hulen
          have hahead := hw.ahead
          obtain ⟨g1, g2, g3, g4, g5, g6⟩ := issue_ledger A cfg B L
            (s := { s with buffer := u.1, ready := u.2 }) hune
            (by
              show numSegments u.1.length s.lookahead false ≤ u.1.length
              unfold numSegments
              simp only [Bool.false_eq_true, if_false]
              split <;> omega) hi
          have hnewpos : ∀ a, r1.position a = A.lround (A.mul (axis a) (cfg.stepsPerMm a)) := by
            intro a
            rw [g5, position_of_targets (s := { s with buffer := u.1, ready := u.2 })
              (l := s.buffer ++
                [(⟨newTarget A cfg prev.target axis feed aux, Profile.zero A⟩ : Segment F)])
              (by simp) htg]
            simp [newTarget_position]
          have hs' : s'.buffer = r1.buffer ∧ s'.backend = r1.backend ∧ s'.lookahead = r1.lookahead ∧
              s'.halted = (if r2 = true then false else r1.halted) := by
            rw [← h]; exact ⟨rfl, rfl, rfl, rfl⟩
          have hposeq : ∀ a, s'.position a = r1.position a := by
            intro a; unfold State.position; rw [hs'.1]
          refine ⟨⟨by rw [hs'.1]; exact g1, by rw [hs'.2.2.1, g2]; exact hw.ahead, ?_⟩, ?_, ?_⟩
          · intro hh
            rw [hs'.2.2.2] at hh
            split at g6
            · exact ⟨_, by rw [hs'.1]; exact g6.1, fun _ => rfl⟩
            · rw [g6.2.2.1] at hh; simp at hh
          · intro a
            rw [hposeq, hnewpos]; rfl
          · intro m
            have e1 : s'.pending cfg m = r1.pending cfg m := by
              unfold State.pending; rw [hs'.1]
            have e2 : State.pending cfg { s with buffer := u.1, ready := u.2 } m =
                s.pending cfg m + (assignAll cfg s'.position m - assignAll cfg s.position m) := by
              unfold State.pending
              simp only [htg, List.map_append]
              rw [pendingSteps_append]
              simp only [pendingSteps, List.map_cons, List.map_nil, List.sum_cons, List.sum_nil]
              have : (newTarget A cfg prev.target axis feed aux).deltaSteps =
                  fun a => s'.position a - s.position a := by
                funext a
                rw [newTarget_delta, hposeq, hnewpos, hpos]
              rw [this, assignAll_sub]
              omega
            rw [hs'.2.1, e1, g4, e2]
            simp only
            omega

include L in
theorem run_ledger (ops : List (Op F)) : ∀ s s' : State F β, Wf s →
    (∀ op ∈ ops, op.isPath = true) → run A cfg B s ops = some s' →
    Wf s' ∧ (∀ a, s'.position a = destination A cfg s.position ops a) ∧
    ∀ m, acc m s'.backend + s'.pending cfg m = acc m s.backend + s.pending cfg m +
      (assignAll cfg s'.position m - assignAll cfg s.position m) := by
  induction ops with
  | nil =>
    intro s s' hw _ h
    simp only [run, List.foldlM_nil, Option.pure_def, Option.some.injEq] at h
    subst h
    exact ⟨hw, fun _ => rfl, fun m => by omega⟩
  | cons op ops ih =>
    intro s s' hw hp h
    simp only [run, List.foldlM_cons, Option.bind_eq_bind] at h
    cases e : step A cfg B s op with
    | none => rw [e] at h; simp at h
    | some s1 =>
      rw [e] at h
      simp only [Option.bind_some] at h
      obtain ⟨h1, h2, h3⟩ := step_ledger A cfg B L hw (hp op List.mem_cons_self) e
      obtain ⟨k1, k2, k3⟩ := ih s1 s' h1 (fun x hx => hp x (List.mem_cons_of_mem _ hx)) h
      refine ⟨k1, ?_, ?_⟩
      · intro a
        rw [k2]
        have : s1.position = destination A cfg s.position [op] := funext h2
        rw [this]
        cases op <;> rfl
      · intro m
        rw [k3 m, h3 m]
        omega

end BeagleG.Planner

