import Verif.Planner.Lemmas
/-!
# C29, C30, C47: no drift, no overflow, look-ahead

Everything here holds for every arithmetic `A`, i.e. whatever the floating point computations of the
planner yield.
-/
namespace BeagleG.Planner

variable {F β : Type} (A : Arith F) (cfg : Config F) (B : Backend F β)

/-! ### C29 -/

/-- **C29.** Start with a halted planner, enqueue any sequence of targets (with look-ahead changes and
flushes in between), flush: the steps sent to a motor add up to exactly the rounded last target of its
axis minus the starting position. Motors of no axis get no steps. -/
theorem C29_no_drift (hd : cfg.Disjoint) (s s' : State F (List (Call F))) (hw : Wf s)
    (hh : s.halted = true) (ops : List (Op F)) (hops : ∀ op ∈ ops, op.isPath = true)
    (hr : run A cfg recorder s (ops ++ [.halt]) = some s') :
    (∀ a m, cfg.motorMap a m = true →
      stepsOf m s'.backend = stepsOf m s.backend +
        (destination A cfg s.position ops a - s.position a)) ∧
    (∀ m, (∀ a, cfg.motorMap a m = false) → stepsOf m s'.backend = stepsOf m s.backend) ∧
    ∀ a, s'.position a = destination A cfg s.position ops a := by
  have hdest : ∀ (ops : List (Op F)) p, destination A cfg p (ops ++ [.halt]) = destination A cfg p ops := by
    intro ops
    induction ops with
    | nil => intro p; rfl
    | cons op ops ih => intro p; cases op <;> simp [destination, ih]
  obtain ⟨h1, h2, h3⟩ := run_ledger A cfg recorder recorder_ledger (ops ++ [.halt]) s s' hw
    (by intro op hop; rcases List.mem_append.1 hop with h | h
        · exact hops op h
        · simp at h; subst h; rfl) hr
  rw [hdest] at h2
  -- nothing is pending in a halted planner
  have hz : ∀ t : State F (List (Call F)), Wf t → t.halted = true → ∀ m, t.pending cfg m = 0 := by
    intro t ht hth m
    obtain ⟨seg, hb, hdz⟩ := ht.rest hth
    unfold State.pending
    rw [hb]
    exact pendingSteps_zero cfg m _ hdz
  have hh' : s'.halted = true := by
    simp only [run, List.foldlM_append, List.foldlM_cons, List.foldlM_nil, Option.bind_eq_bind] at hr
    cases e : ops.foldlM (step A cfg recorder) s with
    | none => rw [e] at hr; simp at hr
    | some t =>
      rw [e] at hr
      simp only [Option.bind_some, step, bringPathToHalt] at hr
      have ht : Wf t := (run_ledger A cfg recorder recorder_ledger ops s t hw hops e).1
      split at hr
      · rename_i hth
        simp only [Option.bind_some, Option.pure_def, Option.some.injEq] at hr
        subst hr; exact hth
      · have hlen : 0 < t.buffer.length := List.length_pos_iff.2 ht.nonempty
        cases hi : issue A cfg recorder t true with
        | none => rw [hi] at hr; simp at hr
        | some r =>
          rw [hi] at hr
          simp only [Option.map_some, Option.bind_some, Option.pure_def, Option.some.injEq] at hr
          obtain ⟨r1, r2⟩ := r
          subst hr
          have g := (issue_ledger A cfg recorder recorder_ledger ht.nonempty (by rw [numSegments_flush hlen]) hi).2.2.2.2.2
          rw [if_pos (numSegments_flush hlen)] at g
          exact g.2.1
  refine ⟨?_, ?_, h2⟩
  · intro a m hm
    have e := h3 m
    rw [hz s' h1 hh' m, hz s hw hh m, assignAll_mapped cfg hd _ a m hm,
      assignAll_mapped cfg hd _ a m hm, h2] at e
    omega
  · intro m hm
    have e := h3 m
    rw [hz s' h1 hh' m, hz s hw hh m, assignAll_unmapped cfg _ m hm, assignAll_unmapped cfg _ m hm] at e
    omega

/-- **C29**, at any time: what was sent plus what is still buffered is the distance to the last
target. -/
theorem C29_account (s s' : State F (List (Call F))) (hw : Wf s) (ops : List (Op F))
    (hops : ∀ op ∈ ops, op.isPath = true) (hr : run A cfg recorder s ops = some s')
    (hd : cfg.Disjoint) (a : Axis) (m : Motor) (hm : cfg.motorMap a m = true) :
    stepsOf m s'.backend + s'.pending cfg m = stepsOf m s.backend + s.pending cfg m +
      (destination A cfg s.position ops a - s.position a) := by
  obtain ⟨-, h2, h3⟩ := run_ledger A cfg recorder recorder_ledger ops s s' hw hops hr
  rw [h3 m, assignAll_mapped cfg hd _ a m hm, assignAll_mapped cfg hd _ a m hm, h2]

/-! ### A concrete arithmetic for the examples -/

/-- Integers; `sqrt` is the integer square root. -/
def intArith : Arith Int where
  ofInt := id
  add := (· + ·)
  sub := (· - ·)
  mul := (· * ·)
  div := fun a b => a / b
  abs := fun a => (a.natAbs : Int)
  sqrt := fun a => ((List.range 200).reverse.find? (fun k => ((k * k : Nat) : Int) ≤ a)).getD 0
  acos := fun _ => 0
  cos := fun _ => 1
  lt := fun a b => decide (a < b)
  le := fun a b => decide (a ≤ b)
  eq := fun a b => decide (a = b)
  toInt := id
  toU32 := Int.toNat
  lround := id
  toFloat := id
  pi := 3
  eps := 0

/-- The machine in the examples. -/
def intConfig : Config Int where
  stepsPerMm := fun _ => 10
  maxFeedrate := fun _ => 100
  acceleration := fun _ => 20
  thresholdAngle := 10
  speedTuneAngle := 0
  synchronous := false
  motorMap := fun a m => (a == 0 && (m == 0 || m == 3)) || (a == 1 && m == 1)

theorem intConfig_disjoint : intConfig.Disjoint := by
  unfold Config.Disjoint intConfig
  decide

/-- X and Y set, all others 0. -/
def xy (x y : Int) : Axis → Int := fun a => if a = 0 then x else if a = 1 then y else 0

/-- The planner in the examples before its first move. -/
def intStart : State Int (List (Call Int)) :=
  { backend := [], buffer := [Segment.zero intArith], ready := 0, lookahead := 3, halted := true
    positionKnown := true }

/-- Non-vacuity of C29: a path with three corners, look-ahead 3. -/
example : Wf intStart ∧
    ((run intArith intConfig recorder intStart
      [.move (xy 20 5) 30 0, .move (xy 30 7) 20 0, .move (xy 30 (-4)) 30 0, .move (xy 1 2) 30 0,
       .move (xy 1 2) 50 0, .halt]).map fun s =>
        (stepsOf 0 s.backend, stepsOf 1 s.backend, stepsOf 2 s.backend, stepsOf 3 s.backend,
          s.backend.length)) = some (10, 20, 0, 10, 6) := by
  constructor
  · refine ⟨by simp [intStart], by simp [intStart], fun _ => ⟨_, rfl, fun _ => rfl⟩⟩
  · decide +kernel

/-! ### C30 -/

theorem issue_length {s : State F β} {flush : Bool} (hl : 1 ≤ s.lookahead) (hne : s.buffer ≠ []) :
    ∃ r, issue A cfg B s flush = some r ∧ r.1.buffer ≠ [] ∧ r.1.lookahead = s.lookahead ∧
      r.1.positionKnown = s.positionKnown ∧ (r.1.buffer.length ≤ s.buffer.length) ∧
      (r.1.buffer.length < s.lookahead ∨ r.1.buffer.length = 1) := by
  have hlen : 0 < s.buffer.length := List.length_pos_iff.2 hne
  have hn : numSegments s.buffer.length s.lookahead flush ≤ s.buffer.length ∧
      (s.buffer.length - numSegments s.buffer.length s.lookahead flush < s.lookahead) := by
    unfold numSegments
    cases flush <;> simp <;> split <;> omega
  unfold issue
  generalize numSegments s.buffer.length s.lookahead flush = n at *
  by_cases hlt : n < s.buffer.length
  · rw [issueLoop_lt A cfg B n s true hlt]
    refine ⟨_, rfl, ?_, rfl, rfl, ?_, ?_⟩
    · intro e
      have e' : s.buffer.drop n = [] := e
      rw [List.drop_eq_nil_iff] at e'
      omega
    · simp
    · left; simp only [List.length_drop]; exact hn.2
  · rw [issueLoop_eq A cfg B n s true (by omega) (by omega)]
    exact ⟨_, rfl, by simp, rfl, rfl, by simp; omega, .inr rfl⟩

/-- **C30** (sizes up to 1023). As long as the look-ahead is at most 1023, no sequence of moves,
flushes and look-ahead changes ever fails an assertion, whatever the backend answers; the buffer never
holds more than 1022 segments between calls. (`.lookahead` with a refused size changes nothing.) -/
theorem C30_no_overflow_partial (s : State F β) (hne : s.buffer ≠ []) (hl1 : 1 ≤ s.lookahead)
    (hl : s.lookahead ≤ 1023) (hsize : s.buffer.length ≤ 1022) (hk : s.positionKnown = true)
    (ops : List (Op F)) (hops : ∀ op ∈ ops, op.isPath = true)
    (hla : ∀ n, Op.lookahead n ∈ ops → n ≠ 1024) :
    ∃ s', run A cfg B s ops = some s' ∧ s'.buffer ≠ [] ∧ s'.buffer.length ≤ 1022 ∧
      s'.lookahead ≤ 1023 := by
  induction ops generalizing s with
  | nil => exact ⟨s, rfl, hne, hsize, hl⟩
  | cons op ops ih =>
    have hops' : ∀ op ∈ ops, op.isPath = true := fun x hx => hops x (List.mem_cons_of_mem _ hx)
    have hla' : ∀ n, Op.lookahead n ∈ ops → n ≠ 1024 := fun n hn => hla n (List.mem_cons_of_mem _ hn)
    have hstep : ∃ s1, step A cfg B s op = some s1 ∧ s1.buffer ≠ [] ∧ 1 ≤ s1.lookahead ∧
        s1.lookahead ≤ 1023 ∧ s1.buffer.length ≤ 1022 ∧ s1.positionKnown = true := by
      cases op with
      | external a p => have := hops _ List.mem_cons_self; simp [Op.isPath] at this
      | direct => have := hops _ List.mem_cons_self; simp [Op.isPath] at this
      | lookahead n =>
        refine ⟨_, rfl, ?_⟩
        have hn := hla n List.mem_cons_self
        by_cases hc : n ≤ 0 ∨ n > (planningBufferCapacity : Nat)
        · have e : setLookahead s n = (s, false) := by unfold setLookahead; rw [if_pos hc]
          rw [e]
          exact ⟨hne, hl1, hl, hsize, hk⟩
        · have e : setLookahead s n = ({ s with lookahead := n.toNat }, true) := by
            unfold setLookahead; rw [if_neg hc]
          rw [e]
          unfold planningBufferCapacity at hc
          exact ⟨hne, by simp only; omega, by simp only; omega, hsize, hk⟩
      | halt =>
        simp only [step, bringPathToHalt]
        split
        · exact ⟨s, rfl, hne, hl1, hl, hsize, hk⟩
        · obtain ⟨r, h1, h2, h3, h4, h5, h6⟩ := issue_length A cfg B (flush := true) hl1 hne
          rw [h1]
          exact ⟨_, rfl, h2, by rw [h3]; exact hl1, by rw [h3]; exact hl, by omega, by rw [h4]; exact hk⟩
      | move axis feed aux =>
        simp only [step, machineMove]
        rw [if_neg (by simp [hk, planningBufferCapacity]; omega)]
        rw [List.getLast?_eq_some_getLast hne]
        simp only
        generalize newTarget A cfg _ axis feed aux = t
        split
        · exact ⟨s, rfl, hne, hl1, hl, hsize, hk⟩
        · have hul := updateMotionProfile_length A (s.buffer ++ [⟨t, Profile.zero A⟩]) s.ready
          generalize updateMotionProfile A (s.buffer ++ [⟨t, Profile.zero A⟩]) s.ready = u at hul
          simp only [List.length_append, List.length_singleton] at hul
          obtain ⟨r, h1, h2, h3, h4, h5, h6⟩ := issue_length A cfg B (flush := false)
            (s := { s with buffer := u.1, ready := u.2 }) hl1
            (by intro e; have e' : u.1 = [] := e; rw [e'] at hul; simp at hul)
          rw [h1]
          refine ⟨_, rfl, h2, by simp only [h3]; exact hl1, by simp only [h3]; exact hl, ?_, ?_⟩
          · simp only at h6 ⊢
            omega
          · simp only; rw [h4]; exact hk
    obtain ⟨s1, e, g1, g2, g3, g4, g5⟩ := hstep
    obtain ⟨s', h1, h2⟩ := ih s1 g1 g2 g3 g4 g5 hops' hla'
    refine ⟨s', ?_, h2⟩
    simp only [run, List.foldlM_cons, Option.bind_eq_bind, e, Option.bind_some]
    exact h1

/-- With look-ahead 1024 a move to a new position makes the buffer grow by one as long as it can. -/
theorem move_grows (s : State F β) (hne : s.buffer ≠ []) (hl : s.lookahead = 1024)
    (hsize : s.buffer.length < 1023) (hk : s.positionKnown = true) (axis : Axis → F) (feed : F)
    (aux : Nat) (a : Axis) (hmove : A.lround (A.mul (axis a) (cfg.stepsPerMm a)) ≠ s.position a) :
    ∃ s', step A cfg B s (.move axis feed aux) = some s' ∧ s'.buffer.length = s.buffer.length + 1 ∧
      s'.lookahead = 1024 ∧ s'.positionKnown = true ∧
      ∀ a, s'.position a = A.lround (A.mul (axis a) (cfg.stepsPerMm a)) := by
  simp only [step, machineMove]
  rw [if_neg (by simp [hk, planningBufferCapacity]; omega)]
  have hlast := List.getLast?_eq_some_getLast hne
  rw [hlast]
  simp only
  have hpos : ∀ a, s.position a = (s.buffer.getLast hne).target.positionSteps a := by
    intro a; unfold State.position; rw [hlast]
  generalize s.buffer.getLast hne = prev at *
  rw [if_neg (by
    intro hz
    have := definingAxis_zero _ hz a
    rw [newTarget_delta] at this
    rw [hpos] at hmove
    omega)]
  have htg := updateMotionProfile_target A (s.buffer ++
    [(⟨newTarget A cfg prev.target axis feed aux, Profile.zero A⟩ : Segment F)]) s.ready
  generalize updateMotionProfile A (s.buffer ++
    [⟨newTarget A cfg prev.target axis feed aux, Profile.zero A⟩]) s.ready = u at *
  have hul : u.1.length = s.buffer.length + 1 := by simpa using congrArg List.length htg
  have hn : numSegments u.1.length s.lookahead false = 0 := by
    unfold numSegments; rw [hl]; simp; omega
  have hi : issue A cfg B { s with buffer := u.1, ready := u.2 } false =
      some ({ s with buffer := u.1, ready := u.2 }, true) := by
    unfold issue
    simp only [hn, issueLoop]
  rw [hi]
  refine ⟨_, rfl, hul, hl, hk, ?_⟩
  intro b
  rw [position_of_targets (l := s.buffer ++
    [(⟨newTarget A cfg prev.target axis feed aux, Profile.zero A⟩ : Segment F)]) (by simp) htg]
  simp [newTarget_position]

/-- Moves to 1, 2, ..., n on the first axis, from `k + 1` on. -/
def creep (k n : Nat) : List (Op Int) :=
  (List.range' (k + 1) n).map fun (i : Nat) => Op.move (fun _ => Int.ofNat i) 1 0

/-- **C30, the counterexample.** `SetLookahead` accepts 1024, which is also the default. With it, 1023
moves without a flush fail the assertion on the size of the ring buffer (1023 elements). -/
theorem C30_default_overflows :
    ∃ (cfg : Config Int) (s : State Int (List (Call Int))),
      init intArith cfg recorder [] (fun _ => 0) = some s ∧ s.lookahead = planningBufferCapacity ∧
      run intArith cfg recorder s (creep 0 1022) ≠ none ∧
      run intArith cfg recorder s (creep 0 1023) = none := by
  let cfg : Config Int := { intConfig with stepsPerMm := fun _ => 1, motorMap := fun _ _ => false }
  refine ⟨cfg, { backend := [], buffer := [Segment.zero intArith], ready := 0, lookahead := 1024
                 halted := true, positionKnown := true }, ?_, rfl, ?_⟩
  · have hmm : ∀ a m, cfg.motorMap a m = false := fun _ _ => rfl
    have hset : ∀ (s : State Int (List (Call Int))) (a : Axis), s.buffer = [Segment.zero intArith] →
        s.halted = true → s.positionKnown = true →
        setExternalPosition intArith cfg recorder s a 0 = some s := by
      intro s a hb hh hk
      unfold setExternalPosition
      rw [hb]
      simp only [hh, hmm, if_true, Bool.false_eq_true, if_false]
      have : (List.finRange 8).foldl (fun (b : List (Call Int)) (_ : Motor) => b) s.backend = s.backend := by
        generalize s.backend = b
        generalize List.finRange 8 = l
        induction l with
        | nil => rfl
        | cons x l ih => exact ih
      rw [this]
      have e : (fun a' : Axis => if a' = a then intArith.lround (intArith.mul 0 (cfg.stepsPerMm a))
          else (Segment.zero intArith).target.positionSteps a') =
          (Segment.zero intArith).target.positionSteps := by
        funext a'
        simp [intArith, Segment.zero, AxisTarget.zero]
      rw [e]
      cases s
      simp_all
    unfold init
    generalize List.finRange 10 = l
    induction l with
    | nil => rfl
    | cons a l ih =>
      rw [List.foldlM_cons, hset _ a rfl rfl rfl]
      exact ih
  · generalize hs : ({ backend := [], buffer := [Segment.zero intArith], ready := 0, lookahead := 1024
                       halted := true, positionKnown := true } : State Int (List (Call Int))) = s
    have key : ∀ (n k : Nat) (s : State Int (List (Call Int))), s.buffer.length = k + 1 →
        n + k ≤ 1022 → s.lookahead = 1024 → s.positionKnown = true → s.position 0 = k →
        ∃ s', run intArith cfg recorder s (creep k n) = some s' ∧ s'.buffer.length = k + n + 1 := by
      intro n
      induction n with
      | zero => intro k s hb _ _ _ _; exact ⟨s, rfl, by omega⟩
      | succ n ih =>
        intro k s hb hk hl hp hpos
        obtain ⟨s1, e, g1, g2, g3, g4⟩ := move_grows intArith cfg recorder s
          (by intro e; rw [e] at hb; simp at hb) hl (by omega) hp (fun _ => ((k + 1 : Nat) : Int)) 1 0 0
          (by rw [hpos]; simp [intArith, cfg])
        obtain ⟨s', h1, h2⟩ := ih (k + 1) s1 (by omega) (by omega) g2 g3 (by rw [g4]; simp [intArith, cfg])
        refine ⟨s', ?_, by omega⟩
        have : creep k (n + 1) = Op.move (fun _ => ((k + 1 : Nat) : Int)) 1 0 :: creep (k + 1) n := by
          simp [creep, List.range'_succ]
        rw [this]
        simp only [run, List.foldlM_cons, Option.bind_eq_bind, e, Option.bind_some]
        exact h1
    obtain ⟨s', h1, h2⟩ := key 1022 0 s (by rw [← hs]; rfl) (by omega) (by rw [← hs]) (by rw [← hs])
      (by rw [← hs]; rfl)
    refine ⟨by rw [h1]; simp, ?_⟩
    have : creep 0 1023 = creep 0 1022 ++ [.move (fun _ => 1023) 1 0] := by
      unfold creep
      rw [show (1023 : Nat) = 1022 + 1 from rfl, List.range'_concat]
      simp
    rw [this]
    simp only [run, List.foldlM_append, Option.bind_eq_bind]
    rw [show (creep 0 1022).foldlM (step intArith cfg recorder) s = some s' from h1]
    simp only [Option.bind_some, List.foldlM_cons, List.foldlM_nil, step, machineMove]
    rw [if_pos (by right; rw [h2]; simp [planningBufferCapacity])]
    rfl

/-- Non-vacuity of `C30_no_overflow_partial`. -/
example : ∃ s', run intArith intConfig recorder { intStart with lookahead := 1023 } (creep 0 5000) =
    some s' ∧ s'.buffer ≠ [] ∧ s'.buffer.length ≤ 1022 ∧ s'.lookahead ≤ 1023 :=
  C30_no_overflow_partial intArith intConfig recorder _ (by simp [intStart]) (by simp) (by simp)
    (by simp [intStart]) rfl _ (by intro op h; simp [creep] at h; obtain ⟨i, -, rfl⟩ := h; rfl)
    (by intro n h; simp [creep] at h)

/-! ### C47 -/

/-- **C47.** `SetLookahead` accepts exactly 1..`GetMaxLookahead()`; an accepted size is in effect
afterwards, and nothing else changes; a refused one changes nothing at all. -/
theorem C47_set_lookahead (s : State F β) (n : Int) :
    ((setLookahead s n).2 = true ↔ 1 ≤ n ∧ n ≤ planningBufferCapacity) ∧
    ((setLookahead s n).2 = true → (setLookahead s n).1 = { s with lookahead := n.toNat } ∧
      ((setLookahead s n).1.lookahead : Int) = n) ∧
    ((setLookahead s n).2 = false → (setLookahead s n).1 = s) := by
  unfold setLookahead
  split
  · rename_i h
    refine ⟨⟨by simp, by intro g; omega⟩, by simp, fun _ => rfl⟩
  · rename_i h
    refine ⟨⟨fun _ => by omega, fun _ => rfl⟩, fun _ => ⟨rfl, ?_⟩, by simp⟩
    simp only; omega

end BeagleG.Planner
