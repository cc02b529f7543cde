import Verif.Planner.ExactProps
/-!
# Auxiliary outputs travel with the moves (C92, the planner)

A move carries the auxiliary bits of the moment it is given to the planner; it reaches the motors later, in up to three
parts. Here in exact arithmetic, and for motors that accept everything.
-/
set_option linter.unusedSectionVars false

namespace BeagleG.Planner

variable {F β : Type} {A : Arith F} {cfg : Config F} {B : Backend F β} {log : β → List Nat}

/-- Motors that accept every command; `log` is the auxiliary bits of the commands so far. -/
structure AuxLog (B : Backend F β) (log : β → List Nat) : Prop where
  ok : ∀ b c, (B.enqueue b c).2 = true
  enqueue : ∀ b c, log (B.enqueue b c).1 = log b ++ [c.auxBits]
  wait : ∀ b, log (B.waitQueueEmpty b) = log b
  external : ∀ b m p, log (B.setExternalPosition b m p) = log b

/-- A move: its auxiliary bits, and whether a motor makes a step in it. -/
abbrev AuxEntry := Nat × Bool

/-- A list of moves as commands for the motors: each move as at most three commands with its bits, and as at least
one if a motor makes a step. -/
inductive Spread : List AuxEntry → List Nat → Prop
  | nil : Spread [] []
  | cons {e : AuxEntry} {es : List AuxEntry} {l : List Nat} (n : Nat) : n ≤ 3 → (e.2 = true → 1 ≤ n) → Spread es l →
      Spread (e :: es) (List.replicate n e.1 ++ l)

theorem Spread.append {a b : List AuxEntry} {x y : List Nat} (h : Spread a x) (h' : Spread b y) :
    Spread (a ++ b) (x ++ y) := by
  induction h with
  | nil => exact h'
  | cons n h1 h2 _ ih =>
    rw [List.cons_append, List.append_assoc]
    exact .cons n h1 h2 ih

/-- Does any axis change its position? -/
def moving (t : AxisTarget F) : Bool := decide ((definingAxis t.deltaSteps).1 ≠ 0)

/-- Does any motor make a step? -/
def drives (cfg : Config F) (delta : Axis → Int) : Bool :=
  (List.finRange 8).any fun m => decide (assignAll cfg delta m ≠ 0)

/-- The entry of a move. -/
def auxEntry (cfg : Config F) (t : AxisTarget F) : AuxEntry := (t.auxBits, drives cfg t.deltaSteps)

/-- The moves that are still in the planner. -/
def State.waiting (cfg : Config F) (s : State F β) : List AuxEntry :=
  ((s.buffer.map Segment.target).filter moving).map (auxEntry cfg)

/-- The moves a call adds. -/
def newEntries (A : Arith F) (cfg : Config F) (s : State F β) : Op F → List AuxEntry
  | .move axis feed aux =>
    match s.buffer.getLast? with
    | none => []
    | some prev =>
      if moving (newTarget A cfg prev.target axis feed aux) then
        [(aux, drives cfg (newTarget A cfg prev.target axis feed aux).deltaSteps)] else []
  | .direct _ _ _ _ aux => [(aux, false)]
  | _ => []

/-- The moves of a sequence of calls. -/
def allEntries (A : Arith F) (cfg : Config F) (B : Backend F β) (s : State F β) : List (Op F) → List AuxEntry
  | [] => []
  | op :: ops => newEntries A cfg s op ++
      match step A cfg B s op with
      | none => []
      | some s' => allEntries A cfg B s' ops

/-- Nothing is sent for a segment without steps. -/
def Quiet (seg : Segment F) : Prop := moving seg.target = false →
  (∀ a, seg.target.deltaSteps a = 0) ∧ seg.planned.accel = 0 ∧ seg.planned.decel = 0

theorem drives_false {delta : Axis → Int} (h : drives cfg delta = false) (m : Motor) : assignAll cfg delta m = 0 := by
  unfold drives at h
  rw [List.any_eq_false] at h
  simpa using h m (List.mem_finRange m)

theorem sendSegment_aux (L : AuxLog B log) (b : β) (seg : Segment F) :
    (sendSegment A cfg B b seg true).2 = true ∧ ∃ n ≤ 3,
      log (sendSegment A cfg B b seg true).1 = log b ++ List.replicate n seg.target.auxBits ∧
      (drives cfg seg.target.deltaSteps = true → 1 ≤ n) ∧
      (Quiet seg → moving seg.target = false → n = 0) := by
  have hb : log (if cfg.synchronous then B.waitQueueEmpty b else b) = log b := by
    split
    · exact L.wait _
    · rfl
  unfold sendSegment
  generalize (if cfg.synchronous = true then B.waitQueueEmpty b else b) = b' at hb
  have ha : (accelCommand A cfg seg).auxBits = seg.target.auxBits := by unfold accelCommand; split <;> rfl
  have hd : (decelCommand A cfg seg).auxBits = seg.target.auxBits := by unfold decelCommand; split <;> rfl
  have hm : (moveCommand A cfg seg).auxBits = seg.target.auxBits := rfl
  have hq : Quiet seg → moving seg.target = false →
      seg.planned.accel = 0 ∧ seg.planned.decel = 0 ∧ hasMove A cfg seg = false := by
    intro h hmv
    obtain ⟨h1, h2, h3⟩ := h hmv
    refine ⟨h2, h3, ?_⟩
    unfold hasMove
    rw [List.any_eq_false]
    intro m _
    have hz : seg.target.deltaSteps = fun _ => 0 := funext h1
    simp [moveCommand, accelCommand, decelCommand, h2, h3, hz, assignAll_zero]
  have hdr : drives cfg seg.target.deltaSteps = true → seg.planned.accel = 0 → seg.planned.decel = 0 →
      hasMove A cfg seg = true := by
    intro h h1 h2
    by_contra hn
    have hn := hasMove_false A cfg (Bool.eq_false_iff.2 hn)
    unfold drives at h
    obtain ⟨m, -, hm⟩ := List.any_eq_true.1 h
    have := hn m
    simp [moveCommand, accelCommand, decelCommand, h1, h2] at this
    simp [this] at hm
  refine ⟨?_, (if seg.planned.accel = 0 then 0 else 1) + (if hasMove A cfg seg then 1 else 0) +
    (if seg.planned.decel = 0 then 0 else 1), ?_, ?_, ?_, ?_⟩
  · by_cases h1 : seg.planned.accel = 0 <;> by_cases h2 : seg.planned.decel = 0 <;>
      cases h3 : hasMove A cfg seg <;> simp [h1, h2, L.ok]
  · split <;> split <;> split <;> omega
  · by_cases h1 : seg.planned.accel = 0 <;> by_cases h2 : seg.planned.decel = 0 <;>
      cases h3 : hasMove A cfg seg <;>
      simp [h1, h2, L.ok, L.enqueue, ha, hd, hm, hb, List.replicate]
  · intro h
    by_cases h1 : seg.planned.accel = 0
    · by_cases h2 : seg.planned.decel = 0
      · rw [hdr h h1 h2, if_pos rfl]; omega
      · rw [if_neg h2]; omega
    · rw [if_neg h1]; omega
  · intro h h'
    obtain ⟨h1, h2, h3⟩ := hq h h'
    rw [h1, h2, h3]
    rfl

theorem sendAll_aux (L : AuxLog B log) : ∀ (segs : List (Segment F)) (b : β), (∀ seg ∈ segs, Quiet seg) →
    (sendAll A cfg B b segs true).2 = true ∧ ∃ l, log (sendAll A cfg B b segs true).1 = log b ++ l ∧
      Spread (((segs.map Segment.target).filter moving).map (auxEntry cfg)) l
  | [], b, _ => ⟨rfl, [], by simp [sendAll], .nil⟩
  | seg :: segs, b, hq => by
    obtain ⟨h1, n, h2, h3, h4, h5⟩ := sendSegment_aux (A := A) (cfg := cfg) L b seg
    have e : sendAll A cfg B b (seg :: segs) true =
        sendAll A cfg B (sendSegment A cfg B b seg true).1 segs true := by
      unfold sendAll
      rw [List.foldl_cons]
      congr 1
      exact Prod.ext rfl h1
    obtain ⟨g1, l, g2, g3⟩ := sendAll_aux L segs (sendSegment A cfg B b seg true).1 fun x hx => hq x (by simp [hx])
    rw [e]
    refine ⟨g1, List.replicate n seg.target.auxBits ++ l, by rw [g2, h3, List.append_assoc], ?_⟩
    cases hm : moving seg.target with
    | true =>
      rw [List.map_cons, List.filter_cons_of_pos hm, List.map_cons]
      exact Spread.cons (e := auxEntry cfg seg.target) n h2 h4 g3
    | false =>
      rw [List.map_cons, List.filter_cons_of_neg (by simp [hm]), h5 (hq seg (by simp)) hm]
      simpa using g3

theorem moving_rest (pos : Axis → Int) : moving (restAt A pos).target = false := by
  have : definingAxis (restAt A pos).target.deltaSteps = definingAxis fun _ => 0 := rfl
  simp only [moving, this]
  decide

theorem issue_aux (L : AuxLog B log) {s : State F β} {flush : Bool} (hne : s.buffer ≠ []) (hl : 1 ≤ s.lookahead)
    (hq : ∀ seg ∈ s.buffer, Quiet seg) {r : State F β × Bool} (hr : issue A cfg B s flush = some r) :
    ∃ sent l, s.waiting cfg = sent ++ r.1.waiting cfg ∧ log r.1.backend = log s.backend ++ l ∧ Spread sent l ∧
      ((r.2 = true ∧ r.1.halted = s.halted) ∨ (r.2 = false ∧ r.1.waiting cfg = [])) ∧
      (flush = true → r.1.waiting cfg = []) := by
  have hlen : 0 < s.buffer.length := List.length_pos_iff.2 hne
  have hn : numSegments s.buffer.length s.lookahead flush ≤ s.buffer.length := by
    unfold numSegments
    cases flush <;> simp <;> split <;> omega
  have hfl : flush = true → numSegments s.buffer.length s.lookahead flush = s.buffer.length := by
    rintro rfl; exact numSegments_flush hlen
  unfold issue at hr
  generalize numSegments s.buffer.length s.lookahead flush = n at *
  by_cases hlt : n < s.buffer.length
  · rw [issueLoop_lt A cfg B n s true hlt] at hr
    obtain ⟨g1, l, g2, g3⟩ := sendAll_aux (A := A) (cfg := cfg) L (s.buffer.take n) s.backend
      fun seg h => hq seg (List.mem_of_mem_take h)
    injection hr with hr
    subst hr
    refine ⟨_, l, ?_, g2, g3, .inl ⟨g1, rfl⟩, fun h => by have := hfl h; omega⟩
    simp only [State.waiting]
    rw [← List.map_append, ← List.filter_append, ← List.map_append, List.take_append_drop]
  · rw [issueLoop_eq A cfg B n s true (by omega) (by omega)] at hr
    obtain ⟨-, l, g2, g3⟩ := sendAll_aux (A := A) (cfg := cfg) L s.buffer s.backend hq
    injection hr with hr
    subst hr
    have hw : ([restAt A s.position].map Segment.target).filter moving = [] := by
      rw [List.map_cons, List.filter_cons_of_neg (by simp [moving_rest])]
      rfl
    refine ⟨_, l, ?_, g2, g3, .inr ⟨rfl, ?_⟩, fun _ => ?_⟩
    · simp only [State.waiting, hw, List.map_nil, List.append_nil]
    · simp only [State.waiting, hw, List.map_nil]
    · simp only [State.waiting, hw, List.map_nil]

section
variable [Field F] [LinearOrder F] [IsStrictOrderedRing F]

theorem definingAxis_ne {delta : Axis → Int} {a : Axis} (h : delta a ≠ 0) : (definingAxis delta).1 ≠ 0 :=
  fun hz => h (definingAxis_zero delta hz a)

theorem Planned.quiet {seg : Segment F} (h : Planned seg) : Quiet seg := by
  intro hm
  rcases h with h | ⟨n, h⟩
  · exact ⟨h.delta, h.accel, h.decel⟩
  · have := h.good.steps
    have := h.good.pos
    simp only [moving, decide_eq_false_iff_not] at hm
    exact absurd (definingAxis_ne (a := seg.target.definingAxis) (by omega)) hm

theorem halt_aux (L : AuxLog B log) {s s' : State F β} (h : PlanInv A cfg s)
    (hh : s.halted = true → s.waiting cfg = []) (hs : bringPathToHalt A cfg B s = some s') :
    s'.waiting cfg = [] ∧ ∃ l, log s'.backend = log s.backend ++ l ∧ Spread (s.waiting cfg) l := by
  unfold bringPathToHalt at hs
  by_cases ht : s.halted = true
  · rw [if_pos ht] at hs
    injection hs with hs
    subst hs
    exact ⟨hh ht, [], by simp, by rw [hh ht]; exact .nil⟩
  · rw [if_neg ht] at hs
    cases hi : issue A cfg B s true with
    | none => rw [hi] at hs; cases hs
    | some r =>
      rw [hi] at hs
      injection hs with hs
      subst hs
      obtain ⟨sent, l, g1, g2, g3, -, g5⟩ :=
        issue_aux L h.nonempty h.ahead (fun seg hseg => (h.plan.planned seg hseg).quiet) hi
      rw [g5 rfl, List.append_nil] at g1
      exact ⟨g5 rfl, l, g2, by rw [g1]; exact g3⟩

theorem step_aux (L : AuxLog B log) (ex : Exact A) (hc : cfg.Positive) (hcos : CosOk A cfg) {s s' : State F β}
    (h : PlanInv A cfg s) (hh : s.halted = true → s.waiting cfg = []) {op : Op F} (hop : SaneOp A cfg op)
    (hs : step A cfg B s op = some s') :
    (s'.halted = true → s'.waiting cfg = []) ∧ ∃ sent l, s.waiting cfg ++ newEntries A cfg s op = sent ++ s'.waiting cfg ∧
      log s'.backend = log s.backend ++ l ∧ Spread sent l := by
  have nothing : ∀ t : State F β, t.buffer = s.buffer → log t.backend = log s.backend → t.halted = s.halted →
      (t.halted = true → t.waiting cfg = []) ∧ ∃ sent l, s.waiting cfg ++ [] = sent ++ t.waiting cfg ∧
        log t.backend = log s.backend ++ l ∧ Spread sent l := by
    intro t h1 h2 h3
    have : t.waiting cfg = s.waiting cfg := by unfold State.waiting; rw [h1]
    exact ⟨by rw [h3, this]; exact hh, [], [], by simp [this], by simp [h2], .nil⟩
  cases op with
  | halt =>
    obtain ⟨h1, l, h2, h3⟩ := halt_aux L h hh hs
    exact ⟨fun _ => h1, _, l, by simp [newEntries, h1], h2, h3⟩
  | lookahead n =>
    simp only [step, Option.some.injEq] at hs
    subst hs
    refine nothing _ ?_ ?_ ?_ <;> (unfold setLookahead; split <;> rfl)
  | external a p =>
    simp only [step, setExternalPosition] at hs
    cases hb : s.buffer with
    | nil => exact absurd hb h.nonempty
    | cons seg rest =>
      cases rest with
      | cons _ _ => rw [hb] at hs; simp at hs
      | nil =>
        rw [hb] at hs
        simp only at hs
        by_cases ht : s.halted = true
        · rw [if_pos ht] at hs
          injection hs with hs
          have hfold : ∀ (l : List Motor) (b : β),
              log (l.foldl (fun b m => if cfg.motorMap a m then B.setExternalPosition b m
                (A.lround (A.mul p (cfg.stepsPerMm a))) else b) b) = log b := by
            intro l
            induction l with
            | nil => intro b; rfl
            | cons m l ih =>
              intro b
              rw [List.foldl_cons, ih]
              split
              · exact L.external _ _ _
              · rfl
          have hw : s'.waiting cfg = s.waiting cfg := by
            subst hs
            unfold State.waiting
            rw [hb]
            have : ∀ t : AxisTarget F, ∀ q, moving { t with positionSteps := q } = moving t := fun _ _ => rfl
            simp only [List.map_cons, List.map_nil, List.filter_cons, this]
            split <;> rfl
          have hlog : log s'.backend = log s.backend := by subst hs; exact hfold _ _
          exact ⟨fun _ => by rw [hw]; exact hh ht, [], [], by simp [newEntries, hw], by simp [hlog], .nil⟩
        · rw [if_neg ht] at hs; cases hs
  | direct a d v0 v1 aux =>
    simp only [step, directDrive, Option.map_map] at hs
    cases hb : bringPathToHalt A cfg B s with
    | none => rw [hb] at hs; simp at hs
    | some t =>
      rw [hb] at hs
      obtain ⟨h1, l, h2, h3⟩ := halt_aux L h hh hb
      simp only [Option.map_some, Option.some.injEq, Function.comp_apply] at hs
      subst hs
      refine ⟨fun _ => h1, s.waiting cfg ++ [(aux, false)], l ++ [aux], ?_, ?_, ?_⟩
      · show _ = (s.waiting cfg ++ [(aux, false)]) ++ t.waiting cfg
        rw [h1, List.append_nil]
        rfl
      · simp only [L.wait, L.enqueue, h2, List.append_assoc]
      · exact h3.append (Spread.cons (e := (aux, false)) 1 (by omega) (by simp) .nil)
  | move axis feed aux =>
    have hstep := hs
    simp only [step, machineMove] at hs
    split at hs
    · simp at hs
    · have hlast := List.getLast?_eq_some_getLast h.nonempty
      rw [hlast] at hs
      simp only at hs
      simp only [newEntries, hlast]
      have hpos : ∀ a, s.position a = (s.buffer.getLast h.nonempty).target.positionSteps a := by
        intro a; unfold State.position; rw [hlast]
      have hpm : s.buffer.getLast h.nonempty ∈ s.buffer := List.getLast_mem _
      have hends := h.plan.ends _ hlast
      generalize s.buffer.getLast h.nonempty = prev at *
      have hprev : 0 ≤ prev.target.speed := by
        rcases h.plan.planned prev hpm with hp | ⟨n, hp⟩
        · rw [hp.speed]
        · exact hp.good.speed.le
      by_cases hz : (definingAxis (newTarget A cfg prev.target axis feed aux).deltaSteps).1 = 0
      · rw [if_pos hz] at hs
        simp only [Option.map_some, Option.some.injEq] at hs
        subst hs
        have : moving (newTarget A cfg prev.target axis feed aux) = false := by simp [moving, hz]
        rw [this]
        exact nothing s rfl rfl rfl
      · rw [if_neg hz] at hs
        obtain ⟨⟨n, hgood⟩, -, -⟩ := newTarget_spec ex hc prev.target axis feed aux hop.1 hprev hcos
          (fun a ha => by rw [← hpos]; exact h.fixed a ha) hz (by
          intro a
          rw [newTarget_delta]
          have h1 := hop.2 a
          have h2 := h.range a
          rw [hpos] at h2
          omega)
        have hmv : moving (newTarget A cfg prev.target axis feed aux) = true := by simp [moving, hz]
        have haux : (newTarget A cfg prev.target axis feed aux).auxBits = aux := rfl
        rw [hmv]
        generalize newTarget A cfg prev.target axis feed aux = t at *
        obtain ⟨u1, -⟩ := update_plan ex s.buffer ⟨t, Profile.zero A⟩ s.ready h.plan.planned
          (.inr ⟨n, hgood, by simp [Profile.zero, ex.zero]⟩)
          (List.isChain_append.2 ⟨h.plan.joints, by simp, by
            intro p hp s' hs'
            rw [hlast] at hp
            simp at hp hs'
            subst hp hs'
            refine ⟨?_, ?_⟩
            · rw [hends, zero_mul]; exact hgood.start
            · simp only [Profile.zero, ex.zero]; rw [hends]⟩)
          h.ready.le
        have htg := updateMotionProfile_target A (s.buffer ++ [⟨t, Profile.zero A⟩]) s.ready
        generalize updateMotionProfile A (s.buffer ++ [⟨t, Profile.zero A⟩]) s.ready = u at *
        have hul : u.1.length = s.buffer.length + 1 := by simpa using congrArg List.length htg
        cases hi : issue A cfg B { s with buffer := u.1, ready := u.2 } false with
        | none => rw [hi] at hs; simp at hs
        | some r =>
          rw [hi] at hs
          simp only [Option.map_some, Option.some.injEq] at hs
          obtain ⟨sent, l, g1, g2, g3, g4, -⟩ := issue_aux (cfg := cfg) L
            (s := { s with buffer := u.1, ready := u.2 })
            (by intro e; have e' : u.1 = [] := e; rw [e'] at hul; simp at hul) h.ahead
            (fun seg hseg => (u1.planned seg hseg).quiet) hi
          have hwait : State.waiting cfg ({ s with buffer := u.1, ready := u.2 } : State F β) =
              s.waiting cfg ++ [(aux, drives cfg t.deltaSteps)] := by
            simp only [State.waiting, htg, List.map_append, List.filter_append, List.map_cons, List.map_nil]
            rw [List.filter_cons_of_pos (by exact hmv)]
            simp [auxEntry, haux]
          have hw' : s'.waiting cfg = r.1.waiting cfg := by subst hs; rfl
          have hb' : s'.backend = r.1.backend := by subst hs; rfl
          refine ⟨?_, sent, l, ?_, ?_, g3⟩
          · intro hhalt
            rw [hw']
            rcases g4 with ⟨g, -⟩ | ⟨-, g⟩
            · subst hs
              rw [g] at hhalt
              simp at hhalt
            · exact g
          · rw [if_pos rfl, hw', ← g1, hwait]
          · rw [hb', g2]

/-- **C92, in order.** Whatever the calls of the planner: the commands for the motors are the moves in the order they
were given, each with the auxiliary bits it was given with - at most three commands for a move, and at least one if a
motor makes a step -, and the last moves, still waiting in the planner with their bits. -/
theorem C92_in_order (L : AuxLog B log) (ex : Exact A) (hc : cfg.Positive) (hcos : CosOk A cfg) : ∀ (ops : List (Op F))
    {s s' : State F β}, PlanInv A cfg s → (s.halted = true → s.waiting cfg = []) → (∀ op ∈ ops, SaneOp A cfg op) →
    run A cfg B s ops = some s' →
    (s'.halted = true → s'.waiting cfg = []) ∧ ∃ sent l,
      s.waiting cfg ++ allEntries A cfg B s ops = sent ++ s'.waiting cfg ∧
      log s'.backend = log s.backend ++ l ∧ Spread sent l
  | [], s, s', _, hh, _, hr => by
    simp [run] at hr
    subst hr
    exact ⟨hh, [], [], by simp [allEntries], by simp, .nil⟩
  | op :: ops, s, s', h, hh, hops, hr => by
    simp only [run, List.foldlM_cons, Option.bind_eq_bind] at hr
    cases e : step A cfg B s op with
    | none => rw [e] at hr; simp at hr
    | some t =>
      rw [e] at hr
      have hop := hops op List.mem_cons_self
      obtain ⟨h1, sent, l, h2, h3, h4⟩ := step_aux L ex hc hcos h hh hop e
      obtain ⟨g1, sent', l', g2, g3, g4⟩ := C92_in_order L ex hc hcos ops (step_planInv ex hc hcos h hop e) h1
        (fun o ho => hops o (List.mem_cons_of_mem _ ho)) hr
      refine ⟨g1, sent ++ sent', l ++ l', ?_, by rw [g3, h3, List.append_assoc], h4.append g4⟩
      simp only [allEntries, e]
      rw [← List.append_assoc, h2, List.append_assoc, g2, List.append_assoc]

/-- **C92.** From the start of the planner on: the moves given to it are, in this order, those the motors got commands
for, with the auxiliary bits they were given with, and those that are still waiting; none is waiting when the planner
has come to a halt. -/
theorem C92_from_start (L : AuxLog B log) (ex : Exact A) (hc : cfg.Positive) (hcos : CosOk A cfg) (b : β)
    (home : Axis → F) (hr : ∀ a, (A.lround (A.mul (home a) (cfg.stepsPerMm a))).natAbs < 2 ^ 30) {s0 s : State F β}
    (h0 : init A cfg B b home = some s0) {ops : List (Op F)} (hops : ∀ op ∈ ops, SaneOp A cfg op)
    (hrun : run A cfg B s0 ops = some s) :
    (s.halted = true → s.waiting cfg = []) ∧ ∃ sent l,
      allEntries A cfg B s0 ops = sent ++ s.waiting cfg ∧ log s.backend = log b ++ l ∧ Spread sent l := by
  have key : ∀ (l : List Axis) (s s' : State F β), PlanInv A cfg s → s.waiting cfg = [] →
      l.foldlM (fun s a => setExternalPosition A cfg B s a (home a)) s = some s' →
      s'.waiting cfg = [] ∧ log s'.backend = log s.backend := by
    intro l
    induction l with
    | nil => intro s s' _ h e; simp at e; subst e; exact ⟨h, rfl⟩
    | cons a l ih =>
      intro s s' hp h e
      simp only [List.foldlM_cons, Option.bind_eq_bind] at e
      cases e1 : setExternalPosition A cfg B s a (home a) with
      | none => rw [e1] at e; cases e
      | some t =>
        rw [e1] at e
        have hop : SaneOp A cfg (.external a (home a)) := hr a
        have e2 : step A cfg B s (.external a (home a)) = some t := e1
        obtain ⟨-, sent, l', h2, h3, h4⟩ := step_aux L ex hc hcos hp (fun _ => h) hop e2
        rw [h] at h2
        simp only [newEntries, List.append_nil, List.nil_eq, List.append_eq_nil_iff] at h2
        obtain ⟨rfl, h2⟩ := h2
        cases h4
        obtain ⟨g1, g2⟩ := ih t s' (step_planInv ex hc hcos hp hop e2) h2 e
        exact ⟨g1, by rw [g2, h3, List.append_nil]⟩
  have hp : PlanInv A cfg s0 := planInv_init ex b home hr hc hcos h0
  unfold init at h0
  have hz : moving (Segment.zero A).target = false := by
    unfold moving
    rw [show (Segment.zero A).target.deltaSteps = fun _ => 0 from rfl]
    rfl
  obtain ⟨w0, l0⟩ := key _ _ _
    (⟨by simp, by simp, by simp [planningBufferCapacity], plan_single ex _, fun seg hseg => by
        simp at hseg; rw [hseg]; exact limited_still (still_rest ex (fun _ => 0)).delta,
      fun a => by simp [State.position, Segment.zero, AxisTarget.zero],
      fun a _ => by simp [State.position, Segment.zero, AxisTarget.zero]⟩)
    (by simp [State.waiting, hz]) h0
  have := C92_in_order L ex hc hcos ops hp (fun _ => w0) hops hrun
  rw [w0, l0] at this
  exact this

end

/-- The bits a list of calls to the motors contains. -/
def auxOfCalls : List (Call F) → List Nat
  | [] => []
  | .enqueue c :: l => c.auxBits :: auxOfCalls l
  | .wait :: l => auxOfCalls l
  | .external _ _ :: l => auxOfCalls l

theorem auxOfCalls_append (l l' : List (Call F)) : auxOfCalls (l ++ l') = auxOfCalls l ++ auxOfCalls l' := by
  induction l with
  | nil => rfl
  | cons c l ih => cases c <;> simp [auxOfCalls, ih]

/-- Non-vacuity: the recorder is such a backend. -/
theorem recorder_aux : AuxLog (recorder (F := F)) auxOfCalls where
  ok _ _ := rfl
  enqueue b c := by simp [recorder, auxOfCalls_append, auxOfCalls]
  wait b := by simp [recorder, auxOfCalls_append, auxOfCalls]
  external b m p := by simp [recorder, auxOfCalls_append, auxOfCalls]

end BeagleG.Planner
