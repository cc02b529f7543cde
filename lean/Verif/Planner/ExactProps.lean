import Verif.Planner.ExactTarget
import Verif.Planner.Spec
/-!
# C31, C32, C53: phases, speeds and limits, in exact arithmetic
-/
set_option linter.unusedSectionVars false

namespace BeagleG.Planner

variable {F β : Type} [Field F] [LinearOrder F] [IsStrictOrderedRing F] {A : Arith F} {cfg : Config F}
  {B : Backend F β}

/-- The invariant of the planner in exact arithmetic. -/
structure PlanInv (A : Arith F) (cfg : Config F) (s : State F β) : Prop where
  nonempty : s.buffer ≠ []
  ready : s.ready < s.buffer.length
  ahead : 1 ≤ s.lookahead
  plan : Plan A s.buffer
  limited : ∀ seg ∈ s.buffer, Limited cfg seg.target
  range : ∀ a, (s.position a).natAbs < 2 ^ 30
  fixed : ∀ a, cfg.stepsPerMm a = 0 → s.position a = 0

/-- What is required of calls: positive speeds and positions within 2^30 steps. -/
def SaneOp (A : Arith F) (cfg : Config F) : Op F → Prop
  | .move axis feed _ => 0 < feed ∧ ∀ a, (A.lround (A.mul (axis a) (cfg.stepsPerMm a))).natAbs < 2 ^ 30
  | .external a p => (A.lround (A.mul p (cfg.stepsPerMm a))).natAbs < 2 ^ 30
  | _ => True

/-- The corner speed factor is not negative: holds if the tuning angle is not negative and together with the threshold
at most 90 degrees. -/
def CosOk (A : Arith F) (cfg : Config F) : Prop :=
  ∀ x, 0 ≤ x → x < 45 → x ≤ cfg.thresholdAngle → 0 ≤ A.cos (A.mul (A.add x cfg.speedTuneAngle) (A.div A.pi (A.ofInt 180)))

theorem still_rest (ex : Exact A) (p : Axis → Int) : Still (restAt A p) := by
  constructor <;> simp [restAt, Segment.zero, AxisTarget.zero, Profile.zero, ex.zero]

theorem limited_still {seg : Segment F} (h : ∀ a, seg.target.deltaSteps a = 0) :
    Limited cfg seg.target := by
  intro a
  simp [h]

theorem plan_single (ex : Exact A) (p : Axis → Int) : Plan A [restAt A p] :=
  ⟨by intro s hs; simp at hs; rw [hs]; exact .inl (still_rest ex p), by simp,
    by intro s hs; simp at hs; rw [← hs]; exact (still_rest ex p).v2⟩

theorem issue_planInv (ex : Exact A) {s : State F β} {flush : Bool}
    (h : PlanInv A cfg s) {r : State F β × Bool} (hr : issue A cfg B s flush = some r) :
    PlanInv A cfg r.1 := by
  have hlen : 0 < s.buffer.length := List.length_pos_iff.2 h.nonempty
  have hl := h.ahead
  have hn : numSegments s.buffer.length s.lookahead flush ≤ s.buffer.length := by
    unfold numSegments
    cases flush <;> simp <;> split <;> omega
  unfold issue at hr
  generalize numSegments s.buffer.length s.lookahead flush = n at *
  by_cases hlt : n < s.buffer.length
  · rw [issueLoop_lt A cfg B n s true hlt] at hr
    injection hr with hr
    subst hr
    have hne : s.buffer.drop n ≠ [] := by
      intro e; rw [List.drop_eq_nil_iff] at e; omega
    have hgl : (s.buffer.drop n).getLast? = s.buffer.getLast? := by
      rw [List.getLast?_drop, if_neg (by omega)]
    refine ⟨hne, ?_, hl, ⟨?_, ?_, ?_⟩, ?_, ?_, ?_⟩
    · simp only [List.length_drop]
      have := h.ready
      omega
    · intro seg hs; exact h.plan.planned seg (List.mem_of_mem_drop hs)
    · exact h.plan.joints.drop n
    · intro seg hs; rw [hgl] at hs; exact h.plan.ends seg hs
    · intro seg hs; exact h.limited seg (List.mem_of_mem_drop hs)
    · intro a
      have := h.range a
      unfold State.position at this ⊢
      simp only [hgl]
      exact this
    · intro a ha
      have := h.fixed a ha
      unfold State.position at this ⊢
      simp only [hgl]
      exact this
  · rw [issueLoop_eq A cfg B n s true (by omega) (by omega)] at hr
    injection hr with hr
    subst hr
    refine ⟨by simp, by simp, hl, plan_single ex _, ?_, ?_, ?_⟩
    · intro seg hs
      simp at hs
      rw [hs]
      exact limited_still (still_rest ex _).delta
    · intro a
      exact h.range a
    · intro a
      exact h.fixed a

theorem step_planInv (ex : Exact A) (hc : cfg.Positive) (hcos : CosOk A cfg) {s s' : State F β}
    (h : PlanInv A cfg s) {op : Op F} (hop : SaneOp A cfg op) (hs : step A cfg B s op = some s') :
    PlanInv A cfg s' := by
  have halt : ∀ {t t' : State F β}, PlanInv A cfg t → bringPathToHalt A cfg B t = some t' →
      PlanInv A cfg t' := by
    intro t t' ht hb
    unfold bringPathToHalt at hb
    split at hb
    · injection hb with hb; subst hb; exact ht
    · cases hi : issue A cfg B t true with
      | none => rw [hi] at hb; simp at hb
      | some r =>
        rw [hi] at hb
        simp only [Option.map_some, Option.some.injEq] at hb
        subst hb
        exact issue_planInv ex ht hi
  cases op with
  | halt => exact halt h hs
  | lookahead n =>
    simp only [step, Option.some.injEq] at hs
    subst hs
    unfold setLookahead
    split
    · exact h
    · exact ⟨h.nonempty, h.ready, by simp only; omega, h.plan, h.limited, h.range, h.fixed⟩
  | external a p =>
    simp only [step, setExternalPosition] at hs
    cases hb : s.buffer with
    | nil => exact absurd hb h.nonempty
    | cons seg rest =>
      cases rest with
      | cons _ _ => rw [hb] at hs; simp at hs
      | nil =>
        rw [hb] at hs
        simp only at hs
        split at hs
        · injection hs with hs
          subst hs
          have hpl := h.plan.planned seg (by rw [hb]; simp)
          have hlim := h.limited seg (by rw [hb]; simp)
          have hend := h.plan.ends seg (by rw [hb]; simp)
          have hrd := h.ready
          rw [hb] at hrd
          refine ⟨by simp, hrd, h.ahead, ⟨?_, by simp, ?_⟩, ?_, ?_, ?_⟩
          · intro t ht
            simp at ht
            subst ht
            rcases hpl with hp | ⟨n, hp⟩
            · exact .inl ⟨hp.delta, hp.speed, hp.start, hp.acc, hp.accel, hp.travel, hp.decel, hp.v0, hp.v1, hp.v2⟩
            · exact .inr ⟨n, ⟨hp.good.steps, hp.good.pos, hp.good.small, hp.good.speed, hp.good.start,
                hp.good.accel⟩, hp.sum, hp.v0, hp.v01, hp.v2, hp.v21, hp.limit, hp.up, hp.down⟩
          · intro t ht
            simp at ht
            subst ht
            exact hend
          · intro t ht
            simp at ht
            subst ht
            exact hlim
          · intro b
            have := h.range b
            unfold State.position at this ⊢
            rw [hb] at this
            simp only [List.getLast?_singleton] at this ⊢
            split
            · exact hop
            · exact this
          · intro b hb0
            have := h.fixed b hb0
            unfold State.position at this ⊢
            rw [hb] at this
            simp only [List.getLast?_singleton] at this ⊢
            split
            · rename_i e
              rw [← e, hb0, ex.mul, mul_zero, ex.lround_zero]
            · exact this
        · simp at hs
  | direct a d v0 v1 aux =>
    simp only [step, directDrive, Option.map_map] at hs
    cases hb : bringPathToHalt A cfg B s with
    | none => rw [hb] at hs; simp at hs
    | some t =>
      rw [hb] at hs
      simp only [Option.map_some, Option.some.injEq] at hs
      subst hs
      have := halt h hb
      exact ⟨this.nonempty, this.ready, this.ahead, this.plan, this.limited, this.range, this.fixed⟩
  | move axis feed aux =>
    simp only [step, machineMove] at hs
    split at hs
    · simp at hs
    · have hlast := List.getLast?_eq_some_getLast h.nonempty
      rw [hlast] at hs
      simp only at hs
      have hpos : ∀ a, s.position a = (s.buffer.getLast h.nonempty).target.positionSteps a := by
        intro a; unfold State.position; rw [hlast]
      have hpm : s.buffer.getLast h.nonempty ∈ s.buffer := List.getLast_mem _
      have hends := h.plan.ends _ hlast
      generalize s.buffer.getLast h.nonempty = prev at *
      have hprev : 0 ≤ prev.target.speed := by
        rcases h.plan.planned prev hpm with hp | ⟨n, hp⟩
        · rw [hp.speed]
        · exact hp.good.speed.le
      by_cases hz : (definingAxis (newTarget A cfg prev.target axis feed aux).deltaSteps).1 = 0
      · rw [if_pos hz] at hs
        simp only [Option.map_some, Option.some.injEq] at hs
        subst hs
        exact h
      · rw [if_neg hz] at hs
        obtain ⟨⟨n, hgood⟩, hlim, -⟩ := newTarget_spec ex hc prev.target axis feed aux hop.1 hprev hcos
          (fun a ha => by rw [← hpos]; exact h.fixed a ha) hz (by
          intro a
          rw [newTarget_delta]
          have h1 := hop.2 a
          have h2 := h.range a
          rw [hpos] at h2
          omega)
        have hposn := newTarget_position A cfg prev.target axis feed aux
        generalize newTarget A cfg prev.target axis feed aux = t at *
        obtain ⟨u1, u2⟩ := update_plan ex s.buffer ⟨t, Profile.zero A⟩ s.ready h.plan.planned
          (.inr ⟨n, hgood, by simp [Profile.zero, ex.zero]⟩)
          (List.isChain_append.2 ⟨h.plan.joints, by simp, by
            intro p hp s' hs'
            rw [hlast] at hp
            simp at hp hs'
            subst hp hs'
            refine ⟨?_, ?_⟩
            · rw [hends, zero_mul]; exact hgood.start
            · simp only [Profile.zero, ex.zero]; rw [hends]⟩)
          h.ready.le
        have htg := updateMotionProfile_target A (s.buffer ++ [⟨t, Profile.zero A⟩]) s.ready
        generalize updateMotionProfile A (s.buffer ++ [⟨t, Profile.zero A⟩]) s.ready = u at *
        have hul : u.1.length = s.buffer.length + 1 := by simpa using congrArg List.length htg
        rw [List.length_append, List.length_singleton] at u2
        have hinv : PlanInv A cfg ({ s with buffer := u.1, ready := u.2 } : State F β) := by
          refine ⟨?_, ?_, h.ahead, u1, ?_, ?_, ?_⟩
          · intro e; have e' : u.1 = [] := e; rw [e'] at hul; simp at hul
          · simp only; omega
          · intro seg hseg
            have : seg.target ∈ (s.buffer ++ [(⟨t, Profile.zero A⟩ : Segment F)]).map Segment.target := by
              rw [← htg]; exact List.mem_map_of_mem hseg
            simp only [List.map_append, List.mem_append, List.mem_map, List.map_cons, List.map_nil,
              List.mem_singleton] at this
            rcases this with ⟨x, hx, e⟩ | e
            · rw [← e]; exact h.limited x hx
            · rw [e]; exact hlim
          · intro a
            rw [position_of_targets (l := s.buffer ++ [(⟨t, Profile.zero A⟩ : Segment F)]) (by simp) htg]
            simp only [List.getLast_append_singleton]
            rw [hposn]
            exact hop.2 a
          · intro a ha
            rw [position_of_targets (l := s.buffer ++ [(⟨t, Profile.zero A⟩ : Segment F)]) (by simp) htg]
            simp only [List.getLast_append_singleton]
            rw [hposn]
            rw [ha, ex.mul, mul_zero, ex.lround_zero]
        cases hi : issue A cfg B { s with buffer := u.1, ready := u.2 } false with
        | none => rw [hi] at hs; simp at hs
        | some r =>
          rw [hi] at hs
          simp only [Option.map_some, Option.some.injEq] at hs
          subst hs
          have := issue_planInv ex hinv hi
          exact ⟨this.nonempty, this.ready, this.ahead, this.plan, this.limited, this.range, this.fixed⟩

theorem run_planInv (ex : Exact A) (hc : cfg.Positive) (hcos : CosOk A cfg) (ops : List (Op F)) :
    ∀ {s s' : State F β}, PlanInv A cfg s → (∀ op ∈ ops, SaneOp A cfg op) →
      run A cfg B s ops = some s' → PlanInv A cfg s' := by
  induction ops with
  | nil => intro s s' h _ hr; simp [run] at hr; subst hr; exact h
  | cons op ops ih =>
    intro s s' h hops hr
    simp only [run, List.foldlM_cons, Option.bind_eq_bind] at hr
    cases e : step A cfg B s op with
    | none => rw [e] at hr; simp at hr
    | some t =>
      rw [e] at hr
      exact ih (step_planInv ex hc hcos h (hops op List.mem_cons_self) e)
        (fun o ho => hops o (List.mem_cons_of_mem _ ho)) hr

/-! ### The queue a call sends from -/

/-- The planned queue at the time a call sends its first part to the motors. -/
def queueOf (A : Arith F) (cfg : Config F) (s : State F β) : Op F → List (Segment F)
  | .move axis feed aux =>
    match s.buffer.getLast? with
    | none => []
    | some prev =>
      let t := newTarget A cfg prev.target axis feed aux
      if (definingAxis t.deltaSteps).1 = 0 then []
      else (updateMotionProfile A (s.buffer ++ [⟨t, Profile.zero A⟩]) s.ready).1
  | .halt => if s.halted then [] else s.buffer
  | _ => []

/-- How many segments of `queueOf` are sent. -/
def sentCount (A : Arith F) (cfg : Config F) (s : State F β) : Op F → Nat
  | .move axis feed aux =>
    numSegments (queueOf A cfg s (.move axis feed aux)).length s.lookahead false
  | op => (queueOf A cfg s op).length

/-- `queueOf` is what its name says: a call sends exactly the first `sentCount` segments of it. -/
theorem step_sends {s s' : State F β} {op : Op F} (hop : op.isPath = true) (hl : 1 ≤ s.lookahead)
    (hne : s.buffer ≠ []) (hs : step A cfg B s op = some s') :
    s'.backend =
      (sendAll A cfg B s.backend ((queueOf A cfg s op).take (sentCount A cfg s op)) true).1 := by
  have hissue : ∀ (t : State F β) (flush : Bool) (r : State F β × Bool), t.buffer ≠ [] → 1 ≤ t.lookahead →
      issue A cfg B t flush = some r → r.1.backend = (sendAll A cfg B t.backend
        (t.buffer.take (numSegments t.buffer.length t.lookahead flush)) true).1 := by
    intro t flush r htne htl hr
    have hlen : 0 < t.buffer.length := List.length_pos_iff.2 htne
    have hn : numSegments t.buffer.length t.lookahead flush ≤ t.buffer.length := by
      unfold numSegments
      cases flush <;> simp <;> split <;> omega
    unfold issue at hr
    generalize numSegments t.buffer.length t.lookahead flush = n at *
    by_cases hlt : n < t.buffer.length
    · rw [issueLoop_lt A cfg B n t true hlt] at hr
      injection hr with hr
      subst hr
      rfl
    · rw [issueLoop_eq A cfg B n t true (by omega) (by omega)] at hr
      injection hr with hr
      subst hr
      rw [List.take_of_length_le (by omega)]
  cases op with
  | external a p => simp [Op.isPath] at hop
  | direct a d v0 v1 aux => simp [Op.isPath] at hop
  | lookahead n =>
    simp only [step, Option.some.injEq] at hs
    subst hs
    unfold setLookahead
    split <;> simp [queueOf, sendAll]
  | halt =>
    simp only [step, bringPathToHalt] at hs
    simp only [queueOf, sentCount]
    split at hs
    · rename_i hh
      injection hs with hs
      subst hs
      simp [hh, sendAll]
    · rename_i hh
      rw [if_neg hh]
      cases hi : issue A cfg B s true with
      | none => rw [hi] at hs; simp at hs
      | some r =>
        rw [hi] at hs
        simp only [Option.map_some, Option.some.injEq] at hs
        subst hs
        have := hissue s true r hne hl hi
        rwa [numSegments_flush (List.length_pos_iff.2 hne)] at this
  | move axis feed aux =>
    simp only [step, machineMove] at hs
    split at hs
    · simp at hs
    · have hlast := List.getLast?_eq_some_getLast hne
      simp only [queueOf, sentCount]
      rw [hlast] at hs ⊢
      simp only at hs ⊢
      generalize newTarget A cfg _ axis feed aux = t at *
      by_cases hz : (definingAxis t.deltaSteps).1 = 0
      · rw [if_pos hz] at hs
        simp only [Option.map_some, Option.some.injEq] at hs
        subst hs
        simp [hz, sendAll]
      · rw [if_neg hz] at hs ⊢
        have hul := updateMotionProfile_length A (s.buffer ++ [⟨t, Profile.zero A⟩]) s.ready
        generalize updateMotionProfile A (s.buffer ++ [⟨t, Profile.zero A⟩]) s.ready = u at *
        simp only [List.length_append, List.length_singleton] at hul
        have hune : u.1 ≠ [] := by intro e; rw [e] at hul; simp at hul
        cases hi : issue A cfg B { s with buffer := u.1, ready := u.2 } false with
        | none => rw [hi] at hs; simp at hs
        | some r =>
          rw [hi] at hs
          simp only [Option.map_some, Option.some.injEq] at hs
          subst hs
          exact hissue { s with buffer := u.1, ready := u.2 } false r hune hl hi

/-- The queue is completely planned. -/
theorem queueOf_plan (ex : Exact A) (hc : cfg.Positive) (hcos : CosOk A cfg) {s : State F β}
    (h : PlanInv A cfg s) {op : Op F} (hop : SaneOp A cfg op) :
    Plan A (queueOf A cfg s op) ∧ ∀ seg ∈ queueOf A cfg s op, Limited cfg seg.target := by
  have hnil : Plan A ([] : List (Segment F)) := ⟨by simp, by simp, by simp⟩
  cases op with
  | external a p => exact ⟨hnil, by simp [queueOf]⟩
  | direct a d v0 v1 aux => exact ⟨hnil, by simp [queueOf]⟩
  | lookahead n => exact ⟨hnil, by simp [queueOf]⟩
  | halt =>
    simp only [queueOf]
    split
    · exact ⟨hnil, by simp⟩
    · exact ⟨h.plan, h.limited⟩
  | move axis feed aux =>
    -- a backend and a look-ahead with which nothing is sent
    have hlast := List.getLast?_eq_some_getLast h.nonempty
    simp only [queueOf]
    rw [hlast]
    simp only
    have hpos : ∀ a, s.position a = (s.buffer.getLast h.nonempty).target.positionSteps a := by
      intro a; unfold State.position; rw [hlast]
    have hpm : s.buffer.getLast h.nonempty ∈ s.buffer := List.getLast_mem _
    have hends := h.plan.ends _ hlast
    generalize s.buffer.getLast h.nonempty = prev at *
    have hprev : 0 ≤ prev.target.speed := by
      rcases h.plan.planned prev hpm with hp | ⟨n, hp⟩
      · rw [hp.speed]
      · exact hp.good.speed.le
    by_cases hz : (definingAxis (newTarget A cfg prev.target axis feed aux).deltaSteps).1 = 0
    · rw [if_pos hz]; exact ⟨hnil, by simp⟩
    · rw [if_neg hz]
      obtain ⟨⟨n, hgood⟩, hlim, -⟩ := newTarget_spec ex hc prev.target axis feed aux hop.1 hprev hcos
          (fun a ha => by rw [← hpos]; exact h.fixed a ha) hz (by
        intro a
        rw [newTarget_delta]
        have h1 := hop.2 a
        have h2 := h.range a
        rw [hpos] at h2
        omega)
      generalize newTarget A cfg prev.target axis feed aux = t at *
      obtain ⟨u1, u2⟩ := update_plan ex s.buffer ⟨t, Profile.zero A⟩ s.ready h.plan.planned
        (.inr ⟨n, hgood, by simp [Profile.zero, ex.zero]⟩)
        (List.isChain_append.2 ⟨h.plan.joints, by simp, by
          intro p hp s' hs'
          rw [hlast] at hp
          simp at hp hs'
          subst hp hs'
          refine ⟨?_, ?_⟩
          · rw [hends, zero_mul]; exact hgood.start
          · simp only [Profile.zero, ex.zero]; rw [hends]⟩)
        h.ready.le
      refine ⟨u1, ?_⟩
      have htg := updateMotionProfile_target A (s.buffer ++ [⟨t, Profile.zero A⟩]) s.ready
      intro seg hseg
      have : seg.target ∈ (s.buffer ++ [(⟨t, Profile.zero A⟩ : Segment F)]).map Segment.target := by
        rw [← htg]; exact List.mem_map_of_mem hseg
      simp only [List.map_append, List.mem_append, List.mem_map, List.map_cons, List.map_nil,
        List.mem_singleton] at this
      rcases this with ⟨x, hx, e⟩ | e
      · rw [← e]; exact h.limited x hx
      · rw [e]; exact hlim

/-! ### C31, C32, C53 -/

/-- **C31.** In exact arithmetic: whatever calls were made before, in the queue from which a call sends
segments to the motors, the phases of each segment add up to the steps of its defining axis.
(`step_sends` says that this queue is what is sent; `PlanInv` holds initially, `planInv_init`.) -/
theorem C31_phases_partition (ex : Exact A) (hc : cfg.Positive) (hcos : CosOk A cfg) {s0 s : State F β}
    (h0 : PlanInv A cfg s0) (ops : List (Op F)) (hops : ∀ op ∈ ops, SaneOp A cfg op)
    (hr : run A cfg B s0 ops = some s) (op : Op F) (hop : SaneOp A cfg op) :
    ∀ seg ∈ queueOf A cfg s op, seg.planned.accel + seg.planned.travel + seg.planned.decel =
      (seg.target.deltaSteps seg.target.definingAxis).natAbs := by
  intro seg hseg
  rcases (queueOf_plan ex hc hcos (run_planInv ex hc hcos ops h0 hops hr) hop).1.planned seg hseg with
    h | ⟨n, h⟩
  · simp [h.accel, h.travel, h.decel, h.delta]
  · rw [h.sum, h.good.steps]

/-- **C32**, with the tolerance of one step. In exact arithmetic, for every segment of the queue:
entry, peak and exit speed are non-negative and at most the target speed; the peak is the largest; the
peak is reached within the acceleration phase and left within the deceleration phase, up to the speed
gained in one step; at each joint the exit speed respects the corner speed and the next segment does
not start faster; the last segment ends with speed 0. -/
theorem C32_speeds_partial (ex : Exact A) (hc : cfg.Positive) (hcos : CosOk A cfg) {s0 s : State F β}
    (h0 : PlanInv A cfg s0) (ops : List (Op F)) (hops : ∀ op ∈ ops, SaneOp A cfg op)
    (hr : run A cfg B s0 ops = some s) (op : Op F) (hop : SaneOp A cfg op) :
    (∀ seg ∈ queueOf A cfg s op, 0 ≤ seg.planned.v0 ∧ 0 ≤ seg.planned.v2 ∧
      seg.planned.v0 ≤ seg.planned.v1 ∧ seg.planned.v2 ≤ seg.planned.v1 ∧
      seg.planned.v1 ≤ seg.target.speed ∧
      seg.planned.v1 ^ 2 ≤ seg.planned.v0 ^ 2 + 2 * seg.target.accel * (seg.planned.accel + 1) ∧
      seg.planned.v1 ^ 2 ≤ seg.planned.v2 ^ 2 + 2 * seg.target.accel * (seg.planned.decel + 1)) ∧
    (∀ l p q l', queueOf A cfg s op = l ++ p :: q :: l' →
      p.planned.v2 * speedFactorForAxis A p.target q.target.definingAxis ≤ q.target.startSpeed ∧
      q.planned.v0 ≤ p.planned.v2) ∧
    ∀ seg ∈ (queueOf A cfg s op).getLast?, seg.planned.v2 = 0 := by
  obtain ⟨hp, hlim⟩ := queueOf_plan ex hc hcos (run_planInv ex hc hcos ops h0 hops hr) hop
  refine ⟨?_, ?_, hp.ends⟩
  · intro seg hseg
    rcases hp.planned seg hseg with h | ⟨n, h⟩
    · rw [h.v0, h.v1, h.v2, h.speed]
      simp [h.acc]
    · have ha := h.good.accel
      have hu := h.up
      refine ⟨h.v0, h.v2, h.v01, h.v21, h.limit, by rw [pow_two, pow_two]; exact hu.le, ?_⟩
      rw [pow_two, pow_two]
      rcases h.down with hd | ⟨hz, hd⟩
      · linarith
      · rw [hz]; push_cast; linarith
  · intro l p q l' e
    have := hp.joints
    rw [e] at this
    exact (List.isChain_append_cons_cons.1 this).2.1

/-- **C53.** In exact arithmetic, no axis ever exceeds its configured maximum speed and acceleration:
for every segment sent and every axis `a`, the axis moves `|δa| / |δd|` steps per step of the defining
axis; at the planned peak speed this is at most `max_feedrate * steps_per_mm`, and likewise for the
acceleration. -/
theorem C53_axis_limits (ex : Exact A) (hc : cfg.Positive) (hcos : CosOk A cfg) {s0 s : State F β}
    (h0 : PlanInv A cfg s0) (ops : List (Op F)) (hops : ∀ op ∈ ops, SaneOp A cfg op)
    (hr : run A cfg B s0 ops = some s) (op : Op F) (hop : SaneOp A cfg op) :
    ∀ seg ∈ queueOf A cfg s op, ∀ a,
      let ratio := |(seg.target.deltaSteps a : F)| / |(seg.target.deltaSteps seg.target.definingAxis : F)|
      seg.planned.v1 * ratio ≤ cfg.maxFeedrate a * cfg.stepsPerMm a ∧
      seg.target.accel * ratio ≤ cfg.acceleration a * cfg.stepsPerMm a := by
  obtain ⟨hp, hlim⟩ := queueOf_plan ex hc hcos (run_planInv ex hc hcos ops h0 hops hr) hop
  intro seg hseg a
  have hf := mul_spm_nonneg (hc.spm a) (hc.feed a)
  have hac := mul_spm_nonneg (hc.spm a) (hc.accel a)
  rcases hp.planned seg hseg with h | ⟨n, h⟩
  · simp only [h.delta, Int.cast_zero, abs_zero, div_zero, mul_zero]
    exact ⟨hf, hac⟩
  · have hd : (0 : F) < |(seg.target.deltaSteps seg.target.definingAxis : F)| := by
      have := h.good.steps
      have := h.good.pos
      have hne : seg.target.deltaSteps seg.target.definingAxis ≠ 0 := by omega
      exact abs_pos.2 (by exact_mod_cast hne)
    obtain ⟨l1, l2⟩ := hlim seg hseg a
    simp only
    constructor
    · rw [← mul_div_assoc, div_le_iff₀ hd]
      exact (mul_le_mul_of_nonneg_right h.limit (abs_nonneg _)).trans l1
    · rw [← mul_div_assoc, div_le_iff₀ hd]
      exact l2

/-- **C53**, path speed: the speed along the path of a new move is at most the requested feed rate
(`speed` is in steps of the defining axis, `len` the length of the path in X, Y, Z). -/
theorem C53_path_speed (ex : Exact A) (hc : cfg.Positive) (hcos : CosOk A cfg) (prev : AxisTarget F)
    (hprev : 0 ≤ prev.speed) (hfix : ∀ a, cfg.stepsPerMm a = 0 → prev.positionSteps a = 0) (axis : Axis → F) (feed : F) (hfeed : 0 < feed) (aux : Nat)
    (hmove : (definingAxis (newTarget A cfg prev axis feed aux).deltaSteps).1 ≠ 0)
    (hrange : ∀ a, ((newTarget A cfg prev axis feed aux).deltaSteps a).natAbs < 2 ^ 31) :
    (newTarget A cfg prev axis feed aux).speed * (newTarget A cfg prev axis feed aux).len /
      |((newTarget A cfg prev axis feed aux).deltaSteps
        (newTarget A cfg prev axis feed aux).definingAxis : F)| ≤ feed := by
  obtain ⟨⟨n, hg⟩, -, h⟩ := newTarget_spec ex hc prev axis feed aux hfeed hprev hcos hfix hmove hrange
  have hd : (0 : F) < |((newTarget A cfg prev axis feed aux).deltaSteps
      (newTarget A cfg prev axis feed aux).definingAxis : F)| := by
    have h1 := hg.steps
    have h2 := hg.pos
    have hne : (newTarget A cfg prev axis feed aux).deltaSteps
      (newTarget A cfg prev axis feed aux).definingAxis ≠ 0 := by omega
    exact abs_pos.2 (by exact_mod_cast hne)
  rw [div_le_iff₀ hd]
  exact h

/-- The constructor establishes the invariant. -/
theorem planInv_init (ex : Exact A) (b : β) (home : Axis → F)
    (hr : ∀ a, (A.lround (A.mul (home a) (cfg.stepsPerMm a))).natAbs < 2 ^ 30) (hc : cfg.Positive)
    (hcos : CosOk A cfg) {s : State F β} (hs : init A cfg B b home = some s) : PlanInv A cfg s := by
  unfold init at hs
  have key : ∀ (l : List Axis) (s s' : State F β), PlanInv A cfg s →
      l.foldlM (fun s a => setExternalPosition A cfg B s a (home a)) s = some s' → PlanInv A cfg s' := by
    intro l
    induction l with
    | nil => intro s s' h e; simp at e; subst e; exact h
    | cons a l ih =>
      intro s s' h e
      simp only [List.foldlM_cons, Option.bind_eq_bind] at e
      cases e1 : setExternalPosition A cfg B s a (home a) with
      | none => rw [e1] at e; simp at e
      | some t =>
        rw [e1] at e
        exact ih t s' (step_planInv (op := .external a (home a)) ex hc hcos h (hr a) e1) e
  refine key _ _ _ ⟨by simp, by simp, by simp [planningBufferCapacity], plan_single ex _, ?_, ?_, ?_⟩ hs
  · intro seg hseg
    simp at hseg
    rw [hseg]
    exact limited_still (still_rest ex (fun _ => 0)).delta
  · intro a; simp [State.position, Segment.zero, AxisTarget.zero]
  · intro a _; simp [State.position, Segment.zero, AxisTarget.zero]

/-- **C32, why the tolerance is needed.** A lone segment with a target speed of 1 step/s and an
acceleration of 1 step/s²: the peak speed is planned to be 1, from standstill, with no acceleration
step at all. -/
theorem C32_peak_not_reachable (ex : Exact A) (t : AxisTarget F) (hd : t.deltaSteps t.definingAxis = 10)
    (hs : t.speed = 1) (ha : t.accel = 1) :
    ∃ seg, (updateMotionProfile A [⟨t, Profile.zero A⟩] 0).1 = [seg] ∧ seg.planned.accel = 0 ∧
      seg.planned.v0 = 0 ∧ seg.planned.v1 = 1 ∧ ¬ seg.planned.v1 ^ 2 ≤
        seg.planned.v0 ^ 2 + 2 * seg.target.accel * seg.planned.accel := by
  have hf : speedFactorForAxis A t t.definingAxis = 1 := by
    unfold speedFactorForAxis
    rw [if_neg (by omega), if_pos rfl, ex.ofInt]; simp
  have hhalf : A.toInt (1 / 2 : F) = 0 := by
    obtain ⟨h1, h2⟩ := ex.trunc (1 / 2) (by norm_num)
    have h3 : (A.toInt (1 / 2 : F) : F) < 1 := h1.trans_lt (by norm_num)
    have h4 : (-1 : F) < (A.toInt (1 / 2 : F) : F) := by linarith
    have h5 : A.toInt (1 / 2 : F) < 1 := by exact_mod_cast h3
    have h6 : -1 < A.toInt (1 / 2 : F) := by exact_mod_cast h4
    omega
  have hhalfU : A.toU32 (1 / 2 : F) = 0 := by
    obtain ⟨h1, h2⟩ := ex.truncU (1 / 2) (by norm_num)
    have h3 : (A.toU32 (1 / 2 : F) : F) < 1 := h1.trans_lt (by norm_num)
    have h5 : A.toU32 (1 / 2 : F) < 1 := by exact_mod_cast h3
    omega
  have hdec : decelerationPlan A ⟨t, Profile.zero A⟩ none = (⟨0, 10, 0, 0, 1, 0⟩, true) := by
    unfold decelerationPlan
    simp only [hf, hs, ha, hd, ex.eq, ex.lt, ex.zero, ex.div, rampDistance_eq ex, Profile.zero, u32]
    norm_num [hhalf]
    rfl
  have hacc : accelerationPlan A none ⟨t, ⟨0, 10, 0, 0, 1, 0⟩⟩ = (⟨0, 10, 0, 0, 1, 0⟩, true) := by
    unfold accelerationPlan
    simp only [hf, ha, ex.eq, ex.le, ex.zero, ex.div, rampDistance_eq ex, Profile.total]
    norm_num [hhalfU]
  refine ⟨⟨t, ⟨0, 10, 0, 0, 1, 0⟩⟩, ?_, rfl, rfl, rfl, ?_⟩
  · simp only [updateMotionProfile, List.take_zero, List.drop_zero, List.reverse_cons, List.reverse_nil,
      List.nil_append, backwardPass, List.head?_nil, hdec, forwardPass, hacc]
  · simp only; norm_num

end BeagleG.Planner
