import Verif.EndToEnd.Model
import Verif.EndToEnd.Sim
import Verif.Planner.Props
import Verif.PruQueue.Props
import Verif.Hardware.MotorProps
/-!
# From the targets given to the planner to the pulses on the step lines
-/
namespace BeagleG.EndToEnd

open StepGen (Motor MotionSegment NoEarlyStop exec wave noEstop)
open MotorOps (Realises)

/-! ## What the firmware sees -/

/-- A segment that makes no step. -/
structure Idle (h : MotionSegment) : Prop where
  loops : h.loops = 0
  frac : ∀ i, h.fractions i = 0

/-- The segment makes `p i` steps with motor `i`. -/
def Makes (flip : Motor → Bool) (p : Motor → Int) (h : MotionSegment) : Prop :=
  Realises flip p h ∨ ((∀ i, p i = 0) ∧ Idle h)

theorem truncated_loops {h : MotionSegment} (hl : h.loops ≤ 65534) :
    (truncated h).loops = h.loops ∧ (truncated h).loopsAccel = h.loopsAccel ∧
    (truncated h).loopsTravel = h.loopsTravel ∧ (truncated h).loopsDecel = h.loopsDecel := by
  unfold MotionSegment.loops at *
  have h1 : h.loopsAccel % 2 ^ 16 = h.loopsAccel := Nat.mod_eq_of_lt (by omega)
  have h2 : h.loopsTravel % 2 ^ 16 = h.loopsTravel := Nat.mod_eq_of_lt (by omega)
  have h3 : h.loopsDecel % 2 ^ 16 = h.loopsDecel := Nat.mod_eq_of_lt (by omega)
  refine ⟨?_, h1, h2, h3⟩
  show h.loopsAccel % 2 ^ 16 + h.loopsTravel % 2 ^ 16 + h.loopsDecel % 2 ^ 16 = _
  rw [h1, h2, h3]

/-- What matters for the steps fits the fields. -/
theorem makes_truncated {flip : Motor → Bool} {p : Motor → Int} {h : MotionSegment}
    (hm : Makes flip p h) : Makes flip p (truncated h) := by
  rcases hm with ⟨⟨D, hD, henc⟩, hdir⟩ | ⟨h0, hi⟩
  · left
    refine ⟨⟨D, hD, henc.dpos, henc.dmax, ?_, henc.le, ?_⟩, ?_⟩
    · have := henc.dmax
      rw [(truncated_loops (by rw [henc.loops]; omega)).1, henc.loops]
    · intro i
      rw [← henc.frac i]
      show h.fractions i % 2 ^ 32 = _
      apply Nat.mod_eq_of_lt
      rw [henc.frac i]
      have hle := henc.le i
      have h1 : (p i).natAbs * (2 ^ 31 - 1) / D ≤ D * (2 ^ 31 - 1) / D :=
        Nat.div_le_div_right (Nat.mul_le_mul_right _ hle)
      rw [Nat.mul_div_cancel_left _ henc.dpos] at h1
      omega
    · intro i
      rw [← hdir i]
      show (h.directionBits % 2 ^ 8).testBit i.val = h.directionBits.testBit i.val
      rw [Nat.testBit_mod_two_pow]
      have := i.isLt
      simp [this]
  · right
    refine ⟨h0, ?_, ?_⟩
    · rw [(truncated_loops (by rw [hi.loops]; omega)).1, hi.loops]
    · intro i
      show h.fractions i % 2 ^ 32 = 0
      rw [hi.frac i]

/-- An idle segment moves nothing. -/
theorem idle_steps (flip : Motor → Bool) {h : MotionSegment} (hi : Idle h) (prev : Bool) (i : Motor) :
    MotorOps.axisSteps flip h prev i = 0 := by
  have hp : StepGen.pulses h noEstop prev i = 0 := by
    unfold StepGen.pulses exec
    have hl := hi.loops
    have h3 : h.loopsAccel = 0 ∧ h.loopsTravel = 0 ∧ h.loopsDecel = 0 := by
      unfold MotionSegment.loops at hl; omega
    rw [hl]
    simp [StepGen.stepGen, noEstop, StepGen.calculateDelay, StepGen.Regs.load, h3, wave,
      StepGen.risingEdges, StepGen.Pass.pin, hi.frac, Idiv.reg]
  unfold MotorOps.axisSteps
  rw [hp]
  split <;> simp

theorem makes_steps {flip : Motor → Bool} {p : Motor → Int} {h : MotionSegment}
    (hm : Makes flip p h) (hn : NoEarlyStop h) (prev : Bool) (i : Motor) :
    MotorOps.axisSteps flip h prev i = p i := by
  rcases hm with hr | ⟨h0, hi⟩
  · exact MotorOps.C21_direction_and_distance flip p h hr hn prev i
  · rw [idle_steps flip hi, h0]

theorem moved_makes {flip : Motor → Bool} (m : Motor) {parts : List (Motor → Int)}
    {l : List MotionSegment} (h : List.Forall₂ (Makes flip) parts l) (hn : ∀ s ∈ l, NoEarlyStop s) :
    ∀ prev, moved flip m prev l = (parts.map fun p => p m).sum := by
  induction h with
  | nil => intro prev; rfl
  | cons h1 h2 ih =>
    intro prev
    simp only [moved, List.map_cons, List.sum_cons]
    rw [makes_steps h1 (hn _ List.mem_cons_self), ih (fun s hs => hn s (List.mem_cons_of_mem _ hs))]

theorem moved_append (flip : Motor → Bool) (m : Motor) (l r : List MotionSegment) : ∀ prev, ∃ prev',
    moved flip m prev (l ++ r) = moved flip m prev l + moved flip m prev' r := by
  induction l with
  | nil => intro prev; exact ⟨prev, by simp [moved]⟩
  | cons s l ih =>
    intro prev
    obtain ⟨p, hp⟩ := ih (levelAfter s prev m)
    exact ⟨p, by simp only [List.cons_append, moved, hp]; omega⟩

/-! ## What the host hands over -/

variable {F : Type}

/-- The log of the planner and the segments handed over agree. -/
def Agree (flip : Motor → Bool) (old : List MotionSegment) (log : List (Planner.Call F))
    (b : Option (MotorOps.State (List MotionSegment))) : Prop :=
  ∀ s, b = some s → s.shadow ≠ [] ∧ ∃ parts new, s.backend = old ++ new ∧
    List.Forall₂ (Makes flip) parts new ∧ ∀ m, (parts.map fun p => p m).sum = Planner.stepsOf m log

theorem stepsOf_append (m : Motor) (l r : List (Planner.Call F)) :
    Planner.stepsOf m (l ++ r) = Planner.stepsOf m l + Planner.stepsOf m r := by
  induction l with
  | nil => simp [Planner.stepsOf]
  | cons c l ih =>
    cases c with
    | enqueue c => simp only [List.cons_append, Planner.stepsOf, ih]; omega
    | wait => simp only [List.cons_append, Planner.stepsOf, ih]
    | external a p => simp only [List.cons_append, Planner.stepsOf, ih]

theorem shrink_shadow {β : Type} (B : MotorOps.Backend β) (s : MotorOps.State β) :
    (MotorOps.shrink B s).shadow ≠ [] := by
  unfold MotorOps.shrink MotorOps.resize
  dsimp only
  generalize hn : (if (B.pending s.backend).1 > 0 then (B.pending s.backend).1 else 1) = n
  have h1 : 1 ≤ n := by rw [← hn]; split <;> omega
  intro h
  rw [List.append_eq_nil_iff, List.take_eq_nil_iff, List.replicate_eq_nil_iff] at h
  obtain ⟨h2 | h2, h3⟩ := h
  · omega
  · rw [h2] at h3
    simp at h3
    omega

theorem enqueue_shadow {β : Type} {B : MotorOps.Backend β} {flip : Motor → Bool} {timing} {s s' : MotorOps.State β}
    {seg ret} (h : MotorOps.enqueue B flip timing s seg = some (s', ret)) : s'.shadow ≠ [] := by
  unfold MotorOps.enqueue at h
  dsimp only at h
  rw [Option.map_eq_some_iff] at h
  obtain ⟨p, -, h⟩ := h
  injection h with h1 h2
  rw [← h1]
  exact shrink_shadow B _

/-- The planner cannot tell the motor operations from a recorder, and what it records is what is
handed over. -/
theorem sim_motor (flip : Motor → Bool) (pending : List MotionSegment → Nat × Nat)
    (timing : Planner.Command F → Nat → MotorOps.Timing) (old : List MotionSegment) :
    Sim Planner.recorder (motorBackend (openQueue pending) flip timing) (Agree flip old) := by
  refine ⟨?_, ?_, ?_⟩
  · intro log b c hb
    cases b with
    | none => exact ⟨fun s hs => by simp [motorBackend] at hs, rfl⟩
    | some s =>
      obtain ⟨hsh, parts, new, e1, e2, e3⟩ := hb s rfl
      unfold motorBackend
      dsimp only
      by_cases hr : ∀ i, (c.steps i).natAbs < 2 ^ 31
      · rw [if_pos hr]
        by_cases hz : ∀ i, c.steps i = 0
        · obtain ⟨s', h, k1, k2, k3, k4, -⟩ := MotorOps.C19_zero_steps (fun _ => true) pending flip
            (timing c) s ⟨c.steps, c.auxBits⟩ hsh hz rfl
          rw [openQueue, k1]
          refine ⟨?_, rfl⟩
          intro t ht
          injection ht with ht
          subst ht
          refine ⟨enqueue_shadow k1, parts ++ [fun _ => 0], new ++ [h], ?_, ?_, ?_⟩
          · rw [k2, e1, List.append_assoc]
          · exact List.rel_append e2 (.cons (.inr ⟨fun _ => rfl, k3, k4⟩) .nil)
          · intro m
            show _ = Planner.stepsOf m (log ++ [.enqueue c])
            rw [stepsOf_append, ← e3 m]
            simp [Planner.stepsOf, hz m]
        · have hne : ∃ i, c.steps i ≠ 0 := by
            by_contra hc
            exact hz fun i => by by_contra h; exact hc ⟨i, h⟩
          obtain ⟨ps, segs, s', k, ret, k1, k2, k3, k4, -, k6, k7⟩ := MotorOps.C19_no_step_lost
            (fun _ => true) pending flip (timing c) s ⟨c.steps, c.auxBits⟩ hsh hr hne
          have hret : ret = true := by
            cases ret with
            | true => rfl
            | false => exact absurd (k7 rfl).2 (by simp)
          subst hret
          rw [openQueue, k1]
          refine ⟨?_, rfl⟩
          intro t ht
          injection ht with ht
          subst ht
          refine ⟨enqueue_shadow k1, parts ++ ps, new ++ segs, ?_, ?_, ?_⟩
          · rw [k4, k6 rfl, List.take_length, e1, List.append_assoc]
          · exact List.rel_append e2 (k2.imp fun _ _ h => .inl h)
          · intro m
            show _ = Planner.stepsOf m (log ++ [.enqueue c])
            rw [stepsOf_append, ← e3 m, List.map_append, List.sum_append, k3 m]
            simp [Planner.stepsOf]
      · rw [if_neg hr]
        exact ⟨fun s hs => by simp at hs, rfl⟩
  · intro log b hb
    cases b with
    | none => intro s hs; simp [motorBackend] at hs
    | some s =>
      intro t ht
      simp only [motorBackend, Option.map_some, Option.some.injEq] at ht
      subst ht
      obtain ⟨hsh, parts, new, e1, e2, e3⟩ := hb s rfl
      refine ⟨hsh, parts, new, e1, e2, fun m => ?_⟩
      show _ = Planner.stepsOf m (log ++ [.wait])
      rw [stepsOf_append, e3 m]
      simp [Planner.stepsOf]
  · intro log b m p hb
    cases b with
    | none => intro s hs; simp [motorBackend] at hs
    | some s =>
      intro t ht
      obtain ⟨hsh, parts, new, e1, e2, e3⟩ := hb s rfl
      simp only [motorBackend, Option.bind_some] at ht
      unfold MotorOps.setExternalPosition at ht
      cases hs : s.shadow with
      | nil => exact absurd hs hsh
      | cons last rest =>
        rw [hs] at ht
        simp only [Option.some.injEq] at ht
        rw [← ht]
        refine ⟨shrink_shadow _ _, parts, new, e1, e2, fun m' => ?_⟩
        show _ = Planner.stepsOf m' (log ++ [.external m p])
        rw [stepsOf_append, e3 m']
        simp [Planner.stepsOf]

/-- Host side: the segments handed over for a path realise, motor by motor, exactly the way from the
position at the start to the rounded last target. -/
theorem C46_host (A : Planner.Arith F) (cfg : Planner.Config F) (hd : cfg.Disjoint)
    (flip : Motor → Bool) (pending : List MotionSegment → Nat × Nat)
    (timing : Planner.Command F → Nat → MotorOps.Timing)
    (s s' : Planner.State F (Option (MotorOps.State (List MotionSegment)))) (hw : Planner.Wf s)
    (hh : s.halted = true) (mo mo' : MotorOps.State (List MotionSegment)) (hs : s.backend = some mo)
    (hsh : mo.shadow ≠ []) (ops : List (Planner.Op F)) (hops : ∀ op ∈ ops, op.isPath = true)
    (hr : Planner.run A cfg (motorBackend (openQueue pending) flip timing) s (ops ++ [.halt]) = some s')
    (hs' : s'.backend = some mo') :
    ∃ parts new, mo'.backend = mo.backend ++ new ∧ List.Forall₂ (Makes flip) parts new ∧
      (∀ a m, cfg.motorMap a m = true → (parts.map fun p => p m).sum =
        Planner.destination A cfg s.position ops a - s.position a) ∧
      ∀ m, (∀ a, cfg.motorMap a m = false) → (parts.map fun p => p m).sum = 0 := by
  let r : Planner.State F (List (Planner.Call F)) :=
    { backend := [], buffer := s.buffer, ready := s.ready, lookahead := s.lookahead
      halted := s.halted, positionKnown := s.positionKnown }
  have hrel : Rel (Agree flip mo.backend) r s := by
    refine ⟨?_, rfl, rfl, rfl, rfl, rfl⟩
    intro t ht
    rw [hs] at ht
    injection ht with ht
    subst ht
    exact ⟨hsh, [], [], by simp, .nil, fun m => rfl⟩
  have hb := sim_run A cfg (sim_motor flip pending timing mo.backend) (ops ++ [.halt]) r s hrel
  rw [hr] at hb
  cases e : Planner.run A cfg Planner.recorder r (ops ++ [.halt]) with
  | none => rw [e] at hb; cases hb
  | some r' =>
    rw [e] at hb
    cases hb with
    | some hrel' =>
      obtain ⟨g1, g2, -⟩ := Planner.C29_no_drift A cfg hd r r' ⟨hw.nonempty, hw.ahead, hw.rest⟩ hh ops hops e
      obtain ⟨-, parts, new, e1, e2, e3⟩ := hrel'.backend mo' hs'
      refine ⟨parts, new, e1, e2, ?_, ?_⟩
      · intro a m hm
        rw [e3 m, g1 a m hm]
        show (0 : Int) + _ = _
        rw [Int.zero_add]
        rfl
      · intro m hm
        rw [e3 m, g2 m hm]
        rfl

/-- Firmware side: when `WaitQueueEmpty` has returned, every segment handed over was executed, in
order, and the firmware saw what the host wrote. -/
theorem C46_firmware (segs : List MotionSegment) (as : List PruQueue.Action)
    (hne : PruQueue.Action.estop true ∉ as) (q q' : PruQueue.Sys)
    (hr : PruQueue.run payload loopsOf PruQueue.init as = some q)
    (hs : PruQueue.step payload loopsOf q .host = some q')
    (hres : q'.results = q.results ++ [.drained]) (hacc : PruQueue.accepted q' = elements segs) :
    executed q' = segs.map truncated := by
  obtain ⟨h1, -⟩ := PruQueue.C25_wait_queue_empty (by decide) as q q' hr hs (.inl hres)
  have hr' : PruQueue.run payload loopsOf PruQueue.init (as ++ [.host]) = some q' := by
    have app : ∀ (as : List PruQueue.Action) (s : PruQueue.Sys),
        PruQueue.run payload loopsOf s as = some q →
        PruQueue.run payload loopsOf s (as ++ [.host]) = some q' := by
      intro as
      induction as with
      | nil =>
        intro s h
        simp only [PruQueue.run, Option.some.injEq] at h
        subst h
        simp only [List.nil_append, PruQueue.run, hs, Option.bind_some]
      | cons a as ih =>
        intro s h
        simp only [PruQueue.run, List.cons_append] at h ⊢
        cases e : PruQueue.step payload loopsOf s a with
        | none => rw [e] at h; simp at h
        | some s1 =>
          rw [e] at h
          exact ih s1 h
    exact app as _ hr
  obtain ⟨h2, -⟩ := PruQueue.C25_no_abort_without_estop (as ++ [.host]) (by simp [hne]) q' hr'
  rw [hacc] at h1
  unfold executed
  have gen : ∀ (l : List (PruQueue.Elem × PruQueue.Outcome)) (segs : List MotionSegment),
      l.map Prod.fst = elements segs → (∀ x ∈ l, x.2 = .executed) →
      (l.filterMap fun
        | (.seg bytes, .executed) => some (firmwareLoad bytes)
        | _ => none) = segs.map truncated := by
    intro l
    induction l with
    | nil =>
      intro segs h _
      cases segs with
      | nil => rfl
      | cons _ _ => simp [elements] at h
    | cons x l ih =>
      intro segs h hx
      cases segs with
      | nil => simp [elements] at h
      | cons sg segs =>
        simp only [elements, List.map_cons, List.cons.injEq] at h
        obtain ⟨x1, x2⟩ := x
        have e2 := hx _ List.mem_cons_self
        have e1 := h.1
        dsimp only at e1 e2
        subst e1 e2
        simp only [List.filterMap_cons, List.map_cons]
        rw [ih segs h.2 (fun y hy => hx y (List.mem_cons_of_mem _ hy)), load_host]
  exact gen _ _ h1 h2

/-- **C46.** Whatever path is given to the planner and flushed: when the queue is drained, each motor
has made exactly the steps, in exactly the direction, from the position of its axis at the start to
the rounded last target; a motor without axis has not moved. For all planner floating point
results, all timings, motor mappings and mirrorings, all interleavings of host and firmware without
emergency stop, provided every segment runs to its end (`NoEarlyStop`). `mo.backend` are the segments
handed over before; the run of the queue starts with the first of them. -/
theorem C46_end_to_end (A : Planner.Arith F) (cfg : Planner.Config F) (hd : cfg.Disjoint)
    (flip : Motor → Bool) (pending : List MotionSegment → Nat × Nat)
    (timing : Planner.Command F → Nat → MotorOps.Timing)
    (s s' : Planner.State F (Option (MotorOps.State (List MotionSegment)))) (hw : Planner.Wf s)
    (hh : s.halted = true) (mo mo' : MotorOps.State (List MotionSegment)) (hs : s.backend = some mo)
    (hsh : mo.shadow ≠ []) (ops : List (Planner.Op F)) (hops : ∀ op ∈ ops, op.isPath = true)
    (hr : Planner.run A cfg (motorBackend (openQueue pending) flip timing) s (ops ++ [.halt]) = some s')
    (hs' : s'.backend = some mo')
    (as : List PruQueue.Action) (hne : PruQueue.Action.estop true ∉ as) (q q' : PruQueue.Sys)
    (hq : PruQueue.run payload loopsOf PruQueue.init as = some q)
    (hstep : PruQueue.step payload loopsOf q .host = some q')
    (hres : q'.results = q.results ++ [.drained])
    (hacc : PruQueue.accepted q' = elements mo'.backend)
    (hfull : ∀ h ∈ executed q', NoEarlyStop h) :
    ∃ before after, executed q' = before ++ after ∧ before = mo.backend.map truncated ∧
      (∀ a m, cfg.motorMap a m = true →
        moved flip m false (executed q') = moved flip m false before +
          (Planner.destination A cfg s.position ops a - s.position a)) ∧
      ∀ m, (∀ a, cfg.motorMap a m = false) →
        moved flip m false (executed q') = moved flip m false before := by
  obtain ⟨parts, new, e1, e2, e3, e4⟩ := C46_host A cfg hd flip pending timing s s' hw hh mo mo' hs hsh
    ops hops hr hs'
  have hx := C46_firmware mo'.backend as hne q q' hq hstep hres hacc
  rw [e1, List.map_append] at hx
  have hmk : List.Forall₂ (Makes flip) parts (new.map truncated) := by
    rw [List.forall₂_map_right_iff]
    exact e2.imp fun _ _ h => makes_truncated h
  have hn : ∀ h ∈ new.map truncated, NoEarlyStop h := by
    intro h hh
    exact hfull h (by rw [hx]; exact List.mem_append_right _ hh)
  refine ⟨_, _, hx, rfl, ?_, ?_⟩
  · intro a m hm
    obtain ⟨p, hp⟩ := moved_append flip m (mo.backend.map truncated) (new.map truncated) false
    rw [hx, hp, moved_makes m hmk hn, e3 a m hm]
  · intro m hm
    obtain ⟨p, hp⟩ := moved_append flip m (mo.backend.map truncated) (new.map truncated) false
    rw [hx, hp, moved_makes m hmk hn, e4 m hm, Int.add_zero]

/-- The motor mapping made by the configuration (`AddMotorMapping`, C40) has no motor on two axes, as
needed above. -/
theorem C46_configured {G : Type} [Inhabited G] (cfg : Planner.Config F)
    (l : List Hardware.MotorRequest)
    (hm : cfg.motorMap = (l.foldl Hardware.MotorRequest.run (Hardware.Hw.blank G)).drives) :
    cfg.Disjoint := by
  intro a b m h1 h2
  rw [hm] at h1 h2
  exact (Hardware.C40_one_axis (F := G) l).1 a b m h1 h2

/-- The starting state: a new planner on new motor operations. -/
theorem C46_initial (A : Planner.Arith F) (cfg : Planner.Config F) (flip : Motor → Bool)
    (pending : List MotionSegment → Nat × Nat) (timing : Planner.Command F → Nat → MotorOps.Timing)
    (home : Planner.Axis → F)
    (s : Planner.State F (Option (MotorOps.State (List MotionSegment))))
    (h : Planner.init A cfg (motorBackend (openQueue pending) flip timing) (some (.init [])) home = some s) :
    Planner.Wf s ∧ s.halted = true ∧
    (∀ a, s.position a = A.lround (A.mul (home a) (cfg.stepsPerMm a))) ∧
    ∀ mo, s.backend = some mo → mo.shadow ≠ [] ∧ mo.backend = [] := by
  let B := motorBackend (F := F) (openQueue pending) flip timing
  let Quiet : Option (MotorOps.State (List MotionSegment)) → Prop := fun b =>
    ∀ mo, b = some mo → mo.shadow ≠ [] ∧ mo.backend = []
  have ext : ∀ b m p, Quiet b → Quiet (B.setExternalPosition b m p) := by
    intro b m p hb
    cases b with
    | none => intro mo h; simp [B, motorBackend] at h
    | some s0 =>
      intro mo h
      simp only [B, motorBackend, Option.bind_some] at h
      obtain ⟨h1, h2⟩ := hb s0 rfl
      unfold MotorOps.setExternalPosition at h
      cases hs : s0.shadow with
      | nil => exact absurd hs h1
      | cons last rest =>
        rw [hs] at h
        simp only [Option.some.injEq] at h
        rw [← h]
        exact ⟨shrink_shadow _ _, h2⟩
  have fold : ∀ (a : Planner.Axis) (p : Int) (l : List Motor) b, Quiet b →
      Quiet (l.foldl (fun b m => if cfg.motorMap a m then B.setExternalPosition b m p else b) b) := by
    intro a p l
    induction l with
    | nil => intro b hb; exact hb
    | cons m l ih =>
      intro b hb
      simp only [List.foldl_cons]
      apply ih
      split
      · exact ext _ _ _ hb
      · exact hb
  have key : ∀ (l : List Planner.Axis) (s s' : Planner.State F (Option (MotorOps.State (List MotionSegment)))),
      Planner.Wf s → s.halted = true → Quiet s.backend →
      l.foldlM (fun s a => Planner.setExternalPosition A cfg B s a (home a)) s = some s' →
      Planner.Wf s' ∧ s'.halted = true ∧ Quiet s'.backend ∧
      ∀ a, s'.position a = if a ∈ l then A.lround (A.mul (home a) (cfg.stepsPerMm a)) else s.position a := by
    intro l
    induction l with
    | nil =>
      intro s s' h1 h2 h3 h
      simp only [List.foldlM_nil, Option.pure_def, Option.some.injEq] at h
      subst h
      exact ⟨h1, h2, h3, fun a => by simp⟩
    | cons a l ih =>
      intro s s' h1 h2 h3 h
      obtain ⟨seg, hb, hz⟩ := h1.rest h2
      simp only [List.foldlM_cons, Option.bind_eq_bind] at h
      obtain ⟨s1, e1⟩ : ∃ s1, Planner.setExternalPosition A cfg B s a (home a) = some s1 := by
        unfold Planner.setExternalPosition
        rw [hb]
        dsimp only
        rw [if_pos h2]
        exact ⟨_, rfl⟩
      rw [e1] at h
      simp only [Option.bind_some] at h
      unfold Planner.setExternalPosition at e1
      rw [hb] at e1
      dsimp only at e1
      rw [if_pos h2] at e1
      injection e1 with e1
      subst e1
      have K := fun x y z => ih _ s' x y z h
      obtain ⟨g1, g2, g3, g4⟩ := K ⟨by simp, h1.ahead, fun _ => ⟨_, rfl, hz⟩⟩ h2 (fold a _ _ _ h3)
      refine ⟨g1, g2, g3, ?_⟩
      intro b
      rw [g4 b]
      by_cases hl : b ∈ l
      · simp [hl]
      · by_cases hab : b = a
        · subst hab
          simp [hl, Planner.State.position]
        · simp [hl, hab, Planner.State.position, hb]
  unfold Planner.init at h
  obtain ⟨g1, g2, g3, g4⟩ := key _ _ _ ⟨by simp, by simp [Planner.planningBufferCapacity],
    fun _ => ⟨_, rfl, fun _ => rfl⟩⟩ rfl (by
      intro mo hmo
      simp only [Option.some.injEq] at hmo
      subst hmo
      exact ⟨by simp [MotorOps.State.init], rfl⟩) h
  exact ⟨g1, g2, fun a => by rw [g4 a, if_pos (List.mem_finRange a)], g3⟩

/-- **C46, waiting**: what the planner asks of its backend reaches the motion queue. -/
theorem C46_waits (B : MotorOps.Backend (List MotionSegment)) (flip : Motor → Bool)
    (timing : Planner.Command F → Nat → MotorOps.Timing) (mo : MotorOps.State (List MotionSegment)) :
    ((motorBackend B flip timing).waitQueueEmpty (some mo)).map (·.backend) = some (B.waitQueueEmpty mo.backend) := rfl

end BeagleG.EndToEnd
