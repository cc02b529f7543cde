import Verif.EndToEnd.Props
import Verif.MotorOps.SplitTiming
/-!
# C46 with the timing the host computes

`C46_end_to_end` holds for any timing and assumes that no segment stops early. Here the timing is the one computed from the
speeds of the commands, in exact arithmetic; the assumption is replaced by one about these speeds.
-/
set_option linter.unusedSectionVars false

namespace BeagleG.EndToEnd

open StepGen (Motor MotionSegment NoEarlyStop exec wave noEstop Regs delayAfter)
open MotorOps (LinearSegment definingAxisSteps divisions buildSegment partBuilt Movable hostTiming Timing)

/-- What `Enqueue` hands over. -/
theorem enqueue_built (pending : List MotionSegment → Nat × Nat) (flip : Motor → Bool) (timing : Nat → Timing)
    (s s' : MotorOps.State (List MotionSegment)) (seg : LinearSegment) (hs : s.shadow ≠ []) (ret : Bool)
    (h : MotorOps.enqueue (openQueue pending) flip timing s seg = some (s', ret)) :
    ∃ segs, s'.backend = s.backend ++ segs ∧ ∀ x ∈ segs,
      (definingAxisSteps seg.steps = 0 ∧ x.loopsAccel = 0 ∧ x.loopsTravel = 0 ∧ x.loopsDecel = 0) ∨
      (32767 < definingAxisSteps seg.steps ∧ ∃ d < divisions (definingAxisSteps seg.steps),
        x = partBuilt flip timing seg (definingAxisSteps seg.steps) d) ∨
      (0 < definingAxisSteps seg.steps ∧ definingAxisSteps seg.steps ≤ 32767 ∧
        x = buildSegment flip seg (definingAxisSteps seg.steps) (timing 0)) := by
  unfold openQueue at h
  unfold MotorOps.enqueue at h
  dsimp only at h
  by_cases h0 : definingAxisSteps seg.steps = 0
  · rw [if_pos h0] at h
    cases hsh : s.shadow with
    | nil => exact absurd hsh hs
    | cons last rest =>
      rw [hsh] at h
      simp only [Option.map_some, Option.some.injEq, Prod.mk.injEq] at h
      rw [← h.1]
      exact ⟨_, rfl, fun x hx => .inl (by
        rw [List.mem_singleton] at hx
        rw [hx]
        exact ⟨h0, rfl, rfl, rfl⟩)⟩
  · rw [if_neg h0] at h
    by_cases hbig : definingAxisSteps seg.steps > MotorOps.maxStepsPerSegment
    · rw [if_pos hbig] at h
      obtain ⟨k, hk, s1, -, h1, h2, -⟩ := MotorOps.splitLoop_limited (fun _ => true) pending flip timing seg
        (definingAxisSteps seg.steps) (divisions (definingAxisSteps seg.steps)) 0 s false hs
      have hz : (fun i => MotorOps.hiresStepsPerDiv (seg.steps i)
          (divisions (definingAxisSteps seg.steps)) * ((0 : Nat) : Int)) = fun _ => 0 := by
        funext i; simp
      have hz2 : (fun i => MotorOps.hiresStepsPerDiv (seg.steps i)
          (divisions (definingAxisSteps seg.steps)) * ((0 : Nat) : Int) / 2 ^ 32) = fun _ => 0 := by
        funext i; simp
      rw [hz, hz2] at h1
      rw [h1] at h
      simp only [Option.map_some, Option.some.injEq, Prod.mk.injEq] at h
      rw [← h.1]
      refine ⟨_, h2, fun x hx => .inr (.inl ⟨hbig, ?_⟩)⟩
      rw [List.mem_map] at hx
      obtain ⟨j, hj, rfl⟩ := hx
      rw [List.mem_range] at hj
      exact ⟨0 + j, by omega, rfl⟩
    · rw [if_neg hbig] at h
      unfold MotorOps.enqueueInternal at h
      cases hsh : s.shadow with
      | nil => exact absurd hsh hs
      | cons last rest =>
        rw [hsh] at h
        simp only [Option.map_some, Option.some.injEq, Prod.mk.injEq] at h
        rw [← h.1]
        refine ⟨_, rfl, fun x hx => .inr (.inr ?_)⟩
        rw [List.mem_singleton] at hx
        exact ⟨by omega, not_lt.1 hbig, hx⟩

/-- The fields used for timing fit their width. -/
theorem load_truncated {h : MotionSegment} (hl : h.loops ≤ 65534) (h1 : h.accelSeriesIndex < 2 ^ 32)
    (h2 : h.hiresAccelCycles < 2 ^ 32) (h3 : h.travelDelayCycles < 2 ^ 32) : Regs.load (truncated h) = Regs.load h := by
  obtain ⟨-, a, b, c⟩ := truncated_loops hl
  unfold Regs.load
  rw [a, b, c]
  show Regs.mk _ _ _ (h.accelSeriesIndex % 2 ^ 32) (h.hiresAccelCycles % 2 ^ 32) (h.travelDelayCycles % 2 ^ 32) 0 = _
  rw [Nat.mod_eq_of_lt h1, Nat.mod_eq_of_lt h2, Nat.mod_eq_of_lt h3]

theorem u32_lt (n : Int) : Planner.u32 n < 2 ^ 32 := by
  unfold Planner.u32
  omega

variable {F : Type} [Field F] [LinearOrder F] [IsStrictOrderedRing F] {A : Planner.Arith F}

omit [Field F] [LinearOrder F] [IsStrictOrderedRing F] in
theorem segmentTiming_lt (v0 v1 : F) (D : Nat) : (MotorOps.segmentTiming A v0 v1 D).index < 2 ^ 32 ∧
    (MotorOps.segmentTiming A v0 v1 D).cycles < 2 ^ 32 ∧ (MotorOps.segmentTiming A v0 v1 D).delay < 2 ^ 32 := by
  unfold MotorOps.segmentTiming MotorOps.rampTiming
  split
  · exact ⟨by simp, by simp, u32_lt _⟩
  · split
    · exact ⟨u32_lt _, u32_lt _, by simp⟩
    · exact ⟨u32_lt _, u32_lt _, by simp⟩

omit [Field F] [LinearOrder F] [IsStrictOrderedRing F] in
theorem hostTiming_lt (steps : Motor → Int) (v0 v1 : F) (d : Nat) : (hostTiming A steps v0 v1 d).index < 2 ^ 32 ∧
    (hostTiming A steps v0 v1 d).cycles < 2 ^ 32 ∧ (hostTiming A steps v0 v1 d).delay < 2 ^ 32 := by
  unfold hostTiming
  dsimp only
  split <;> exact segmentTiming_lt _ _ _

theorem build_truncated (flip : Motor → Bool) (seg : LinearSegment) {D : Nat} (hD : D ≤ 32767) {t : Timing}
    (ht : t.index < 2 ^ 32 ∧ t.cycles < 2 ^ 32 ∧ t.delay < 2 ^ 32) (h : NoEarlyStop (buildSegment flip seg D t)) :
    NoEarlyStop (truncated (buildSegment flip seg D t)) := by
  have hl := MotorOps.buildSegment_loops flip seg D t hD
  have hl' : (buildSegment flip seg D t).loops ≤ 65534 := by omega
  obtain ⟨h1, h2, h3⟩ := ht
  have e := load_truncated hl' (by unfold buildSegment; dsimp only; split <;> omega)
    (by unfold buildSegment; dsimp only; split <;> omega) (by unfold buildSegment; dsimp only; split <;> omega)
  intro k hk
  rw [(truncated_loops hl').1] at hk
  rw [e]
  exact h k hk

/-- The timing of a command. -/
def commandTiming (A : Planner.Arith F) (c : Planner.Command F) : Nat → Timing := hostTiming A c.steps c.v0 c.v1

/-- A command that can be timed: of moderate length, speeds and acceleration. -/
structure Fit (c : Planner.Command F) : Prop where
  length : definingAxisSteps c.steps ≤ 2 ^ 27
  speeds : 0 < definingAxisSteps c.steps → Movable c.v0 c.v1 (definingAxisSteps c.steps)

/-- Non-vacuity: 40000 steps from rest to 20000 steps/s; with another motor that makes half of them. -/
example : Fit (F := F) ⟨0, 20000, 0, fun m => if m = 0 then 40000 else if m = 1 then -20000 else 0⟩ := by
  have e : definingAxisSteps (fun m : Motor => if m = 0 then (40000 : Int) else if m = 1 then -20000 else 0) = 40000 := by decide
  refine ⟨by rw [e]; decide, fun _ => ?_⟩
  rw [e]
  have ha : MotorOps.accelOver (20000 : F) 0 40000 = 5000 := by unfold MotorOps.accelOver; norm_num
  refine ⟨by norm_num, by norm_num, by norm_num, by norm_num, fun h => ?_, fun _ => ?_, fun h => ?_⟩
  · norm_num at h
  · rw [ha]; norm_num
  · norm_num at h

/-- The segments made from commands that can be timed run to their end. -/
theorem fit_runs (ex : Planner.Exact A) {flip : Motor → Bool} {pending : List MotionSegment → Nat × Nat}
    {s s' : MotorOps.State (List MotionSegment)} {c : Planner.Command F} (hs : s.shadow ≠ []) {ret : Bool}
    (h : MotorOps.enqueue (openQueue pending) flip (commandTiming A c) s ⟨c.steps, c.auxBits⟩ = some (s', ret)) :
    ∃ segs, s'.backend = s.backend ++ segs ∧ (Fit c → ∀ x ∈ segs, NoEarlyStop (truncated x)) := by
  obtain ⟨segs, e, hx⟩ := enqueue_built pending flip _ s s' _ hs ret h
  refine ⟨segs, e, fun hf x hm => ?_⟩
  dsimp only at hx
  rcases hx x hm with ⟨-, h1, h2, h3⟩ | ⟨hb, d, hd, rfl⟩ | ⟨h0, h1, rfl⟩
  · intro k hk
    have : x.loops = 0 := by unfold MotionSegment.loops; omega
    rw [(truncated_loops (by omega)).1] at hk
    omega
  · have key := MotorOps.C64_move_runs ex flip ⟨c.steps, c.auxBits⟩ (v0 := c.v0) (v1 := c.v1) (by dsimp only; omega)
      hf.length (hf.speeds (by omega))
    rw [if_pos hb] at key
    have hp := (MotorOps.partSegment_defining ⟨c.steps, c.auxBits⟩ d hb (by have := hf.length; dsimp only; omega)).2
    exact build_truncated flip _ hp (hostTiming_lt _ _ _ _) (key d hd)
  · have key := MotorOps.C64_move_runs ex flip ⟨c.steps, c.auxBits⟩ (v0 := c.v0) (v1 := c.v1) h0
      hf.length (hf.speeds h0)
    rw [if_neg (by dsimp only; omega)] at key
    exact build_truncated flip _ h1 (hostTiming_lt _ _ _ _) key

/-- The log of the planner and the segments handed over, with regard to timing. -/
def AgreeTime (old : List MotionSegment) (log : List (Planner.Call F))
    (b : Option (MotorOps.State (List MotionSegment))) : Prop :=
  ∀ s, b = some s → s.shadow ≠ [] ∧ ∃ new, s.backend = old ++ new ∧
    ((∀ c, Planner.Call.enqueue c ∈ log → Fit c) → ∀ x ∈ new, NoEarlyStop (truncated x))

theorem sim_time (ex : Planner.Exact A) (flip : Motor → Bool) (pending : List MotionSegment → Nat × Nat)
    (old : List MotionSegment) :
    Sim Planner.recorder (motorBackend (openQueue pending) flip (commandTiming A)) (AgreeTime (F := F) old) := by
  have keep : ∀ {log log' : List (Planner.Call F)} {new : List MotionSegment},
      (∀ c, Planner.Call.enqueue c ∈ log → Planner.Call.enqueue c ∈ log') →
      ((∀ c, Planner.Call.enqueue c ∈ log → Fit c) → ∀ x ∈ new, NoEarlyStop (truncated x)) →
      ((∀ c, Planner.Call.enqueue c ∈ log' → Fit c) → ∀ x ∈ new, NoEarlyStop (truncated x)) :=
    fun h1 h2 h3 => h2 fun c hc => h3 c (h1 c hc)
  refine ⟨?_, ?_, ?_⟩
  · intro log b c hb
    cases b with
    | none => exact ⟨fun s hs => by simp [motorBackend] at hs, rfl⟩
    | some s =>
      obtain ⟨hsh, new, e1, e2⟩ := hb s rfl
      unfold motorBackend
      dsimp only
      by_cases hr : ∀ i, (c.steps i).natAbs < 2 ^ 31
      · rw [if_pos hr]
        cases he : MotorOps.enqueue (openQueue pending) flip (commandTiming A c) s ⟨c.steps, c.auxBits⟩ with
        | none => exact ⟨fun s hs => by simp at hs, rfl⟩
        | some p =>
          obtain ⟨s', ret⟩ := p
          obtain ⟨segs, f1, f2⟩ := fit_runs ex hsh he
          refine ⟨?_, ?_⟩
          · intro t ht
            injection ht with ht
            subst ht
            refine ⟨enqueue_shadow he, new ++ segs, by rw [f1, e1, List.append_assoc], fun hc x hx => ?_⟩
            rw [List.mem_append] at hx
            rcases hx with hx | hx
            · exact e2 (fun c' hc' => hc c' (List.mem_append_left _ hc')) x hx
            · exact f2 (hc c (List.mem_append_right _ (by simp))) x hx
          · -- the queue takes every segment
            have := ((sim_motor flip pending (commandTiming A) s.backend).enqueue [] (some s) c (by
              intro t ht
              injection ht with ht
              subst ht
              exact ⟨hsh, [], [], by simp, .nil, fun m => rfl⟩)).2
            unfold motorBackend at this
            dsimp only at this
            rw [if_pos hr, he] at this
            exact this
      · rw [if_neg hr]
        exact ⟨fun s hs => by simp at hs, rfl⟩
  · intro log b hb
    cases b with
    | none => intro s hs; simp [motorBackend] at hs
    | some s =>
      intro t ht
      simp only [motorBackend, Option.map_some, Option.some.injEq] at ht
      subst ht
      obtain ⟨hsh, new, e1, e2⟩ := hb s rfl
      exact ⟨hsh, new, e1, keep (fun c hc => List.mem_append_left _ hc) e2⟩
  · intro log b m p hb
    cases b with
    | none => intro s hs; simp [motorBackend] at hs
    | some s =>
      intro t ht
      obtain ⟨hsh, new, e1, e2⟩ := hb s rfl
      simp only [motorBackend, Option.bind_some] at ht
      unfold MotorOps.setExternalPosition at ht
      cases hs : s.shadow with
      | nil => exact absurd hs hsh
      | cons last rest =>
        rw [hs] at ht
        simp only [Option.some.injEq] at ht
        rw [← ht]
        exact ⟨shrink_shadow _ _, new, e1, keep (fun c hc => List.mem_append_left _ hc) e2⟩

/-- The commands of a path, as the planner sends them: the log of a recorder in its place. -/
def commandsOf {β : Type} (A : Planner.Arith F) (cfg : Planner.Config F) (s : Planner.State F β) (ops : List (Planner.Op F)) :
    List (Planner.Call F) :=
  match Planner.run A cfg Planner.recorder
    { backend := [], buffer := s.buffer, ready := s.ready, lookahead := s.lookahead, halted := s.halted
      positionKnown := s.positionKnown } (ops ++ [.halt]) with
  | none => []
  | some r => r.backend

/-- **C46 with computed timing**: in exact arithmetic, if the commands of the path have moderate speeds and accelerations
(`Fit`), each motor makes exactly the steps due. `before` are the segments handed over earlier. -/
theorem C46_timed (ex : Planner.Exact A) (cfg : Planner.Config F) (hd : cfg.Disjoint)
    (flip : Motor → Bool) (pending : List MotionSegment → Nat × Nat)
    (s s' : Planner.State F (Option (MotorOps.State (List MotionSegment)))) (hw : Planner.Wf s)
    (hh : s.halted = true) (mo mo' : MotorOps.State (List MotionSegment)) (hs : s.backend = some mo)
    (hsh : mo.shadow ≠ []) (ops : List (Planner.Op F)) (hops : ∀ op ∈ ops, op.isPath = true)
    (hfit : ∀ c, Planner.Call.enqueue c ∈ commandsOf A cfg s ops → Fit c)
    (hr : Planner.run A cfg (motorBackend (openQueue pending) flip (commandTiming A)) s (ops ++ [.halt]) = some s')
    (hs' : s'.backend = some mo')
    (as : List PruQueue.Action) (hne : PruQueue.Action.estop true ∉ as) (q q' : PruQueue.Sys)
    (hq : PruQueue.run payload loopsOf PruQueue.init as = some q)
    (hstep : PruQueue.step payload loopsOf q .host = some q')
    (hres : q'.results = q.results ++ [.drained])
    (hacc : PruQueue.accepted q' = elements mo'.backend)
    (hbefore : ∀ h ∈ mo.backend, NoEarlyStop (truncated h)) :
    ∃ before after, executed q' = before ++ after ∧ before = mo.backend.map truncated ∧
      (∀ a m, cfg.motorMap a m = true →
        moved flip m false (executed q') = moved flip m false before +
          (Planner.destination A cfg s.position ops a - s.position a)) ∧
      ∀ m, (∀ a, cfg.motorMap a m = false) →
        moved flip m false (executed q') = moved flip m false before := by
  refine C46_end_to_end A cfg hd flip pending (commandTiming A) s s' hw hh mo mo' hs hsh ops hops hr hs' as hne q q' hq hstep
    hres hacc ?_
  rw [C46_firmware mo'.backend as hne q q' hq hstep hres hacc]
  intro x hx
  rw [List.mem_map] at hx
  obtain ⟨h, hm, rfl⟩ := hx
  let r : Planner.State F (List (Planner.Call F)) :=
    { backend := [], buffer := s.buffer, ready := s.ready, lookahead := s.lookahead
      halted := s.halted, positionKnown := s.positionKnown }
  have hrel : Rel (AgreeTime mo.backend) r s := by
    refine ⟨?_, rfl, rfl, rfl, rfl, rfl⟩
    intro t ht
    rw [hs] at ht
    injection ht with ht
    subst ht
    exact ⟨hsh, [], by simp, fun _ x hx => by simp at hx⟩
  have hb := sim_run A cfg (sim_time ex flip pending mo.backend) (ops ++ [.halt]) r s hrel
  rw [hr] at hb
  cases e : Planner.run A cfg Planner.recorder r (ops ++ [.halt]) with
  | none => rw [e] at hb; cases hb
  | some r' =>
    rw [e] at hb
    cases hb with
    | some hrel' =>
      obtain ⟨-, new, e1, e2⟩ := hrel'.backend mo' hs'
      rw [e1, List.mem_append] at hm
      rcases hm with hm | hm
      · exact hbefore h hm
      · refine e2 (fun c hc => hfit c ?_) h hm
        unfold commandsOf
        rw [show Planner.run A cfg Planner.recorder
          { backend := [], buffer := s.buffer, ready := s.ready, lookahead := s.lookahead, halted := s.halted
            positionKnown := s.positionKnown } (ops ++ [.halt]) = some r' from e]
        exact hc

end BeagleG.EndToEnd
