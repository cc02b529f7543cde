import Verif.Whole.Chain
import Verif.Whole.PositionProps
import Verif.Planner.AuxProps
/-!
# C94: from the text to the steps of the motors
-/
namespace BeagleG.Whole

open _root_.BeagleG.StepGen (Motor MotionSegment NoEarlyStop)
open _root_.BeagleG.EndToEnd (motorBackend openQueue Makes)
open _root_.BeagleG.Machine (Queue QAct Counts Reports Lawful Touches Respects)
open _root_.BeagleG.Hardware (Hw Cape enableMotors)
open _root_.BeagleG.Text (Byte)

variable {F σ : Type} {c : Cape} {flip : Motor → Bool} {timing : Planner.Command F → Nat → MotorOps.Timing}
  {pend : Nat → List MotionSegment → Nat × Nat} {outputs : Nat → List (Fin 16 × Bool)}

/-! ### The motor operations obey the laws -/

theorem enqueue_accepts (b : Motors) (cmd : Planner.Command F) : (b.enqueue flip timing pend cmd).2 = true := by
  show ((motorBackend (openQueue (pend b.time)) flip timing).enqueue b.real cmd).2 = true
  unfold motorBackend
  dsimp only
  split
  · rfl
  · rename_i t ht
    split
    · rename_i hr
      obtain ⟨last, rest, h1, -⟩ := front_shadow (b.good t ht)
      split
      · rfl
      · rename_i t' ret he
        exact (enqueue_makes flip _ (timing cmd) (seg := ⟨cmd.steps, cmd.auxBits⟩) hr (by rw [h1]; simp) he).1
    · rfl

/-- **The motor operations count**: the account of C77 and C80 is their latest entry in the shadow queue. -/
theorem C94_counts : Counts (chain c flip timing pend outputs) (fun m b => b.place m) where
  ok x cmd := enqueue_accepts x.2 cmd
  enqueue _ _ _ := rfl
  wait _ _ := rfl
  ext _ _ _ _ := rfl
  enable _ _ _ := rfl

theorem status_drained {b : Motors} (hd : b.drained = true) : b.position pend = some b.place := by
  unfold Motors.position
  split
  · rfl
  · rename_i s hs
    obtain ⟨last, rest, h1, h2⟩ := front_shadow (b.good s hs)
    have e : (b.queue pend).pending s.backend = (0, 0) := by
      unfold Motors.queue Motors.pending openQueue MotorOps.limited
      rw [if_pos hd]
    unfold MotorOps.getPhysicalStatus MotorOps.shrink MotorOps.resize
    dsimp only
    rw [e, h1]
    simp only [gt_iff_lt, Nat.lt_irrefl, if_false, List.take_succ_cons, List.take_zero, List.length_cons]
    have : 1 - (rest.length + 1) = 0 := by omega
    rw [this]
    simp only [List.replicate_zero, List.append_nil, List.getLast?_singleton, Option.map_some]
    congr 1
    funext m
    rw [h2 m]
    have : MotorOps.remainingSteps 0 (last.pos m).fraction = 0 := by
      unfold MotorOps.remainingSteps MotorOps.loopsPerStep MotorOps.maxFraction MotorOps.loopsPerStep
      simp
    rw [this]
    simp

/-- **The position reported after a wait** is that of the latest entry. -/
theorem C94_reports : Reports (chain (F := F) c flip timing pend outputs) (fun m b => b.place m) where
  wait _ := status_drained rfl
  enable _ _ := status_drained rfl
  hw _ _ _ := rfl

/-- **The queue is free to lag behind after a segment**: what it answers then is what the environment chose for that
moment, so that nothing about the other operations rests on a queue that is always empty. Only the two that wait for it
leave it empty. -/
theorem C94_free (b : Motors) (cmd : Planner.Command F) (on : Bool) :
    (b.enqueue flip timing pend cmd).1.pending pend = pend (b.time + 1) ∧ (∀ l, (b.wait pend).pending pend l = (0, 0)) ∧
      ∀ l, (b.enable pend on).pending pend l = (0, 0) := ⟨rfl, fun _ => rfl, fun _ => rfl⟩

/-- **Time goes on** with every operation, so that what the environment answers may be different each time. -/
theorem C94_time (b : Motors) (cmd : Planner.Command F) (on : Bool) (m : Motor) (p : Int) :
    b.time < (b.enqueue flip timing pend cmd).1.time ∧ b.time < (b.wait pend).time ∧ b.time < (b.enable pend on).time ∧
      b.time < (b.external pend m p).time :=
  ⟨Nat.lt_succ_self _, Nat.lt_succ_self _, Nat.lt_succ_self _, Nat.lt_succ_self _⟩

theorem written_touches (x : Hw F × Motors) : Touches c x.1 (written c outputs x) := ⟨_, rfl⟩

/-- **The motor operations touch the outputs as they may** (hypothesis of C35, C56, C68 and others). -/
theorem C94_lawful : Lawful c (chain (F := F) c flip timing pend outputs) where
  enqueue x cmd := by
    show Touches c x.1 (if ∀ m, cmd.steps m = 0 then _ else _)
    split
    · exact written_touches x
    · obtain ⟨l, hl⟩ := written_touches (c := c) (outputs := outputs) x
      exact ⟨l ++ [.enable true], by rw [List.foldl_append, ← hl]; rfl⟩
  wait := written_touches
  ext x _ _ := written_touches x
  enable x on := ⟨_, written_touches x, rfl⟩

/-! ### What is handed over -/

/-- From `x` to `y` the motors are given segments that make the difference of their places. -/
def Ahead (flip : Motor → Bool) (x y : Hw F × Motors) : Prop :=
  ∀ t, y.2.real = some t → ∃ s parts new, x.2.real = some s ∧ t.backend = s.backend ++ new ∧
    List.Forall₂ (Makes flip) parts new ∧ ∀ m, (parts.map fun p => p m).sum = y.2.place m - x.2.place m

theorem Ahead.same {x y : Hw F × Motors} (h : ∀ t, y.2.real = some t → ∃ s, x.2.real = some s ∧ t.backend = s.backend)
    (hp : y.2.place = x.2.place) : Ahead flip x y := by
  intro t ht
  obtain ⟨s, h1, h2⟩ := h t ht
  exact ⟨s, [], [], h1, by simp [h2], .nil, by simp [hp]⟩

theorem Ahead.trans {x y z : Hw F × Motors} (h1 : Ahead flip x y) (h2 : Ahead flip y z) : Ahead flip x z := by
  intro t ht
  obtain ⟨s, p2, n2, k1, k2, k3, k4⟩ := h2 t ht
  obtain ⟨r, p1, n1, j1, j2, j3, j4⟩ := h1 s k1
  refine ⟨r, p1 ++ p2, n1 ++ n2, j1, by rw [k2, j2, List.append_assoc], List.rel_append j3 k3, fun m => ?_⟩
  rw [List.map_append, List.sum_append, j4 m, k4 m]
  omega

theorem Ahead.enqueue (x : Hw F × Motors) (cmd : Planner.Command F) :
    Ahead flip x ((chain c flip timing pend outputs).enqueue x cmd).1 := by
  intro t ht
  change ((motorBackend (openQueue (pend x.2.time)) flip timing).enqueue x.2.real cmd).1 = some t at ht
  unfold motorBackend at ht
  dsimp only at ht
  split at ht
  · cases ht
  · rename_i s hs
    split at ht
    · rename_i hr
      obtain ⟨last, rest, h1, -⟩ := front_shadow (x.2.good s hs)
      split at ht
      · cases ht
      · rename_i t' ret he
        cases ht
        obtain ⟨-, parts, new, k1, k2, k3, -⟩ :=
          enqueue_makes flip _ (timing cmd) (seg := ⟨cmd.steps, cmd.auxBits⟩) hr (by rw [h1]; simp) he
        refine ⟨s, parts, new, hs, k1, k2, fun m => ?_⟩
        rw [k3 m]
        show cmd.steps m = x.2.place m + cmd.steps m - x.2.place m
        omega
    · cases ht

theorem Ahead.wait (x : Hw F × Motors) : Ahead flip x ((chain c flip timing pend outputs).waitQueueEmpty x) := by
  refine .same (fun t ht => ?_) rfl
  obtain ⟨s, hs, rfl⟩ := Option.map_eq_some_iff.1 ht
  exact ⟨s, hs, rfl⟩

theorem Ahead.enable (x : Hw F × Motors) (on : Bool) :
    Ahead flip x ((chain c flip timing pend outputs).motorEnable x on) := by
  refine .same (fun t ht => ?_) rfl
  obtain ⟨s, hs, rfl⟩ := Option.map_eq_some_iff.1 ht
  exact ⟨s, hs, rfl⟩

theorem Ahead.refl (x : Hw F × Motors) : Ahead flip x x := .same (fun t ht => ⟨t, ht, rfl⟩) rfl

/-- A backend without `SetExternalPosition`. -/
def deaf {β : Type} (B : Planner.Backend F β) : Planner.Backend F β := { B with setExternalPosition := fun b _ _ => b }

section
variable {β : Type} (A : Planner.Arith F) (cfg : Planner.Config F) (B : Planner.Backend F β)

theorem issueLoop_deaf (n : Nat) : Planner.issueLoop A cfg (deaf B) n = Planner.issueLoop A cfg B n := by
  induction n with
  | zero => rfl
  | succ n ih =>
    funext s ret
    simp only [Planner.issueLoop, ih]
    rfl

theorem halt_deaf (s : Planner.State F β) :
    Planner.bringPathToHalt A cfg (deaf B) s = Planner.bringPathToHalt A cfg B s := by
  simp only [Planner.bringPathToHalt, Planner.issue, issueLoop_deaf]

theorem move_deaf (s : Planner.State F β) (axis : Planner.Axis → F) (feed : F) (aux : Nat) :
    Planner.machineMove A cfg (deaf B) s axis feed aux = Planner.machineMove A cfg B s axis feed aux := by
  simp only [Planner.machineMove, Planner.issue, issueLoop_deaf]

theorem drive_deaf (s : Planner.State F β) (axis : Planner.Axis) (d v0 v1 : F) (aux : Nat) :
    Planner.directDrive A cfg (deaf B) s axis d v0 v1 aux = Planner.directDrive A cfg B s axis d v0 v1 aux := by
  simp only [Planner.directDrive, halt_deaf]
  rfl

end

section
variable {e : Machine.Env F Motors σ} (hc : e.queue = chain c flip timing pend outputs)
include hc

/-- The backend of the planner, without `SetExternalPosition`. -/
theorem ahead_respects : Respects (deaf e.backend) (Ahead flip) where
  refl := .refl
  trans := .trans
  enqueue b cmd := by
    show Ahead flip b (e.queue.enqueue b cmd).1
    rw [hc]
    exact .enqueue b cmd
  wait b := by
    show Ahead flip b (e.queue.waitQueueEmpty b)
    rw [hc]
    exact .wait b
  ext b _ _ := .refl b

/-- No step but `SetExternalPosition` moves a place without segments. -/
theorem step_ahead {l : Machine.Label F} {s s' : Machine.State F Motors σ} (h : Machine.Step e l s s')
    (hl : ∀ a, l ≠ .external a) : Ahead flip s.planner.backend s'.planner.backend := by
  have same : ∀ (h : Hw F), Ahead flip s.planner.backend (h, s.planner.backend.2) := fun h =>
    .same (fun t ht => ⟨t, ht, rfl⟩) rfl
  cases l with
  | say m => obtain ⟨_, rfl⟩ := h; exact .refl _
  | stopped m => obtain ⟨_, rfl⟩ := h; exact .refl _
  | flag o on => obtain ⟨_, rfl⟩ := h; exact same _
  | clear => subst h; exact same _
  | auxBit => subst h; exact same _
  | setAux => subst h; exact same _
  | auxOff => subst h; exact same _
  | fan => subst h; exact same _
  | spindle => obtain ⟨_, _, rfl⟩ := h; exact same _
  | halt =>
    have h : Machine.halt e s = _ := h
    unfold Machine.halt at h
    cases hb : Planner.bringPathToHalt e.A e.plan e.backend s.planner with
    | none => rw [hb] at h; cases h
    | some p => rw [hb] at h; cases h; exact (ahead_respects hc).halt e.A e.plan ((halt_deaf ..).trans hb)
  | move =>
    obtain ⟨pos, feed, r, h⟩ := h
    unfold Machine.plannerEnqueue at h
    cases hb : Planner.machineMove e.A e.plan e.backend s.planner pos feed s.hw.auxBits.toNat with
    | none => rw [hb] at h; cases h
    | some p => rw [hb] at h; cases h; exact (ahead_respects hc).move e.A e.plan ((move_deaf ..).trans hb)
  | drive a =>
    obtain ⟨d, v0, v1, r, h⟩ := h
    unfold Machine.plannerDrive at h
    cases hb : Planner.directDrive e.A e.plan e.backend s.planner a d v0 v1 s.hw.auxBits.toNat with
    | none => rw [hb] at h; cases h
    | some p => rw [hb] at h; cases h; exact (ahead_respects hc).drive e.A e.plan ((drive_deaf ..).trans hb)
  | external a => exact absurd rfl (hl a)
  | enable on =>
    subst h
    show Ahead flip s.planner.backend (e.queue.motorEnable s.planner.backend on)
    rw [hc]
    exact .enable _ _
  | wait =>
    subst h
    show Ahead flip s.planner.backend (e.queue.waitQueueEmpty s.planner.backend)
    rw [hc]
    exact .wait _
  | lookahead =>
    obtain ⟨n, rfl⟩ := h
    unfold Planner.setLookahead
    split <;> exact .refl _
  | _ => subst h; exact .refl _

theorem trace_ahead {ls : List (Machine.Label F)} {s s' : Machine.State F Motors σ} (h : Machine.Trace e s ls s')
    (hl : ∀ l ∈ ls, ∀ a, l ≠ .external a) : Ahead flip s.planner.backend s'.planner.backend := by
  induction h with
  | nil => exact .refl _
  | cons h1 _ ih =>
    exact (step_ahead hc h1 (hl _ List.mem_cons_self)).trans (ih fun l hm => hl l (List.mem_cons_of_mem _ hm))

theorem handle_ahead {ev : Machine.Event F} (hd : ∀ a, (ev.powers e.A).drive a = false)
    {s s' : Machine.State F Motors σ} {r : Machine.Answer F} (h : Machine.handle e ev s = some (r, s')) :
    Ahead flip s.planner.backend s'.planner.backend := by
  obtain ⟨ls, ht, hl⟩ := Machine.does_handle e ev _ _ _ h
  refine trace_ahead hc ht fun l hm a ha => ?_
  subst ha
  have : (ev.powers e.A).drive a = true := hl _ hm
  rw [hd a] at this
  cases this

/-- Calls that tell the motors their position. -/
def referencing : Parser.Event F → Bool
  | .goHome _ => true
  | .probeAxis _ => true
  | _ => false

theorem handles_ahead {rc : Parser.Receiver F} {log : List (Parser.Event F)} {ev : Parser.Event F}
    {s s' : Machine.State F Motors σ} (h : Handles e rc log ev s s') (hr : referencing ev = false) :
    Ahead flip s.planner.backend s'.planner.backend := by
  cases ev <;> simp only [Handles] at h
  case goHome => cases hr
  case probeAxis => cases hr
  case coordinatedMove => exact handle_ahead hc (fun _ => rfl) h
  case rapidMove => exact handle_ahead hc (fun _ => rfl) h
  case start => obtain ⟨_, h⟩ := h; exact handle_ahead hc (fun _ => rfl) h
  case finished => obtain ⟨_, h⟩ := h; exact handle_ahead hc (fun _ => rfl) h
  case speedFactor => obtain ⟨_, h⟩ := h; exact handle_ahead hc (fun _ => rfl) h
  case fanSpeed => obtain ⟨_, h⟩ := h; exact handle_ahead hc (fun _ => rfl) h
  case dwell => obtain ⟨_, h⟩ := h; exact handle_ahead hc (fun _ => rfl) h
  case motorsEnable => obtain ⟨_, h⟩ := h; exact handle_ahead hc (fun _ => rfl) h
  case waitForStart => obtain ⟨_, h⟩ := h; exact handle_ahead hc (fun _ => rfl) h
  case unprocessed => obtain ⟨_, _, h⟩ := h; exact handle_ahead hc (fun _ => rfl) h
  case clampToRange => obtain ⟨rfl, _⟩ := h; exact .refl _
  all_goals (subst h; exact .refl _)

theorem joint_ahead {rc : Parser.Receiver F} {P : List (Parser.Event F) → Machine.State F Motors σ → Prop}
    {log0 : List (Parser.Event F)} {s0 : Machine.State F Motors σ} {log : List (Parser.Event F)}
    {s : Machine.State F Motors σ} (h : Joint e rc P log0 s0 log s)
    (hr : ∀ es, log = es ++ log0 → ∀ ev ∈ es, referencing ev = false) :
    Ahead flip s0.planner.backend s.planner.backend := by
  induction h with
  | here => exact .refl _
  | idle hj h ih => exact (ih hr).trans (handle_ahead hc (fun _ => rfl) h)
  | @call log' s s' ev hj h _ ih =>
    obtain ⟨es, hes⟩ := joint_suffix hj
    have hall := hr (ev :: es) (by rw [← hes]; rfl)
    refine (ih fun es' he' ev' hm => ?_).trans (handles_ahead hc h (hall ev List.mem_cons_self))
    have : es' = es := List.append_cancel_right (he'.symm.trans hes.symm)
    subst this
    exact hall ev' (List.mem_cons_of_mem _ hm)

/-! ### From the text to the steps -/

variable {rc : Parser.Receiver F} {fl : Parser.Num F} {s0 s : Machine.State F Motors σ}

/-- **C94 (partly). From the text to the steps**: the machine is at rest where the parser believes it is. The parser reads
any text without homing and probing that ends with a wait, and nothing is disturbed (C80). Then the segments handed over to
the hardware for this text turn each motor of an axis by exactly the difference of the positions of the parser, rounded to
steps. -/
theorem C94_host_partial (hd : e.plan.Disjoint) (h0 : e.A.eq e.A.zero e.A.zero = true) (hfl : fl.toFloat_.Ok) (n : Nat)
    (lines : List (List Byte)) (st st' : Parser.State F) (hlines : ∀ l ∈ lines, Expr.Clean l)
    (hx : Parser.Texts Expr.Clean st) (hrun : Parser.runLines fl rc n st lines = .ok st')
    (hj : Joint e rc (Undisturbed e rc st.machineOrigin) st.log s0 st'.log s)
    (hk : Machine.Known e (fun m b => b.place m) s0) (ht : Tracks e st s0) (hrest : s0.planner.halted = true)
    {es log : List (Parser.Event F)} {v : F} (hlog : st'.log = es ++ .dwell v :: log)
    (hes : ∀ ev ∈ es, silent ev = true) (hl : st.log <:+ log)
    (href : ∀ new, st'.log = new ++ st.log → ∀ ev ∈ new, referencing ev = false)
    {t : MotorOps.State (List MotionSegment)} (hreal : s.planner.backend.2.real = some t) :
    ∃ t0 parts new, s0.planner.backend.2.real = some t0 ∧ t.backend = t0.backend ++ new ∧
      List.Forall₂ (Makes flip) parts new ∧ ∀ a m, e.plan.motorMap (num a) m = true →
        (parts.map fun p => p m).sum = e.A.lround (e.A.mul (st'.pos a) (e.plan.stepsPerMm (num a))) -
          e.A.lround (e.A.mul (st.pos a) (e.plan.stepsPerMm (num a))) := by
  have hq : Counts e.queue (fun m b => b.place m) := hc ▸ C94_counts
  have hr : Reports e.queue (fun m b => b.place m) := hc ▸ C94_reports
  obtain ⟨t0, parts, new, k1, k2, k3, k4⟩ := joint_ahead hc hj href t hreal
  refine ⟨t0, parts, new, k1, k2, k3, fun a m hm => ?_⟩
  have hks := joint_known hq h0 hd hj hk
  have harr := joint_arrived hq h0 hr (hlog ▸ hj) hes hl hk.inv
  rw [k4 m, Machine.C77_at_rest hks harr.halted hm, Machine.C77_at_rest hk hrest hm,
    C80_agree_partial hq h0 hk.inv hfl n lines st st' hlines hx hrun hj ht a, ht a]

/-- **C94 (partly), with the firmware**: when the firmware has executed everything handed over to it, an observer of the step
and direction lines has seen each motor of an axis turn, during the text, by the difference of the positions of the
parser. -/
theorem C94_text_to_steps_partial (hd : e.plan.Disjoint) (h0 : e.A.eq e.A.zero e.A.zero = true) (hfl : fl.toFloat_.Ok)
    (n : Nat) (lines : List (List Byte)) (st st' : Parser.State F) (hlines : ∀ l ∈ lines, Expr.Clean l)
    (hx : Parser.Texts Expr.Clean st) (hrun : Parser.runLines fl rc n st lines = .ok st')
    (hj : Joint e rc (Undisturbed e rc st.machineOrigin) st.log s0 st'.log s)
    (hk : Machine.Known e (fun m b => b.place m) s0) (ht : Tracks e st s0) (hrest : s0.planner.halted = true)
    {es log : List (Parser.Event F)} {v : F} (hlog : st'.log = es ++ .dwell v :: log)
    (hes : ∀ ev ∈ es, silent ev = true) (hl : st.log <:+ log)
    (href : ∀ new, st'.log = new ++ st.log → ∀ ev ∈ new, referencing ev = false)
    {t : MotorOps.State (List MotionSegment)} (hreal : s.planner.backend.2.real = some t)
    (as : List PruQueue.Action) (hne : PruQueue.Action.estop true ∉ as) (q q' : PruQueue.Sys)
    (hq : PruQueue.run EndToEnd.payload EndToEnd.loopsOf PruQueue.init as = some q)
    (hstep : PruQueue.step EndToEnd.payload EndToEnd.loopsOf q .host = some q')
    (hres : q'.results = q.results ++ [.drained])
    (hacc : PruQueue.accepted q' = EndToEnd.elements t.backend)
    (hfull : ∀ h ∈ EndToEnd.executed q', NoEarlyStop h) :
    ∃ t0 after, s0.planner.backend.2.real = some t0 ∧
      EndToEnd.executed q' = t0.backend.map EndToEnd.truncated ++ after ∧
      ∀ a m prev, e.plan.motorMap (num a) m = true →
        EndToEnd.moved flip m prev after = e.A.lround (e.A.mul (st'.pos a) (e.plan.stepsPerMm (num a))) -
          e.A.lround (e.A.mul (st.pos a) (e.plan.stepsPerMm (num a))) := by
  obtain ⟨t0, parts, new, k1, k2, k3, k4⟩ := C94_host_partial hc hd h0 hfl n lines st st' hlines hx hrun hj hk ht hrest
    hlog hes hl href hreal
  have hex := EndToEnd.C46_firmware t.backend as hne q q' hq hstep hres hacc
  refine ⟨t0, new.map EndToEnd.truncated, k1, by rw [hex, k2, List.map_append], fun a m prev hm => ?_⟩
  have hm' : List.Forall₂ (Makes flip) parts (new.map EndToEnd.truncated) := by
    rw [List.forall₂_map_right_iff]
    exact k3.imp fun _ _ h => EndToEnd.makes_truncated h
  rw [EndToEnd.moved_makes m hm' (fun x hx => hfull x (by rw [hex, k2, List.map_append]; simp [hx])), k4 a m hm]

/-! ### Auxiliary outputs -/

/-- **The motor operations keep the auxiliary bits** (hypothesis of C92). -/
theorem C94_aux_log : Planner.AuxLog e.backend fun b => b.2.bits where
  ok b cmd := by
    show (e.queue.enqueue b cmd).2 = true
    rw [hc]
    exact enqueue_accepts b.2 cmd
  enqueue b cmd := by
    show (e.queue.enqueue b cmd).1.2.bits = _
    rw [hc]
    rfl
  wait b := by
    show (e.queue.waitQueueEmpty b).2.bits = _
    rw [hc]
    rfl
  external b m p := by
    show (e.queue.setExternalPosition b m p).2.bits = _
    rw [hc]
    rfl

/-- **C94, the auxiliary bits**: from the start of the planner on, the segments handed over to the hardware carry the bits
of the moves, in the order of the moves, as C92 says; each command may be several segments here. Moves still waiting in the
planner come after them, and none is waiting at a halt. -/
theorem C94_aux [Field F] [LinearOrder F] [IsStrictOrderedRing F] (ex : Planner.Exact e.A) (hp : e.plan.Positive)
    (hcos : Planner.CosOk e.A e.plan) (h : Hw F) (home : Planner.Axis → F) (hr : ∀ a, (e.A.lround (e.A.mul (home a) (e.plan.stepsPerMm a))).natAbs < 2 ^ 30)
    {p0 p : Planner.State F (Hw F × Motors)} (h0 : Planner.init e.A e.plan e.backend (h, Motors.start) home = some p0)
    {ops : List (Planner.Op F)} (hops : ∀ op ∈ ops, Planner.SaneOp e.A e.plan op)
    (hrun : Planner.run e.A e.plan e.backend p0 ops = some p)
    {t : MotorOps.State (List MotionSegment)} (hreal : p.backend.2.real = some t) :
    (p.halted = true → p.waiting e.plan = []) ∧ ∃ sent l,
      Planner.allEntries e.A e.plan e.backend p0 ops = sent ++ p.waiting e.plan ∧ Planner.Spread sent l ∧
      Repeats l (t.backend.map (·.aux)) := by
  obtain ⟨h1, sent, l, h2, h3, h4⟩ := Planner.C92_from_start (C94_aux_log hc) ex hp hcos _ home hr h0 hops hrun
  refine ⟨h1, sent, l, h2, h4, ?_⟩
  have := p.backend.2.marked t hreal
  rw [h3] at this
  exact this

end

end BeagleG.Whole
