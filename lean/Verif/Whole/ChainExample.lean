import Verif.Whole.ChainProps
import Verif.Whole.Example
/-!
# C94: an example

The machine of the examples of C80 on the motor operations of the program.
-/
namespace BeagleG.Whole

open _root_.BeagleG.StepGen (Motor MotionSegment)
open _root_.BeagleG.EndToEnd (Makes)
open _root_.BeagleG.Parser (Receiver ratNum ratReceiver text runLines)

/-- `machine` with the motor operations instead of `Lag`. The firmware is at most two segments behind. -/
def chained : Machine.Env Rat Motors Unit where
  A := machine.A
  plan := machine.plan
  cfg := machine.cfg
  cape := machine.cape
  queue := chain machine.cape (fun _ => false) (fun _ _ => ⟨.travel, 0, 0, 5⟩) (fun _ l => (min l.length 2, 7)) fun _ => []
  spindle := none
  read := machine.read
  clock := machine.clock
  patience := machine.patience

/-- At 1 mm, the upper end of Z, where it has been homed. -/
def chainedState : Machine.State Rat Motors Unit where
  planner :=
    { backend := (Machine.ratHw, Motors.start.external (fun _ _ => (0, 0)) 2 40)
      buffer := Machine.ratState.planner.buffer
      ready := 0, lookahead := 10, halted := true, positionKnown := true }
  spindle := ()
  tick := 0
  out := []
  feedrate := 0
  progFactor := 1
  nextMotor := -1
  nextFan := -1
  pauseEnabled := false
  homing := .homed

theorem chained_known : Machine.Known chained (fun m b => b.place m) chainedState := by
  refine ⟨⟨by simp [chainedState, Machine.ratState], by simp [chainedState, Machine.ratState], fun _ => ⟨_, rfl, ?_⟩⟩, ?_⟩
  · exact Planner.idle_zero _ _
  · show Machine.InSync Machine.ratPlan (fun m b => b.place m) (fun _ => false) chainedState.planner
    unfold Machine.InSync
    decide +kernel

theorem chained_tracks : Tracks chained parser chainedState := by
  intro a
  revert a
  have : ∀ a ∈ Parser.allAxes, chainedState.planner.position (num a) =
      chained.A.lround (chained.A.mul (parser.pos a) (chained.plan.stepsPerMm (num a))) := by decide +kernel
  exact fun a => this a (by cases a <;> decide)

/-- As `replay_joint`, if every call leaves `P` true. -/
theorem replay_joint_all {β σ : Type} {e : Machine.Env Rat β σ} {rc : Receiver Rat} {log0 : List (Parser.Event Rat)}
    {s0 : Machine.State Rat β σ} {P : List (Parser.Event Rat) → Machine.State Rat β σ → Prop} :
    ∀ (es : List (Parser.Event Rat)) {s : Machine.State Rat β σ}, replay e rc log0 es s0 = some s →
      (∀ ev ∈ es, ∀ log s', P (ev :: log) s') → Joint e rc P log0 s0 (es ++ log0) s
  | [], s, h, _ => by cases h; exact .here
  | ev :: es, s, h, hp => by
    simp only [replay] at h
    cases h1 : replay e rc log0 es s0 with
    | none => rw [h1] at h; cases h
    | some s1 =>
      rw [h1] at h
      exact .call (replay_joint_all es h1 fun v hv => hp v (List.mem_cons_of_mem _ hv)) (reply_handles e rc h)
        (hp ev List.mem_cons_self _ _)

/-- A call that neither homes nor leaves out an arc. -/
def plain : Parser.Event Rat → Bool
  | .goHome _ => false
  | .probeAxis _ => false
  | .arcIgnored _ => false
  | _ => true

/-- A program: two moves and a wait. -/
def program : List (List Text.Byte) := [text "G1 X5 F60", text "G91", text "G0 X2 Y3", text "G4 P1"]

/-- The calls of the program, latest first. -/
def programCalls : List (Parser.Event Rat) :=
  match runLines ratNum (ratReceiver true) 0 parser program with
  | .ok st => st.log.take (st.log.length - parser.log.length)
  | _ => []

/-- Which calls are made at the end. -/
def endsWithWait : List (Parser.Event Rat) → Bool
  | .dwell _ :: _ => true
  | ev :: es => silent ev && endsWithWait es
  | [] => false

theorem endsWithWait_split : ∀ {es : List (Parser.Event Rat)}, endsWithWait es = true →
    ∃ a v b, es = a ++ .dwell v :: b ∧ ∀ ev ∈ a, silent ev = true
  | [], h => by cases h
  | ev :: es, h => by
    by_cases hd : ∃ v, ev = .dwell v
    · obtain ⟨v, rfl⟩ := hd
      exact ⟨[], v, es, rfl, by simp⟩
    · have h2 : (silent ev && endsWithWait es) = true := by
        cases ev <;> first | exact h | exact absurd ⟨_, rfl⟩ hd
      rw [Bool.and_eq_true] at h2
      obtain ⟨a, v, b, h3, h4⟩ := endsWithWait_split h2.2
      refine ⟨ev :: a, v, b, by rw [h3]; rfl, fun x hx => ?_⟩
      rcases List.mem_cons.1 hx with rfl | hx
      · exact h2.1
      · exact h4 x hx

/-- Non-vacuity of `C94_host_partial`: the program is executed, and turns the motor of X by 280 steps (7 mm), that of Y by
120. -/
theorem C94_example : ∃ st' s t parts new, runLines ratNum (ratReceiver true) 0 parser program = .ok st' ∧
    Joint chained (ratReceiver true) (Undisturbed chained (ratReceiver true) parser.machineOrigin) parser.log chainedState
      st'.log s ∧ s.planner.backend.2.real = some t ∧ t.backend = new ∧ List.Forall₂ (Makes fun _ => false) parts new ∧
    (parts.map fun p => p 0).sum = 280 ∧ (parts.map fun p => p 1).sum = 120 := by
  have hlines : ∀ l ∈ program, Expr.Clean l := by
    show ∀ l ∈ program, ∀ c ∈ l, c ≠ 0
    decide
  have hx : Parser.Texts Expr.Clean parser := by
    have e1 : parser.whileCond = [] := by decide +kernel
    have e2 : parser.whileBody = [] := by decide +kernel
    exact ⟨by rw [e1]; simp [Expr.Clean], by rw [e2]; simp [Expr.Clean]⟩
  have hpos : (match runLines ratNum (ratReceiver true) 0 parser program with
    | .ok st => some (st.pos .X, st.pos .Y)
    | _ => none) = some (7, 3) := by decide +kernel
  have hplain : ∀ ev ∈ programCalls, plain ev = true := by
    rw [← List.all_eq_true]
    decide +kernel
  have hwait : endsWithWait programCalls = true := by decide +kernel
  have hrep : ((replay chained (ratReceiver true) parser.log programCalls chainedState).map fun s =>
    s.planner.backend.2.real.isSome) = some true := by decide +kernel
  cases hr : runLines ratNum (ratReceiver true) 0 parser program with
  | fault f => rw [hr] at hpos; cases hpos
  | outOfFuel => rw [hr] at hpos; cases hpos
  | ok st =>
    rw [hr] at hpos
    obtain ⟨es, hes⟩ := run_suffix Parser.ratNum_ok 0 program parser st hlines hx hr
    have ht : programCalls = es := by
      unfold programCalls
      rw [hr]
      dsimp only
      rw [← hes, List.length_append, Nat.add_sub_cancel, List.take_left]
    rw [ht] at hplain hwait hrep
    cases hp : replay chained (ratReceiver true) parser.log es chainedState with
    | none => rw [hp] at hrep; cases hrep
    | some s =>
      rw [hp] at hrep
      obtain ⟨t, hreal⟩ : ∃ t, s.planner.backend.2.real = some t := by
        cases h : s.planner.backend.2.real with
        | none => simp [h] at hrep
        | some t => exact ⟨t, rfl⟩
      have hj : Joint chained (ratReceiver true) (Undisturbed chained (ratReceiver true) parser.machineOrigin) parser.log
          chainedState st.log s := by
        rw [← hes]
        refine replay_joint_all es hp fun ev hev log s' => ?_
        have := hplain ev hev
        cases ev <;> trivial
      obtain ⟨a, v, b, h1, h2⟩ := endsWithWait_split hwait
      obtain ⟨t0, parts, new, k1, k2, k3, k4⟩ := C94_host_partial (e := chained) rfl
        (by unfold Planner.Config.Disjoint; decide +kernel) (by decide +kernel) Parser.ratNum_ok 0 program parser st hlines hx hr
        hj chained_known chained_tracks rfl (es := a) (log := b ++ parser.log) (v := v)
        (by rw [← hes, h1, List.append_assoc]; rfl) h2 (List.suffix_append _ _)
        (fun new hnew ev hev => by
          have : new = es := List.append_cancel_right (hnew.symm.trans hes.symm)
          subst this
          have := hplain ev hev
          cases ev <;> first | rfl | cases this) hreal
      have hp0 : (st.pos .X, st.pos .Y) = (7, 3) := by injection hpos
      have hX : st.pos .X = 7 := congrArg Prod.fst hp0
      have hY : st.pos .Y = 3 := congrArg Prod.snd hp0
      have h0 : t0.backend = [] := by
        have : (chainedState.planner.backend.2.real.map fun s => s.backend) = some [] := by
          rfl
        rw [k1] at this
        injection this
      refine ⟨st, s, t, parts, new, rfl, hj, hreal, by rw [k2, h0]; rfl, k3, ?_, ?_⟩
      · rw [k4 .X 0 (by decide +kernel), hX]
        decide +kernel
      · rw [k4 .Y 1 (by decide +kernel), hY]
        decide +kernel

end BeagleG.Whole
