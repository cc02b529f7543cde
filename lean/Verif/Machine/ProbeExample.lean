import Verif.Machine.ProbeProps
import Verif.Machine.Example
import Mathlib.Algebra.Ring.Rat
/-!
# C77, C78: examples

A motor backend that executes segments only when somebody waits, with an account of the position of the motors,
and what happens if a probe starts while the motors are still moving.
-/
namespace BeagleG.Machine

open Planner (Axis Motor Arith Command Inv)
open Hardware

/-- The position of the motors, the steps still in the queue, and the steps really made so far. -/
structure Lag where
  done : Motor → Int
  pending : Motor → Int
  made : Motor → Int

/-- Where the motors will be. -/
def Lag.acc (m : Motor) (b : Lag) : Int := b.done m + b.pending m

/-- What is pending is done. -/
def Lag.drain (b : Lag) : Lag := ⟨fun m => b.done m + b.pending m, fun _ => 0, fun m => b.made m + b.pending m⟩

/-- The position reported is where the motors are at this moment, as with `GetPhysicalStatus` (C27). -/
def lagQueue {F : Type} (c : Cape) : Queue F Lag where
  enqueue x cmd := ((enableMotors c x.1 true, { x.2 with pending := fun m => x.2.pending m + cmd.steps m }), true)
  waitQueueEmpty x := (x.1, x.2.drain)
  setExternalPosition x m p := (x.1, { x.2 with done := fun k => if k = m then p - x.2.pending m else x.2.done k })
  motorEnable x on := (enableMotors c x.1 on, x.2.drain)
  position x := some x.2.done

theorem lagQueue_lawful {F : Type} (c : Cape) : Lawful c (lagQueue c : Queue F Lag) :=
  ⟨fun _ _ => ⟨[.enable true], rfl⟩, fun _ => .refl c _, fun _ _ _ => .refl c _, fun x _ => ⟨_, .refl c x.1, rfl⟩⟩

theorem lagQueue_counts {F : Type} (c : Cape) : Counts (lagQueue c : Queue F Lag) Lag.acc :=
  ⟨fun _ _ => rfl, fun _ _ _ => by simp only [lagQueue, Lag.acc]; omega, fun _ _ => by simp [lagQueue, Lag.acc, Lag.drain],
    fun _ _ _ _ => by simp only [lagQueue, Lag.acc]; split <;> simp_all, fun _ _ _ => by simp [lagQueue, Lag.acc, Lag.drain]⟩

theorem lagQueue_reports {F : Type} (c : Cape) : Reports (lagQueue c : Queue F Lag) Lag.acc :=
  ⟨fun _ => rfl, fun _ _ => rfl, fun _ _ _ => rfl⟩

/-- Exact arithmetic but for the functions that are not rational. -/
def ratArith : Arith Rat where
  ofInt := fun n => n
  add := (· + ·)
  sub := (· - ·)
  mul := (· * ·)
  div := (· / ·)
  abs := fun a => if a < 0 then -a else a
  sqrt := fun a => (((List.range 200).reverse.find? (fun k => ((k * k : Nat) : Rat) ≤ a)).getD 0 : Nat)
  acos := fun _ => 0
  cos := fun _ => 1
  lt := fun a b => decide (a < b)
  le := fun a b => decide (a ≤ b)
  eq := fun a b => decide (a = b)
  toInt := fun a => if a < 0 then -(-a).floor else a.floor
  toU32 := fun a => a.floor.toNat
  lround := fun a => if a < 0 then -(-a + 1 / 2).floor else (a + 1 / 2).floor
  toFloat := id
  pi := 3
  eps := 0

/-- One motor for each of X, Y and Z, 40 steps per millimetre. -/
def ratPlan : Planner.Config Rat where
  stepsPerMm := fun _ => 40
  maxFeedrate := fun _ => 100
  acceleration := fun _ => 20
  thresholdAngle := 10
  speedTuneAngle := 0
  synchronous := false
  motorMap := fun a m => a.val == m.val && a.val < 3

/-- The machine in the examples of probing. -/
def ratCfg : Config Rat where
  speedFactor := 1
  rangeCheck := true
  requireHoming := false
  enablePause := false
  moveRange := fun i => if i = 2 then 1 else 100
  homingTrigger := fun i => if i = 2 then .max else .none
  homeFeedrate := fun _ => 10
  maxProbeFeedrate := fun _ => 10
  homeOrder := [some 2]
  clamped := fun _ => false
  g0Feedrate := 50
  autoMotorDisable := 0
  autoFanDisable := 0
  autoFanPwm := 0

/-- The probe is on switch 3. -/
def ratHw : Hw Rat :=
  { initializeHardware cramps { Hw.blank Rat with
      maxEndstop := fun i => if i = 2 then 1 else 0
      probeInput := 3
      axisToDriver := fun a => if a = 0 then 1 else if a = 1 then 2 else if a = 2 then 4 else 0 } with estop := false }

/-- Its surroundings: rational numbers, a queue that lags behind. -/
def ratEnv (read : Nat → Nat → Bool) : Env Rat Lag Unit where
  A := ratArith
  plan := ratPlan
  cfg := ratCfg
  cape := cramps
  queue := lagQueue cramps
  spindle := none
  read := read
  clock := fun _ => 0
  patience := 30

/-- At 1 mm, the upper end of Z, where it has been homed. -/
def ratState : State Rat Lag Unit where
  planner :=
    { backend := (ratHw, ⟨fun m => if m = 2 then 40 else 0, fun _ => 0, fun _ => 0⟩)
      buffer := [{ Planner.Segment.zero ratArith with target :=
        { Planner.AxisTarget.zero ratArith with positionSteps := fun a => if a = 2 then 40 else 0 } }]
      ready := 0, lookahead := 10, halted := true, positionKnown := true }
  spindle := ()
  tick := 0
  out := []
  feedrate := 0
  progFactor := 1
  nextMotor := -1
  nextFan := -1
  pauseEnabled := false
  homing := .homed

/-- A place above the origin. -/
def z (h : Rat) : Axis → Rat := fun a => if a = 2 then h else 0

/-- What is seen after the events: the steps made by the Z motor (it has started at 40), its position in the planner,
the one reported, messages. -/
def seeZ (e : Env Rat Lag Unit) (evs : List (Event Rat)) : Option (Int × Int × Rat × List Msg) :=
  (run e ratState evs).map fun s =>
    (40 + s.planner.backend.2.made 2, s.planner.position 2, currentPosition e s 2, s.out)

/-- C77, C78: a move to 0.5 mm, a wait, and probing: the probe touches after three drives of 0.05 mm. -/
example : seeZ (ratEnv fun t _ => 3 ≤ t) [.coordinated 10 (z (1/2)), .dwell] = some (20, 20, 1/2, []) ∧
    seeZ (ratEnv fun t _ => 3 ≤ t) [.coordinated 10 (z (1/2)), .dwell, .probe 5 2] = some (14, 14, 7/20, []) := by
  constructor <;> decide +kernel

/-- C78 does not hold if the motors are still moving when probing starts: the position read then is where they are at
this moment, but the distance counts from where they stop. Here Z is at step 14 in the end, and 34 is declared. -/
theorem C78_still_moving :
    seeZ (ratEnv fun t _ => 3 ≤ t) [.coordinated 10 (z (1/2)), .probe 5 2, .dwell] = some (14, 34, 17/20, []) := by
  decide +kernel

/-- C78 does not hold if the probe never touches: a position is reported all the same, here outside of the range. -/
theorem C78_never_touches :
    ((probeAxis (ratEnv fun _ _ => false) 5 2 ratState).map fun r => (r.1, r.2.out, r.2.planner.backend.2.made 2)) =
      some (some (-1/20), [.maxProbe], -42) := by
  decide +kernel

/-- The emergency stop input is not read while probing, and does not end it. -/
theorem C78_no_stop :
    ((probeAxis (ratEnv fun t n => n = 2 || 3 ≤ t) 5 2
      { ratState with planner := { ratState.planner with backend :=
        ({ ratHw with estopInput := 2 }, ratState.planner.backend.2) } }).map
      fun r => (r.1, r.2.out, r.2.hw.estop, r.2.planner.backend.2.made 2)) = some (some (17/20), [], false, -6) := by
  decide +kernel

/-- The hypotheses of C77 and C78 hold for this machine. -/
theorem ratState_known (read : Nat → Nat → Bool) : Known (ratEnv read) Lag.acc ratState ∧
    Arrived (ratEnv read) Lag.acc ratState ∧ ratPlan.Disjoint ∧ Sane cramps ∧ Lawful cramps (ratEnv read).queue ∧
    Counts (ratEnv read).queue Lag.acc ∧ Reports (ratEnv read).queue Lag.acc ∧
    ∀ a m, (ratState.hw.axisToDriver a).getLsbD m.val = (ratEnv read).plan.motorMap a m := by
  refine ⟨⟨⟨by simp [ratState], by simp [ratState], fun _ => ⟨_, rfl, ?_⟩⟩, ?_⟩, ⟨rfl, ?_⟩, ?_, cramps_sane, lagQueue_lawful _,
    lagQueue_counts _, lagQueue_reports _, ?_⟩
  · exact Planner.idle_zero _ _
  · show InSync ratPlan Lag.acc (fun _ => false) ratState.planner
    unfold InSync
    decide +kernel
  · simp [ratEnv, lagQueue, ratState, Lag.acc]
  · unfold Planner.Config.Disjoint
    decide +kernel
  · show ∀ a m, (ratState.hw.axisToDriver a).getLsbD m.val = ratPlan.motorMap a m
    decide +kernel

/-- C78 says something here. -/
example : ∃ s' u total, probeAxis (ratEnv fun t _ => 3 ≤ t) 5 2 ratState = some (some (17/20), s') ∧
    Probed (ratEnv fun t _ => 3 ≤ t) Lag.acc 2 (probeStep (ratEnv fun t _ => 3 ≤ t) 2) 40 0 total ratState u := by
  obtain ⟨h1, h2, h3, h4, h5, h6, h7, h8⟩ := ratState_known fun t _ => 3 ≤ t
  cases h : probeAxis (ratEnv fun t _ => 3 ≤ t) 5 2 ratState with
  | none =>
    have : (probeAxis (ratEnv fun t _ => 3 ≤ t) 5 2 ratState).map Prod.fst = some (some (17/20)) := by decide +kernel
    rw [h] at this; cases this
  | some r =>
    have : (probeAxis (ratEnv fun t _ => 3 ≤ t) 5 2 ratState).map Prod.fst = some (some (17/20)) := by decide +kernel
    obtain ⟨q, s'⟩ := r
    rw [h] at this
    cases this
    obtain ⟨_, u, total, k, _⟩ := C78_probe_partial h5 h4 h6 h h1 h2 h8 (m := 2) (by decide +kernel) (by decide +kernel)
      (by decide +kernel) (by decide +kernel)
    have hr : probeRange (ratEnv fun t _ => 3 ≤ t) 2 = 40 := by decide +kernel
    rw [hr] at k
    exact ⟨s', u, total, rfl, k⟩

end BeagleG.Machine
