import Verif.Machine.IdleProps
import Verif.Machine.FeedProps
import Verif.Machine.AssertProps
import Verif.Planner.Props
/-!
# Machine control: examples

A motor backend that satisfies the hypotheses (`Lawful`, `Counter`), histories on which the theorems say
something, and histories on which the properties do not hold.
-/
namespace BeagleG.Machine

open Planner (Axis Motor Arith Command intArith intConfig xy)
open Hardware

variable {F : Type}

theorem Touches.refl (c : Cape) (h : Hw F) : Touches c h h := ⟨[], rfl⟩

theorem Touches.trans {c : Cape} {h h' h'' : Hw F} (k : Touches c h h') (k' : Touches c h' h'') :
    Touches c h h'' := by
  obtain ⟨l, rfl⟩ := k
  obtain ⟨l', rfl⟩ := k'
  exact ⟨l ++ l', (List.foldl_append ..).symm⟩

/-- State of the backend: segments in the queue, segments executed, calls of `MotorEnable(false)`. -/
structure Rec (F : Type) where
  pending : List (Command F)
  done : List (Command F)
  offs : Nat

/-- The firmware executes a segment: it writes its auxiliary bits (motor-interface-pru.p 214-216). -/
def execute (c : Cape) (h : Hw F) (cmd : Command F) : Hw F :=
  (List.finRange 16).foldl (fun h i => h.write (c.aux i) (cmd.auxBits.testBit i)) h

/-- Wait until all segments are executed. -/
def drain (c : Cape) (x : Hw F × Rec F) : Hw F × Rec F :=
  (x.2.pending.foldl (execute c) x.1, { x.2 with pending := [], done := x.2.done ++ x.2.pending })

/-- A backend that executes segments only when somebody waits for it. -/
def recQueue (c : Cape) : Queue F (Rec F) where
  enqueue x cmd := ((enableMotors c x.1 true, { x.2 with pending := x.2.pending ++ [cmd] }), true)
  waitQueueEmpty := drain c
  setExternalPosition x _ _ := drain c x
  motorEnable x on :=
    (enableMotors c (drain c x).1 on,
      if on then (drain c x).2 else { (drain c x).2 with offs := x.2.offs + 1 })
  position _ := some fun _ => 0

theorem execute_touches (c : Cape) (h : Hw F) (cmd : Command F) : Touches c h (execute c h cmd) := by
  unfold execute
  generalize List.finRange 16 = l
  induction l generalizing h with
  | nil => exact .refl c h
  | cons i l ih => exact Touches.trans ⟨[.aux i (cmd.auxBits.testBit i)], rfl⟩ (ih _)

theorem drain_touches (c : Cape) (x : Hw F × Rec F) : Touches c x.1 (drain c x).1 := by
  show Touches c x.1 (x.2.pending.foldl (execute c) x.1)
  generalize x.2.pending = l
  generalize x.1 = h
  induction l generalizing h with
  | nil => exact .refl c h
  | cons i l ih => exact (execute_touches c h i).trans (ih _)

theorem recQueue_lawful (c : Cape) : Lawful c (recQueue c : Queue F (Rec F)) :=
  ⟨fun _ _ => ⟨[.enable true], rfl⟩, fun x => drain_touches c x, fun x _ _ => drain_touches c x,
    fun x _ => ⟨_, drain_touches c x, rfl⟩⟩

theorem recQueue_counter (c : Cape) : Counter (recQueue c : Queue F (Rec F)) Rec.offs :=
  ⟨fun _ _ => rfl, fun _ => rfl, fun _ _ _ => rfl, fun _ => rfl, fun _ => rfl⟩

/-- The cape is sane. -/
theorem cramps_sane : Sane cramps := ⟨by decide, by decide⟩

/-- A machine with range 100 on X and Y, X homed at its lower end (switch 1), stop input on switch 2. -/
def exCfg : Config Int where
  speedFactor := 2
  rangeCheck := true
  requireHoming := true
  enablePause := false
  moveRange := fun i => if i = 0 ∨ i = 1 then 100 else 0
  homingTrigger := fun i => if i = 0 then .min else .none
  homeFeedrate := fun _ => 10
  maxProbeFeedrate := fun _ => 10
  homeOrder := [some 2, some 0, some 1]
  clamped := fun i => i = 0
  g0Feedrate := 50
  autoMotorDisable := 50
  autoFanDisable := 30
  autoFanPwm := 0

/-- The surroundings in the examples: integers as numbers, a recorder as queue. -/
def exEnv (read : Nat → Nat → Bool) (clock : Nat → Int) : Env Int (Rec Int) Unit where
  A := intArith
  plan := intConfig
  cfg := exCfg
  cape := cramps
  queue := recQueue cramps
  spindle := none
  read := read
  clock := clock
  patience := 10

/-- The hardware after initialisation; aux pin 1 is the fan, also PWM 1. -/
def exHw : Hw Int :=
  initializeHardware cramps { Hw.blank Int with
    minEndstop := fun i => if i = 0 then 1 else 0
    estopInput := 2
    auxOf := fun o => if o = .fan then 1#16 else 0
    pwmOf := fun o => if o = .fan then 811 else 0 }

/-- The machine in the examples, at rest. -/
def exState : State Int (Rec Int) Unit where
  planner :=
    { backend := (exHw, ⟨[], [], 0⟩), buffer := [Planner.Segment.zero intArith], ready := 0
      lookahead := 10, halted := true, positionKnown := true }
  spindle := ()
  tick := 0
  out := []
  feedrate := 0
  progFactor := 1
  nextMotor := -1
  nextFan := -1
  pauseEnabled := false
  homing := .never

/-- X reaches its switch after one step and leaves it after one step; the stop input is inactive. -/
def exRead : Nat → Nat → Bool := fun t n => n = 1 && (t = 3 || t = 4)

/-- 25 ms pass between two looks at the clock. -/
def exClock : Nat → Int := fun t => 25 * t

/-- All axes. -/
def all : Axis → Bool := fun _ => true

/-- M-code without words. -/
def m (code : Int) : Event Int := .unprocessed 'M' code []

/-- What can be seen of a state. -/
def see (s : State Int (Rec Int) Unit) : Homing × Bool × Bool × List Msg × Nat :=
  (s.homing, s.hw.estop, s.hw.motorsEnabled, s.out, s.planner.backend.2.done.length)

/-- C33, C34: moves before homing and outside the cube are refused, others are executed. -/
example : (run (exEnv exRead exClock) exState
    [.coordinated 10 (xy 5 5), .home all, .coordinated 10 (xy 5 101), .rapid 0 (xy (-1) 0),
      .coordinated 10 (xy 5 5), .dwell]).map see =
    some (.homed, false, true,
      [.homeFirst, .estopCleared, .aboveMax 1, .belowMin 0], 3) := by decide +kernel

/-- C35, C36: emergency stop, attempts to switch on and move, clearing. -/
example : (run (exEnv exRead exClock) exState
    [.home all, .coordinated 10 (xy 5 5), m 0, .motors true, .coordinated 10 (xy 5 5)]).map see =
      some (.never, true, false, [.estopCleared, .stopped false, .homeFirst], 3) ∧
    (run (exEnv exRead exClock) exState [.home all, m 0, m 999, .motors true]).map see =
      some (.never, false, true, [.estopCleared, .stopped false, .estopCleared], 2) ∧
    (run (exEnv exRead exClock) exState [.home all, .motors false]).map see =
      some (.unpowered, false, false, [.estopCleared], 2) := by
  refine ⟨?_, ?_, ?_⟩ <;> decide +kernel

/-- C35 does not hold completely: the auxiliary outputs are switched off, but then the moves still in the
queue are executed and set them again. M62 P1, a move, M0; pin 941 is on afterwards. -/
theorem C35_aux_returns :
    Lawful cramps (exEnv exRead exClock).queue ∧ Sane cramps ∧
    (run (exEnv exRead exClock) exState
      [.home all, .unprocessed 'M' 62 [('P', 1)], .coordinated 10 (xy 5 5), m 0]).map
        (fun s => (s.hw.level (cramps.aux 0), s.hw.estop, s.out)) =
      some (true, true, [.estopCleared, .stopped false]) := by
  refine ⟨recQueue_lawful cramps, cramps_sane, ?_⟩
  decide +kernel

/-- In emergency stop M64 switches on outputs. -/
theorem C35_aux_in_estop :
    (run (exEnv exRead exClock) exState [.unprocessed 'M' 64 [('P', 1)]]).map
        (fun s => (s.hw.level (cramps.aux 0), s.hw.estop)) = some (true, true) := by
  decide +kernel

/-- C36 does not hold completely: the stop input, active while an axis moves to its switch and inactive
again at the end, ends the move of this axis, but the machine reports "homed". No step was made. -/
theorem C36_stop_during_homing :
    (run (exEnv (fun t n => n = 2 && t = 2) exClock) exState [.home all]).map see =
      some (.homed, false, false, [.estopCleared], 0) := by
  decide +kernel

/-- Homing no axis at all is homing, too. -/
theorem C36_no_axis :
    (run (exEnv exRead exClock) exState [.home fun _ => false]).map see =
      some (.homed, false, false, [.estopCleared], 0) := by
  decide +kernel

/-- C37 does not hold completely: an F value of a rapid move counts when there was none before, and all
factors are applied to it at once, so that the M220 factor is applied twice. Here, with M220 at 300% and speed
factor 2, G0 F5 and then G1: the feed rate is 30 and the move is made with 90 instead of 30. -/
theorem C37_rapid_counts :
    (run (exEnv exRead exClock) exState [.home all, .speedFactor 3, .rapid 5 (xy 1 1)]).map
      (fun s => (s.feedrate, s.progFactor)) = some (30, 3) ∧
    ((run (exEnv exRead exClock) exState
      [.home all, .speedFactor 3, .rapid 5 (xy 1 1), .coordinated 0 (xy 2 2)]).map
      fun s => (s.planner.buffer.map fun g => g.target.speed, s.out)) =
    ((run (exEnv exRead exClock) exState
      [.home all, .speedFactor 3, .rapid 5 (xy 1 1), .coordinated 15 (xy 2 2)]).map
      fun s => (s.planner.buffer.map fun g => g.target.speed, s.out)) := by
  decide +kernel

/-- The F value of a move that is refused is lost. -/
theorem C37_refused_forgets :
    (run (exEnv exRead exClock) exState
      [.home all, .coordinated 10 (xy 5 5), .coordinated 20 (xy 5 101), .coordinated 0 (xy 6 6)]).map
      (fun s => (s.feedrate, s.out)) = some (20, [.estopCleared, .aboveMax 1]) := by
  decide +kernel

/-- C37: refused without feed rate; accepted with the last one. -/
example : (run (exEnv exRead exClock) exState
    [.home all, .coordinated 0 (xy 5 5), .coordinated 10 (xy 5 5), .coordinated (-1) (xy 6 6)]).map
    (fun s => (s.feedrate, s.out)) = some (20, [.estopCleared, .noFeedrate]) := by decide +kernel

/-- C38: clamping. -/
example : let e := exEnv exRead exClock
    (List.finRange 10).map (clampToRange e (fun i => i = 0) (xy 200 300)) = [100, 300, 0, 0, 0, 0, 0, 0, 0, 0] ∧
    (List.finRange 10).map (clampToRange e (fun i => i = 0 ∨ i = 1) (xy 200 300)) =
      [200, 300, 0, 0, 0, 0, 0, 0, 0, 0] := by decide +kernel

/-- C48: the motors are switched off in the second idle event, the fan in the third. -/
example : let e := exEnv exRead exClock
    let t := fun evs => (run e exState ([.home all, .fan 255, .coordinated 10 (xy 5 5)] ++ evs)).map
      fun s => (s.disabled Rec.offs, s.hw.auxBits, s.hw.pwmOn 811, s.homing)
    t [.idle true] = some (0, 1#16, true, .homed) ∧
    t [.idle true, .idle false] = some (1, 1#16, true, .unpowered) ∧
    t [.idle true, .idle false, .idle false] = some (1, 0#16, false, .unpowered) := by decide +kernel

/-- The hypotheses of C60 hold for the example. -/
theorem exWired (read : Nat → Nat → Bool) : Wired (exEnv read exClock) exState.hw := by
  refine ⟨rfl, fun a ha => ?_⟩
  have : a = 0 := by
    by_contra h
    exact ha (if_neg h)
  subst this
  show cramps.switchPin (endstop exState.hw 0 (exCfg.homingTrigger 0)) ≠ 0
  decide +kernel

theorem exInv : Planner.Inv intArith exState.planner :=
  ⟨by simp [exState], by simp [exState], fun _ => ⟨_, rfl, ⟨rfl, fun _ => rfl, rfl, rfl, rfl⟩⟩⟩

/-- C60: homing at the lower end, one drive in each direction. -/
example : (goHome (exEnv exRead exClock) all exState).map (fun r => (r.2.homing, r.2.planner.position 0,
    r.2.planner.backend.2.done.length)) = some (.homed, 0, 2) := by decide +kernel

/-- The same machine with the switch at the upper end of X. -/
def exEnvMax : Env Int (Rec Int) Unit :=
  { exEnv exRead exClock with cfg := { exCfg with homingTrigger := fun i => if i = 0 then .max else .none } }

/-- The same with the switch of X at the upper end. -/
def exStateMax : State Int (Rec Int) Unit :=
  { exState with planner := { exState.planner with
      backend := ({ exHw with maxEndstop := fun i => if i = 0 then 1 else 0 }, ⟨[], [], 0⟩) } }

/-- C60: homing at the upper end; the position of X is its range, the others stay where they were. -/
example : (goHome exEnvMax all exStateMax).map (fun r => (r.2.homing, r.2.planner.position 0,
    r.2.planner.position 1)) = some (.homed, 100 * intConfig.stepsPerMm 0, 0) := by decide +kernel

/-- The hypothesis of C52 in the machine control holds for the example. -/
example : Ready (exEnv exRead exClock) exState := ⟨exInv, rfl⟩

end BeagleG.Machine
