import Verif.Hardware.Model
/-!
# Model of `/repo/src/spindle-control.cc`

The PWM spindle: switched and reversed through auxiliary outputs, its speed through a PWM output. And
the spindle behind a Pololu motor controller that is commanded through a serial line.

Simplifications:
* A method returns the list of the hardware calls it makes, in order; `Act.apply` gives their effect
  on the hardware mapping. Delays (`sleep_ms`) are left out: they have no effect but time.
* Loops get a number of iterations; `none`: the loop did not end within them.
* `float` arithmetic is that of `Planner.Arith`.
* The serial protocol of the motor controller is a list of commands; what the controller reports as
  its speed is a function of the number of queries so far.
-/
namespace BeagleG.Spindle

open Planner (Arith)
open Hardware

variable {F : Type}

/-- The part of `SpindleConfig` used, spindle-control.h 29-44. -/
structure Config where
  maxRpm : Int
  allowCcw : Bool

/-- The members of `BaseSpindle`, lines 132-134. -/
structure State (F : Type) where
  isOff : Bool
  isCcw : Bool
  duty : F

/-- Initial values, lines 132-134. -/
def State.init (A : Arith F) : State F := ⟨true, false, A.zero⟩

/-- What the spindle asks of the hardware mapping. spindle-control.cc 112-135, 164-228. -/
inductive Act (F : Type) where
  /-- `set_output_synchronous(SPINDLE, ..)` -/
  | power (on : Bool)
  /-- `set_output_synchronous(SPINDLE_DIRECTION, ..)` -/
  | direction (ccw : Bool)
  /-- `SetPWMOutput(SPINDLE_SPEED, ..)` -/
  | speed (v : F)

/-- `set_output_synchronous`, lines 123-126. -/
def setOutputSynchronous (c : Cape) (h : Hw F) (o : Output) (on : Bool) : Hw F :=
  setAuxOutputs c (updateAuxBitmap h o on)

/-- Effect on the hardware. hardware-mapping.cc 233-251, 262-275. -/
def Act.apply (A : Arith F) (c : Cape) (h : Hw F) : Act F → Hw F
  | .power on => setOutputSynchronous c h .spindle on
  | .direction ccw => setOutputSynchronous c h .spindleDirection ccw
  | .speed v => setPwmOutput h .spindleSpeed v (!A.le v A.zero)

section Pwm
variable (A : Arith F) (cfg : Config)

/-- `kRampEpsilon`, line 54. -/
def rampEpsilon : F := A.toFloat (A.div (A.ofInt 1) (A.ofInt 10))

/-- `ramp_down`, lines 217-227, at most `fuel` iterations. -/
def rampDown : Nat → F → Option (F × List (Act F))
  | 0, duty => if A.lt A.zero duty then none else some (duty, [])
  | fuel + 1, duty =>
    if A.lt A.zero duty then
      let duty' := if A.le (rampEpsilon A) duty then A.sub duty (rampEpsilon A) else A.zero
      (rampDown fuel duty').map fun r => (r.1, .speed duty' :: r.2)
    else some (duty, [])

/-- The loop of `On`, lines 186-195; `up` is `epsilon > 0`. -/
def rampTo (target : F) (up : Bool) : Nat → F → Option (F × List (Act F))
  | 0, duty => if A.eq duty target then some (duty, []) else none
  | fuel + 1, duty =>
    if A.eq duty target then some (duty, [])
    else
      let d := if up then A.add duty (rampEpsilon A) else A.sub duty (rampEpsilon A)
      let d := if (!up && A.lt d target) || (up && A.lt target d) then target else d
      (rampTo target up fuel d).map fun r => (r.1, .speed d :: r.2)

/-- `target`, line 185: `std::min((float)rpm / config_.max_rpm, 1.0f)`. -/
def targetDuty (rpm : Int) : F :=
  A.min (A.div (A.toFloat (A.ofInt rpm)) (A.toFloat (A.ofInt cfg.maxRpm))) (A.ofInt 1)

/-- `PWMSpindle::On`, lines 164-206. -/
def on (fuel : Nat) (s : State F) (ccw : Bool) (rpm : Int) : Option (State F × List (Act F)) :=
  if !cfg.allowCcw && ccw then some (s, [])
  else
    let pre := if s.isOff then [Act.power true] else []
    (if ccw != s.isCcw then rampDown A fuel s.duty else some (s.duty, [])).bind fun down =>
      let target := targetDuty A cfg rpm
      (rampTo A target (A.lt down.1 target) fuel down.1).map fun up =>
        ({ isOff := false, isCcw := ccw, duty := up.1 },
          pre ++ down.2 ++ [.direction ccw] ++ up.2)

/-- `PWMSpindle::Off`, lines 208-214. -/
def off (fuel : Nat) (s : State F) : Option (State F × List (Act F)) :=
  (rampDown A fuel s.duty).map fun r =>
    ({ s with isOff := true, duty := r.1 }, r.2 ++ [.power false])

/-- `PWMSpindle::CheckRequiredHardware`, lines 145-162. -/
def checkRequired (h : Hw F) : Bool :=
  (hasAuxMapping h .spindle || h.pwmOf .spindleSpeed != 0) &&
    (!cfg.allowCcw || hasAuxMapping h .spindleDirection)

/-- Calls of the machine control. spindle-control.h 45-64; called at gcode-machine-control.cc 498-527. -/
inductive Cmd where
  | on (ccw : Bool) (rpm : Int)
  | off

/-- One call. spindle-control.cc 164-228. -/
def exec (fuel : Nat) (s : State F) : Cmd → Option (State F × List (Act F))
  | .on ccw rpm => on A cfg fuel s ccw rpm
  | .off => off A fuel s

/-- A history of calls and everything the hardware was asked for. gcode-machine-control.cc 498-527, in turn. -/
def run (fuel : Nat) : State F → List Cmd → Option (State F × List (Act F))
  | s, [] => some (s, [])
  | s, c :: cs =>
    (exec A cfg fuel s c).bind fun r =>
      (run fuel r.1 cs).map fun r' => (r'.1, r.2 ++ r'.2)

end Pwm

/-! ### The spindle behind a Pololu controller -/

/-- Bytes sent and outputs set. spindle-control.cc 390-443, 582-589. -/
inductive SmcAct where
  | power (on : Bool)
  /-- `CMD_EXIT_SAFE_START` -/
  | exitSafeStart
  /-- `CMD_MOTOR_FORWARD`/`CMD_MOTOR_REVERSE` with two data bytes -/
  | target (command low high : Nat)
  /-- `CMD_STOP_MOTOR` -/
  | stop
  deriving DecidableEq

/-- `MAX_SPEED`, line 333. -/
def smcMaxSpeed : Int := 3200

/-- `set_target_speed`, lines 462-468. -/
def setTargetSpeed (ccw : Bool) (speed : Int) : SmcAct :=
  .target (if ccw then 0x86 else 0x85) (speed % 32).toNat ((speed / 32) % 128).toNat

/-- Waiting until the reported speed `report n` satisfies `done`; lines 411-416 and 432-437. -/
def waitSpeed (report : Nat → Int) (done : Int → Bool) : (fuel n : Nat) → Option Nat
  | 0, n => if done (report n) then some (n + 1) else none
  | fuel + 1, n => if done (report n) then some (n + 1) else waitSpeed report done fuel (n + 1)

/-- `PololuSMCSpindle`: members `is_off_` and how often the speed was asked. spindle-control.cc 230-601 (members). -/
structure SmcState where
  isOff : Bool
  /-- queries so far -/
  queries : Nat
  deriving DecidableEq

/-- `rpm * MAX_SPEED / config_.max_rpm` limited to `MAX_SPEED`, lines 403-405. Integer division truncates; `none`: undefined, division
by zero or overflow of `int`. -/
def smcSpeed (cfg : Config) (rpm : Int) : Option Int :=
  if cfg.maxRpm = 0 ∨ rpm * smcMaxSpeed < -2 ^ 31 ∨ 2 ^ 31 ≤ rpm * smcMaxSpeed then none
  else some (min ((rpm * smcMaxSpeed).tdiv cfg.maxRpm) smcMaxSpeed)

/-- `PololuSMCSpindle::On`, lines 390-423, with the device open; `none`: it does not return, or is undefined. -/
def smcOn (cfg : Config) (report : Nat → Int) (fuel : Nat) (s : SmcState) (ccw : Bool) (rpm : Int) :
    Option (SmcState × List SmcAct) :=
  if !cfg.allowCcw && ccw then some (s, [])
  else
    (smcSpeed cfg rpm).bind fun speed =>
      if s.isOff then
        (waitSpeed report (fun a => decide (speed ≤ a)) fuel s.queries).map fun n =>
          (⟨false, n⟩, [.power true, .exitSafeStart, setTargetSpeed ccw speed])
      else some (s, [setTargetSpeed ccw speed])

/-- `PololuSMCSpindle::Off`, lines 425-442. -/
def smcOff (report : Nat → Int) (fuel : Nat) (s : SmcState) : Option (SmcState × List SmcAct) :=
  (waitSpeed report (fun a => decide (a = 0)) fuel s.queries).map fun n =>
    (⟨true, n⟩, [.stop, .power false])

end BeagleG.Spindle
