import Verif.Planner.Model
/-!
# Model of `/repo/src/hardware-mapping.cc` (without the configuration reader)

The class ties logical names (axes, named outputs, switches) to the numbered connectors of the cape
and keeps the state of the auxiliary outputs, of the emergency stop and of the motor enable output.

Simplifications:
* A GPIO pin is a number, 0 is `GPIO_NOT_MAPPED`; the capes define their pins in `Cape`. Setting a
  pin that is not mapped has no effect (generic-gpio.cc 48-83: unknown port base).
* `level` is the level last written to an output pin by the host. (The PRU also writes the pins of
  the auxiliary outputs while it executes a segment, see `StepGen`.)
* The PWM timers are represented by the calls `pwm_timer_start`/`pwm_timer_set_duty`: whether the
  timer of a pin runs and its duty cycle. Their registers are modelled in `Pwm`.
* Log output is left out. `AuxBitmap` is `BitVec 16`, `MotorBitmap` is `BitVec 8`.
-/
namespace BeagleG.Hardware

open Planner (Axis Motor)

/-- `HardwareMapping::NamedOutput`, hardware-mapping.h 96-114. -/
inductive Output where
  | mist | flood | vacuum | spindle | spindleSpeed | spindleDirection | cooler | caseLights
  | fan | hotend | heatedBed | pointer | led | atxPower | estop
  deriving DecidableEq

/-- The pins of a cape: hardware/*/beagleg-pin-mapping.h and the functions
`get_*_gpio_descriptor`, hardware-mapping.cc 616-671. 0 is `GPIO_NOT_MAPPED`. -/
structure Cape where
  /-- `get_aux_bit_gpio_descriptor`; argument 0-based -/
  aux : Fin 16 → Nat
  /-- `get_pwm_gpio_descriptor`; argument 0-based -/
  pwm : Fin 4 → Nat
  /-- `get_endstop_gpio_descriptor`; argument 0-based -/
  switch : Fin 9 → Nat
  /-- `MOTOR_ENABLE_GPIO` -/
  motorEnable : Nat
  /-- `MOTOR_ENABLE_IS_ACTIVE_HIGH` -/
  activeHigh : Bool

/-- The members of the class (hardware-mapping.h 283-316) and the outputs. `F`: duty cycles. -/
structure Hw (F : Type) where
  /-- `output_to_aux_bits_` -/
  auxOf : Output → BitVec 16
  /-- `output_to_pwm_gpio_` -/
  pwmOf : Output → Nat
  axisToDriver : Axis → BitVec 8
  driverFlip : Motor → Int
  minEndstop : Axis → Nat
  maxEndstop : Axis → Nat
  triggerLevel : Fin 9 → Bool
  estopInput : Nat
  pauseInput : Nat
  startInput : Nat
  probeInput : Nat
  /-- `estop_state_` -/
  estop : Bool
  motorsEnabled : Bool
  auxBits : BitVec 16
  initialized : Bool
  /-- level of the output pins -/
  level : Nat → Bool
  /-- is the PWM timer of a pin running -/
  pwmOn : Nat → Bool
  /-- duty cycle last set -/
  duty : Nat → F

variable {F : Type}

/-- `set_gpio`/`clr_gpio`, generic-gpio.cc 74-84. -/
def Hw.write (h : Hw F) (pin : Nat) (v : Bool) : Hw F :=
  if pin = 0 then h else { h with level := fun p => if p = pin then v else h.level p }

/-- `AddAuxMapping`, lines 56-74. -/
def addAuxMapping (c : Cape) (h : Hw F) (o : Output) (aux : Int) : Hw F × Bool :=
  if aux = 0 then (h, true)
  else if hr : 1 ≤ aux ∧ aux ≤ 16 then
    if c.aux ⟨(aux - 1).toNat, by omega⟩ = 0 then (h, true)
    else ({ h with auxOf := fun o' =>
      if o' = o then h.auxOf o ||| (1#16 <<< (aux - 1).toNat) else h.auxOf o' }, true)
  else (h, false)

/-- `HasAuxMapping`, lines 75-77. -/
def hasAuxMapping (h : Hw F) (o : Output) : Bool := h.auxOf o != 0

/-- `AddPWMMapping`, lines 79-104. -/
def addPwmMapping (c : Cape) (h : Hw F) (o : Output) (pwm : Int) : Hw F × Bool :=
  if pwm = 0 then (h, true)
  else if hr : 1 ≤ pwm ∧ pwm ≤ 4 then
    if h.pwmOf o ≠ 0 then (h, false)
    else ({ h with pwmOf := fun o' =>
      if o' = o then c.pwm ⟨(pwm - 1).toNat, by omega⟩ else h.pwmOf o' }, true)
  else (h, false)

/-- `AddMotorMapping`, lines 109-123. -/
def addMotorMapping (h : Hw F) (axis : Axis) (motor : Int) (mirrored : Bool) : Hw F × Bool :=
  if motor = 0 then (h, true)
  else if hr : 1 ≤ motor ∧ motor ≤ 8 then
    let m : Motor := ⟨(motor - 1).toNat, by omega⟩
    if h.driverFlip m ≠ 0 then (h, false)
    else ({ h with
      axisToDriver := fun a =>
        if a = axis then h.axisToDriver axis ||| (1#8 <<< m.val) else h.axisToDriver a
      driverFlip := fun i => if i = m then (if mirrored then -1 else 1) else h.driverFlip i }, true)
  else (h, false)

/-- `HasMotorFor`, hardware-mapping.h 144. -/
def hasMotorFor (h : Hw F) (axis : Axis) : Bool := h.axisToDriver axis != 0

/-- `GetFirstFreeMotor`, lines 125-130. -/
def firstFreeMotor (h : Hw F) : Int :=
  match (List.finRange 8).find? fun m => h.driverFlip m = 0 with
  | some m => (m.val : Int) + 1
  | none => 0

/-- `IsMotorFlipped`, lines 132-134. -/
def isMotorFlipped (h : Hw F) (m : Motor) : Bool := h.driverFlip m = -1

/-- `AssignMotorSteps`, lines 290-298. -/
def assignMotorSteps (h : Hw F) (axis : Axis) (steps : Int) (out : Motor → Int) : Motor → Int :=
  fun m => if (h.axisToDriver axis).getLsbD m.val then steps else out m

/-- `GetAxisSteps`, lines 300-313; `pos` is `status.pos_steps`. -/
def getAxisSteps (h : Hw F) (axis : Axis) (pos : Motor → Int) : Int :=
  match (List.finRange 8).find? fun m => (h.axisToDriver axis).getLsbD m.val with
  | some m => pos m
  | none => 0

/-- `EnableMotors`, lines 206-220: `on ^ MOTOR_ENABLE_IS_ACTIVE_HIGH` clears the pin. -/
def enableMotors (c : Cape) (h : Hw F) (on : Bool) : Hw F :=
  if !h.initialized then h
  else
    let on := if on && h.estop then false else on
    { h.write c.motorEnable (!(on ^^ c.activeHigh)) with motorsEnabled := on }

/-- `GetAuxBit`, line 224, for a pin in 1..16. -/
def getAuxBit (h : Hw F) (pin : Nat) : Bool := (h.auxBits >>> (pin - 1)).getLsbD 0

/-- `UpdateAuxBits`, lines 226-231, for a pin in 1..16. -/
def updateAuxBits (h : Hw F) (pin : Nat) (on : Bool) : Hw F :=
  { h with auxBits :=
      if on then h.auxBits ||| (1#16 <<< (pin - 1)) else h.auxBits &&& ~~~(1#16 <<< (pin - 1)) }

/-- `UpdateAuxBitmap`, lines 233-241. -/
def updateAuxBitmap (h : Hw F) (o : Output) (on : Bool) : Hw F :=
  { h with
    auxBits := if on then h.auxBits ||| h.auxOf o else h.auxBits &&& ~~~ h.auxOf o
    estop := if o = .estop then on else h.estop }

/-- `SetAuxOutputs`, lines 243-251. -/
def setAuxOutputs (c : Cape) (h : Hw F) : Hw F :=
  if !h.initialized then h
  else (List.finRange 16).foldl (fun h' i => h'.write (c.aux i) (h.auxBits.getLsbD i.val)) h

/-- `AuxOutputsOff`, lines 253-256. -/
def auxOutputsOff (c : Cape) (h : Hw F) : Hw F := setAuxOutputs c { h with auxBits := 0 }

/-- `pwm_timer_start`; without effect for a pin that is not mapped (pwm-timer.cc 127-146). -/
def pwmStart (h : Hw F) (pin : Nat) (on : Bool) : Hw F :=
  if pin = 0 then h else { h with pwmOn := fun p => if p = pin then on else h.pwmOn p }

/-- `pwm_timer_set_duty`; without effect for a pin that is not mapped (pwm-timer.cc 148-173). -/
def pwmDuty (h : Hw F) (pin : Nat) (v : F) : Hw F :=
  if pin = 0 then h else { h with duty := fun p => if p = pin then v else h.duty p }

/-- `SetPWMOutput`, lines 262-275. `positive` is the negation of `value <= 0.0`. -/
def setPwmOutput (h : Hw F) (o : Output) (value : F) (positive : Bool) : Hw F :=
  if !h.initialized then h
  else if !positive then pwmStart h (h.pwmOf o) false
  else pwmStart (pwmDuty h (h.pwmOf o) value) (h.pwmOf o) true

/-- `ResetHardware`, lines 196-204. -/
def resetHardware (c : Cape) (h : Hw F) : Hw F :=
  if !h.initialized then h
  else
    let h := enableMotors c (setAuxOutputs c { h with auxBits := 0 }) false
    (List.finRange 4).foldl (fun h i => pwmStart h (c.pwm i) false) h

/-- `InitializeHardware`, lines 136-194, when all the system calls succeed and before the check of
the end switches: `estop_state_` is set, the timers are stopped and the outputs reset. -/
def initializeHardware (c : Cape) (h : Hw F) : Hw F :=
  resetHardware c { h with estop := true, initialized := true }

/-- The loop of `TestSwitch`, lines 333-343, on the list of samples the pin delivers after the first
one; `n` is `debounce`. The result is the debounced state and the samples not used; `none`: the
samples are used up before the loop ends. -/
def debounce (state : Bool) (n : Nat) : List Bool → Option (Bool × List Bool)
  | [] => none
  | x :: xs =>
    if x = state then
      if n + 1 = 2 then some (state, xs) else debounce state (n + 1) xs
    else debounce x 0 xs

/-- The pin of switch `n`; 0 if there is none. hardware-mapping.cc 649-663. -/
def Cape.switchPin (c : Cape) (n : Nat) : Nat :=
  if h : 1 ≤ n ∧ n ≤ 9 then c.switch ⟨n - 1, by omega⟩ else 0

/-- `TestSwitch`, lines 327-345, with the samples of the pin of the switch. -/
def testSwitch (c : Cape) (h : Hw F) (n : Nat) (dflt : Bool) (samples : List Bool) :
    Option (Bool × List Bool) :=
  if !h.initialized then some (dflt, samples)
  else if c.switchPin n = 0 then some (dflt, samples)
  else
    match samples with
    | [] => none
    | x :: xs =>
      match debounce x 0 xs with
      | none => none
      | some (state, rest) =>
        some (state == (if hn : n - 1 < 9 then h.triggerLevel ⟨n - 1, hn⟩ else false), rest)

end BeagleG.Hardware
