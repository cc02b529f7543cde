import Verif.Spindle.Model
/-!
# Model of `/repo/src/gcode-machine-control.cc`

The receiver of the parser's events: checks whether a move is allowed, hands it to the planner, and keeps
track of emergency stop, homing and feed rate.

Simplifications:
* A method is a function on `State` that may return `none`: a failed assertion, or a loop that did not end
  within `Env.patience` iterations. So `some` means that the method returned normally.
* The hardware mapping is part of the state of the motor backend, because enqueuing a segment switches on
  the motors (motion-queue-motor-operations.cc 205-206, pru-motion-queue.cc 75-77).
* Reading an input is asking `Env.read` with a number that is different for each reading; this stands for
  all possible behaviours of the switches (C41 deals with the debouncing). The clock likewise.
* Messages to the user are values of `Msg`; their text is left out, as are messages that do not report
  an error or a change of state. `M105` and `M115` only print; for `M114` and
  `M119` see `Report.lean`.
* The words after an M-code are the list of pairs that `ParsePair` delivers (C07, C08).
* `float`/`double` arithmetic is that of `Planner.Arith`.
* `usleep` is left out.
-/
namespace BeagleG.Machine

open Planner (Axis Motor Arith Command)
open Hardware

/-- `HomingState`, gcode-machine-control.h 89; in ascending order. -/
inductive Homing where
  | never
  | unpowered
  | homed
  deriving DecidableEq

/-- `HardwareMapping::AxisTrigger` of a home position. `TRIGGER_ANY` is refused by `Init` (lines 240-247). -/
inductive Trigger where
  | none
  | min
  | max
  deriving DecidableEq

/-- Messages (`mprintf`).
Only the calls of `mprintf` (gcode-machine-control.cc 343-348) that a theorem speaks about are distinguished. -/
inductive Msg where
  | homeFirst
  | inSoftEstop
  | belowMin (axis : Axis)
  | aboveMax (axis : Axis)
  | noFeedrate
  | speedFactorRefused
  | stopped (hard : Bool)
  | stillHardEstop
  | estopCleared
  | pauseActive
  | pauseCleared
  | waitingForStart
  | noProbe
  | maxProbe
  | lookaheadRange
  | auxBit (pin : Nat) (on : Bool)
  | text
  | notUnderstood
  deriving DecidableEq

variable {F β σ : Type}

/-- The part of `MachineControlConfig` used here (and not in `Planner.Config`), gcode-machine-control.h
38-78, with the values derived in `Init`. -/
structure Config (F : Type) where
  speedFactor : F
  rangeCheck : Bool
  requireHoming : Bool
  enablePause : Bool
  moveRange : Axis → F
  homingTrigger : Axis → Trigger
  homeFeedrate : Axis → F
  maxProbeFeedrate : Axis → F
  /-- `home_order`; `none` for a letter that is not an axis -/
  homeOrder : List (Option Axis)
  /-- `axis_clamped_` -/
  clamped : Axis → Bool
  /-- `g0_feedrate_mm_per_sec_` -/
  g0Feedrate : F
  autoMotorDisable : Int
  autoFanDisable : Int
  autoFanPwm : Int

/-- `SegmentQueue`, segment-queue.h 51-80, on a state that contains the hardware mapping. -/
structure Queue (F β : Type) where
  enqueue : Hw F × β → Command F → (Hw F × β) × Bool
  waitQueueEmpty : Hw F × β → Hw F × β
  setExternalPosition : Hw F × β → Motor → Int → Hw F × β
  motorEnable : Hw F × β → Bool → Hw F × β
  /-- `GetPhysicalStatus` -/
  position : Hw F × β → Option (Motor → Int)

/-- `Spindle`, spindle-control.h 46-62: an implementation with state `σ`. -/
structure SpindleCtl (F σ : Type) where
  on : σ → Bool → Int → Option (σ × List (Spindle.Act F))
  off : σ → Option (σ × List (Spindle.Act F))

/-- Everything that does not change.
The constant members, gcode-machine-control.cc 139-162, and what is outside of the program. -/
structure Env (F β σ : Type) where
  A : Arith F
  plan : Planner.Config F
  cfg : Config F
  cape : Cape
  queue : Queue F β
  spindle : Option (SpindleCtl F σ)
  /-- reading number `n` of a switch -/
  read : Nat → Nat → Bool
  /-- the time at reading number `n` -/
  clock : Nat → Int
  /-- iterations of loops -/
  patience : Nat

/-- The members, lines 140-166, and what they refer to. -/
structure State (F β σ : Type) where
  planner : Planner.State F (Hw F × β)
  spindle : σ
  /-- readings of inputs and of the clock so far -/
  tick : Nat
  /-- messages so far -/
  out : List Msg
  /-- `current_feedrate_mm_per_sec_` -/
  feedrate : F
  /-- `prog_speed_factor_` -/
  progFactor : F
  /-- `next_auto_disable_motor_` -/
  nextMotor : Int
  /-- `next_auto_disable_fan_` -/
  nextFan : Int
  pauseEnabled : Bool
  homing : Homing

/-- The hardware mapping. The member `hardware_mapping_`, gcode-machine-control.cc 142. -/
abbrev State.hw (s : State F β σ) : Hw F := s.planner.backend.1

/-- A method with result `α`.
All methods of `GCodeMachineControl::Impl`, gcode-machine-control.cc 60-163, have this type here. -/
def M (F β σ α : Type) := State F β σ → Option (α × State F β σ)

instance : Monad (M F β σ) where
  pure a := fun s => some (a, s)
  bind m f := fun s => (m s).bind fun r => f r.1 r.2

section
variable (e : Env F β σ)

/-- Read the state. A member of the class is read, gcode-machine-control.cc 139-162. -/
def get : M F β σ (State F β σ) := fun s => some (s, s)

/-- Change the state. A member of the class is assigned, gcode-machine-control.cc 139-162. -/
def modify (f : State F β σ → State F β σ) : M F β σ Unit := fun s => some ((), f s)

/-- Failed assertion, or a loop that does not end. E.g. the waiting loops at gcode-machine-control.cc 405-412, 996-1006, 1023-1030. -/
def stuck {α : Type} : M F β σ α := fun _ => none

/-- Write to `msg_stream_`, gcode-machine-control.cc 343-348 (`mprintf`). -/
def say (m : Msg) : M F β σ Unit := modify fun s => { s with out := s.out ++ [m] }

/-- Calls of the hardware mapping. `hardware_mapping_->…`, gcode-machine-control.cc passim, e.g. 379, 407, 422. -/
def hardware (f : Hw F → Hw F) : M F β σ Unit := modify fun s =>
  { s with planner := { s.planner with backend := (f s.planner.backend.1, s.planner.backend.2) } }

/-- Calls of the motor backend. `motor_ops_->…`, gcode-machine-control.cc passim, e.g. 359, 926. -/
def motors (f : Hw F × β → Hw F × β) : M F β σ Unit := modify fun s =>
  { s with planner := { s.planner with backend := f s.planner.backend } }

/-- The backend of the planner. The methods of segment-queue.h 51-80. -/
def Env.backend : Planner.Backend F (Hw F × β) where
  enqueue := e.queue.enqueue
  waitQueueEmpty := e.queue.waitQueueEmpty
  setExternalPosition := e.queue.setExternalPosition

/-- `planner_->BringPathToHalt()`.
planner.cc 678-689 by way of 962; called at gcode-machine-control.cc 358, 925, 949, 1046, 1052, 1069. -/
def halt : M F β σ Unit := fun s =>
  (Planner.bringPathToHalt e.A e.plan e.backend s.planner).map fun p => ((), { s with planner := p })

/-- `planner_->Enqueue(..)`; the planner asks the hardware mapping for the auxiliary bits.
planner.cc 582-676 by way of 958-960; called at gcode-machine-control.cc 901, 918. -/
def plannerEnqueue (pos : Axis → F) (feed : F) : M F β σ Bool := fun s =>
  (Planner.machineMove e.A e.plan e.backend s.planner pos feed s.hw.auxBits.toNat).map
    fun r => (r.2, { s with planner := r.1 })

/-- `planner_->DirectDrive(..)`. planner.cc 910-933 by way of 968-971; called at gcode-machine-control.cc 998, 1005, 1024. -/
def plannerDrive (axis : Axis) (distance v0 v1 : F) : M F β σ Int := fun s =>
  (Planner.directDrive e.A e.plan e.backend s.planner axis distance v0 v1 s.hw.auxBits.toNat).map
    fun r => (r.2, { s with planner := r.1 })

/-- `planner_->SetExternalPosition(..)`.
planner.cc 935-948 by way of 973-975; called at gcode-machine-control.cc 1048, 1092. -/
def plannerExternal (axis : Axis) (pos : F) : M F β σ Unit := fun s =>
  (Planner.setExternalPosition e.A e.plan e.backend s.planner axis pos).map
    fun p => ((), { s with planner := p })

/-- `HardwareMapping::TestSwitch`, hardware-mapping.cc 327-345. -/
def testSwitch (n : Nat) (dflt : Bool) : M F β σ Bool := fun s =>
  if !s.hw.initialized || e.cape.switchPin n = 0 then some (dflt, s)
  else some (e.read s.tick n, { s with tick := s.tick + 1 })

/-- `time(NULL)`. Called at gcode-machine-control.cc 952, 955, 959, 963. -/
def now : M F β σ Int := fun s => some (e.clock s.tick, { s with tick := s.tick + 1 })

/-- `TestEStopSwitch`, hardware-mapping.cc 357-359. -/
def testEStop : M F β σ Bool := do testSwitch e (← get).hw.estopInput false

/-- `TestPauseSwitch` (`check_for_pause`), hardware-mapping.cc 361-363. -/
def testPause : M F β σ Bool := do testSwitch e (← get).hw.pauseInput false

/-- `TestStartSwitch`, hardware-mapping.cc 365-367. -/
def testStart : M F β σ Bool := do testSwitch e (← get).hw.startInput true

/-- `TestProbeSwitch`, hardware-mapping.cc 369-371. -/
def testProbe : M F β σ Bool := do testSwitch e (← get).hw.probeInput true

/-- `TestAxisSwitch` for one end, hardware-mapping.cc 347-355. -/
def testAxis (axis : Axis) : Trigger → M F β σ Bool
  | .none => pure false
  | .min => do testSwitch e ((← get).hw.minEndstop axis) false
  | .max => do testSwitch e ((← get).hw.maxEndstop axis) false

/-- `set_output_flags`, lines 658-661. -/
def setOutputFlags (o : Output) (on : Bool) : M F β σ Unit := hardware fun h => updateAuxBitmap h o on

/-- `motors_enable`, lines 357-364. -/
def motorsEnable (enable : Bool) : M F β σ Unit := do
  halt e
  motors fun b => e.queue.motorEnable b enable
  modify fun s => if !enable && s.homing = .homed then { s with homing := .unpowered } else s

/-- `set_fanspeed`, lines 374-381. -/
def setFanspeed (speed : F) : M F β σ Unit :=
  if e.A.lt speed e.A.zero || e.A.lt (e.A.ofInt 255) speed then pure ()
  else do
    let duty := e.A.toFloat (e.A.div speed (e.A.ofInt 255))
    setOutputFlags .fan (e.A.lt e.A.zero duty)
    hardware fun h => setPwmOutput h .fan duty (!e.A.le duty e.A.zero)

/-- The pause loop of `wait_for_start`, lines 393-399; `n` is `pause_active`. -/
def waitPause : (fuel n : Nat) → M F β σ Unit
  | _, 0 => pure ()
  | 0, _ + 1 => stuck
  | fuel + 1, n + 1 => do
    if (← testPause e) then waitPause fuel 2 else waitPause fuel n

/-- The start loop of `wait_for_start`, lines 405-412. -/
def waitStart : (fuel : Nat) → M F β σ Unit
  | 0 => stuck
  | fuel + 1 => do
    if (← testStart e) then pure ()
    else
      setOutputFlags .led true
      hardware (setAuxOutputs e.cape)
      setOutputFlags .led false
      hardware (setAuxOutputs e.cape)
      waitStart fuel

/-- `wait_for_start`, lines 386-414. -/
def waitForStart : M F β σ Unit := do
  if (← get).pauseEnabled then
    if (← testPause e) then
      say .pauseActive
      waitPause e e.patience 2
      say .pauseCleared
  if (← testStart e) then pure ()
  else
    say .waitingForStart
    waitStart e e.patience

/-- `in_estop`, lines 416-418. -/
def inEstop : M F β σ Bool := do return (← get).hw.estop

/-- Running a command of the spindle and applying what it does to the hardware.
The calls of `spindle_`, gcode-machine-control.cc 498-527. -/
def spindleDo (f : σ → Option (σ × List (Spindle.Act F))) : M F β σ Unit := fun s =>
  (f s.spindle).bind fun r =>
    hardware (fun h => r.2.foldl (Spindle.Act.apply e.A e.cape) h) { s with spindle := r.1 }

/-- `set_spindle_off`, lines 522-527. -/
def setSpindleOff : M F β σ Unit :=
  match e.spindle with
  | none => pure ()
  | some sp => do
    halt e
    spindleDo e sp.off

/-- `set_estop`, lines 420-427. -/
def setEstop (hard : Bool) : M F β σ Unit := do
  setSpindleOff e
  hardware (auxOutputsOff e.cape)
  setOutputFlags .estop true
  motorsEnable e false
  modify fun s => { s with homing := .never }
  say (.stopped hard)

/-- `clear_estop`, lines 429-440. -/
def clearEstop : M F β σ Bool := do
  if (← inEstop) then
    if (← testEStop e) then
      say .stillHardEstop
      return false
    else
      setOutputFlags .estop false
      hardware (setAuxOutputs e.cape)
      say .estopCleared
      return true
  else return true

/-- `check_for_estop`, lines 442-452. -/
def checkForEstop : M F β σ Bool := do
  if (← inEstop) then return false
  else
    if (← testEStop e) then
      setEstop e true
      return true
    else return false

/-- `handle_set_lookahead`, lines 458-485, on the remaining words; the result is the words not used. -/
def handleSetLookahead (args : List (Char × F)) : M F β σ (List (Char × F)) :=
  let set (n : Int) : M F β σ Unit := do
    motors e.queue.waitQueueEmpty
    let s ← get
    let r := Planner.setLookahead s.planner n
    if r.2 then modify fun s => { s with planner := (Planner.setLookahead s.planner n).1 } else stuck
  match args with
  | [] => do
    set Planner.planningBufferCapacity
    return []
  | (letter, value) :: rest =>
    if letter ≠ 'S' then pure rest
    else
      let n := e.A.toInt value
      if n ≤ 0 ∨ n > Planner.planningBufferCapacity then do
        say .lookaheadRange
        return rest
      else do
        set n
        return rest

/-- The loop of `set_spindle_on`, lines 509-517: the last `S` value and the words not used. -/
def spindleWords : Int → List (Char × F) → Int × List (Char × F)
  | rpm, [] => (rpm, [])
  | rpm, (letter, value) :: rest =>
    if letter = 'S' then spindleWords (e.A.lround value) rest else (rpm, (letter, value) :: rest)

/-- `set_spindle_on`, lines 498-520. -/
def setSpindleOn (ccw : Bool) (args : List (Char × F)) : M F β σ (List (Char × F)) :=
  match e.spindle with
  | none => pure args
  | some sp => do
    halt e
    let r := spindleWords e (-1) args
    if 0 ≤ r.1 then spindleDo e fun s => sp.on s ccw r.1
    return r.2

/-- The loop of `aux_bit_commands` for M42 and M62..M65, lines 605-613: pin, value, words not used. -/
def auxWords (m42 : Bool) : Int → Int → List (Char × F) → Int × Int × List (Char × F)
  | pin, bit, [] => (pin, bit, [])
  | pin, bit, (letter, value) :: rest =>
    if letter = 'P' then auxWords m42 (e.A.lround value) bit rest
    else if letter = 'S' ∧ m42 then auxWords m42 pin (e.A.lround value) rest
    else (pin, bit, (letter, value) :: rest)

/-- `aux_bit_commands`, lines 584-656. The variable `value` is reused for the words there, `m_code` is not. -/
def auxBitCommands (code : Int) (args : List (Char × F)) : M F β σ (List (Char × F)) :=
  if code = 3 then setSpindleOn e false args
  else if code = 4 then setSpindleOn e true args
  else if code = 5 then do setSpindleOff e; return args
  else if code = 7 then do setOutputFlags .mist true; return args
  else if code = 8 then do setOutputFlags .flood true; return args
  else if code = 9 then do setOutputFlags .mist false; setOutputFlags .flood false; return args
  else if code = 10 then do setOutputFlags .vacuum true; return args
  else if code = 11 then do setOutputFlags .vacuum false; return args
  else if code = 42 ∨ code = 62 ∨ code = 63 ∨ code = 64 ∨ code = 65 then
    let w := auxWords e (code = 42) (-1) (-1) args
    let bit := if code = 62 ∨ code = 64 then 1 else if code = 63 ∨ code = 65 then 0 else w.2.1
    if 0 < w.1 ∧ w.1 ≤ 16 then
      if 0 ≤ bit ∧ bit ≤ 1 then do
        hardware fun h => updateAuxBits h w.1.toNat (bit = 1)
        if code = 64 ∨ code = 65 then hardware (setAuxOutputs e.cape)
        return w.2.2
      else if code = 42 then do
        let s ← get
        say (.auxBit w.1.toNat (getAuxBit s.hw w.1.toNat))
        return w.2.2
      else pure w.2.2
    else pure w.2.2
  else if code = 245 then do setOutputFlags .cooler true; return args
  else if code = 246 then do setOutputFlags .cooler false; return args
  else if code = 355 then
    let w := spindleWords e 0 args
    do setOutputFlags .caseLights (0 < w.1); return w.2
  else pure args

/-- `dwell`, lines 924-946; waiting is left out. -/
def dwell : M F β σ Unit := do
  halt e
  motors e.queue.waitQueueEmpty
  if (← checkForEstop e) then pure ()
  else
    if (← get).pauseEnabled then
      if (← testPause e) then waitForStart e

/-- `special_commands` (`unprocessed`), lines 529-582, called from 530. The result is the words not used; `none`: the
rest of the line is to be discarded. -/
def special (letter : Char) (value : F) (args : List (Char × F)) :
    M F β σ (Option (List (Char × F))) :=
  if letter ≠ 'M' then pure (some args)
  else
    let code := e.A.toInt value
    if code = 0 then do setEstop e false; return some args
    else if code = 999 then do let _ ← clearEstop e; return some args
    else if code ∈ [3, 4, 5, 7, 8, 9, 10, 11, 42, 62, 63, 64, 65, 245, 246, 355] then do
      return some (← auxBitCommands e code args)
    else if code = 400 then do dwell e; return some args
    else if code = 80 ∨ code = 81 then do
      setOutputFlags .atxPower (code = 80)
      hardware (setAuxOutputs e.cape)
      return some args
    else if code = 105 ∨ code = 114 ∨ code = 115 ∨ code = 119 then pure (some args)
    else if code = 117 then do say .text; return none
    else if code = 120 then do modify fun s => { s with pauseEnabled := true }; return some args
    else if code = 121 then do modify fun s => { s with pauseEnabled := false }; return some args
    else if code = 181 then do return some (← handleSetLookahead e args)
    else do say .notUnderstood; return none

/-- `gcode_start`, lines 781-784. -/
def gcodeStart : M F β σ Unit :=
  if 0 < e.cfg.autoFanPwm then setFanspeed e (e.A.ofInt e.cfg.autoFanPwm) else pure ()

/-- `gcode_finished`, lines 786-791. -/
def gcodeFinished (endOfStream : Bool) : M F β σ Unit := do
  halt e
  setSpindleOff e
  if endOfStream ∧ 0 < e.cfg.autoMotorDisable then motorsEnable e false

/-- `move_allowed_homing_status`, lines 793-799. -/
def allowedHoming : M F β σ Bool := do
  if !e.cfg.requireHoming then return true
  else
    if (← get).homing ≠ .never then return true
    else
      say .homeFirst
      return false

/-- `move_allowed_estop_status`, lines 801-807. -/
def allowedEstop : M F β σ Bool := do
  if (← inEstop) then
    say .inSoftEstop
    return false
  else return true

/-- `is_rotational_axis`, gcode-parser.h 78-80. -/
def rotational (a : Axis) : Bool := a = 3 || a = 4 || a = 5

/-- The first axis in the list that is outside the machine limits and the message for it:
`move_allowed_within_machine_limits`, lines 809-859. -/
def outside (pos : Axis → F) : List Axis → Option Msg
  | [] => none
  | i :: rest =>
    if rotational i then outside pos rest
    else if e.A.lt (pos i) e.A.zero then some (.belowMin i)
    else if e.A.le (e.cfg.moveRange i) e.A.zero then outside pos rest
    else if e.A.lt (e.cfg.moveRange i) (pos i) then some (.aboveMax i)
    else outside pos rest

/-- `move_allowed_within_machine_limits`. gcode-machine-control.cc 809-859. -/
def allowedLimits (pos : Axis → F) : M F β σ Bool :=
  if !e.cfg.rangeCheck then pure true
  else
    match outside e pos (List.finRange 10) with
    | none => pure true
    | some m => do
      say m
      return false

/-- `clamp_to_range`, lines 861-884. -/
def clampToRange (affected : Axis → Bool) (pos : Axis → F) : Axis → F :=
  if (List.finRange 10).any fun i => affected i && !e.cfg.clamped i then pos
  else fun i =>
    if !e.cfg.clamped i then pos i
    else
      let v := if e.A.lt (pos i) e.A.zero then e.A.zero else pos i
      if e.A.le (e.cfg.moveRange i) e.A.zero then v
      else if e.A.lt (e.cfg.moveRange i) v then e.cfg.moveRange i else v

/-- Lines 901-904 and 918-921: hand the move to the planner; the emergency stop input is read when the
planner did not accept it. -/
def submit (pos : Axis → F) (feed : F) : M F β σ Bool := do
  if (← plannerEnqueue e pos feed) then return true
  else
    if (← checkForEstop e) then return false else return true

/-- The three checks before a move. gcode-machine-control.cc 888-890 and 909-911. -/
def allowed (pos : Axis → F) : M F β σ Bool := do
  if !(← allowedHoming e) then return false
  else
    if !(← allowedLimits e pos) then return false
    else allowedEstop

/-- `coordinated_move`, lines 886-905. -/
def coordinatedMove (feed : F) (pos : Axis → F) : M F β σ Bool := do
  if !(← allowed e pos) then return false
  else
    if e.A.lt e.A.zero feed then
      modify fun s => { s with feedrate := e.A.mul e.cfg.speedFactor feed }
    let s ← get
    if e.A.le s.feedrate e.A.zero then
      say .noFeedrate
      return false
    else submit e pos (e.A.mul s.progFactor s.feedrate)

/-- `rapid_move`, lines 907-922. -/
def rapidMove (feed : F) (pos : Axis → F) : M F β σ Bool := do
  if !(← allowed e pos) then return false
  else
    let s ← get
    let given := e.A.mul (e.A.mul e.cfg.speedFactor s.progFactor) feed
    if e.A.lt e.A.zero given && e.A.le s.feedrate e.A.zero then
      modify fun s => { s with feedrate := given }
    submit e pos (if e.A.lt e.A.zero given then given else e.cfg.g0Feedrate)

/-- The fan part of `input_idle`, lines 963-966. -/
def idleFan : M F β σ Unit := do
  if (← get).nextFan ≠ -1 then
    if (← get).nextFan ≤ (← now e) then
      setFanspeed e e.A.zero
      modify fun s => { s with nextFan := -1 }

/-- The motor part of `input_idle`, lines 950-962. -/
def idleMotor (first : Bool) : M F β σ Unit := do
  if 0 < e.cfg.autoMotorDisable then
    if first then
      let t ← now e
      modify fun s => { s with nextMotor := t + e.cfg.autoMotorDisable, nextFan := -1 }
    else
      if (← get).nextMotor ≠ -1 then
        if (← get).nextMotor ≤ (← now e) then
          motorsEnable e false
          modify fun s => { s with nextMotor := -1 }
          if 0 < e.cfg.autoFanDisable then
            let t ← now e
            modify fun s => { s with nextFan := t + e.cfg.autoFanDisable }

/-- `input_idle`, lines 948-968. -/
def inputIdle (first : Bool) : M F β σ Unit := do
  halt e
  idleMotor e first
  idleFan e
  let _ ← checkForEstop e

/-- `set_speed_factor`, lines 970-980. -/
def setSpeedFactor (factor : F) : M F β σ Unit :=
  let f := if e.A.lt factor e.A.zero then e.A.add (e.A.ofInt 1) factor else factor
  if e.A.lt f (e.A.div (e.A.ofInt 5) (e.A.ofInt 1000)) then say .speedFactorRefused
  else modify fun s => { s with progFactor := f }

/-- `kHomingMM`, line 989. -/
def homingMm : F := e.A.div (e.A.ofInt 1) (e.A.ofInt 2)

/-- `kBackoffMM`, line 990. -/
def backoffMm : F := e.A.toFloat (e.A.div (homingMm e) (e.A.ofInt 10))

/-- The first loop of `move_to_endstop`, lines 996-1000; `none`: emergency stop. -/
def approach (axis : Axis) (trigger : Trigger) (dir : Int) (v1 : F) :
    (fuel : Nat) → (v0 : F) → Int → M F β σ (Option (F × Int))
  | 0, _, _ => stuck
  | fuel + 1, v0, total => do
    if (← testAxis e axis trigger) then return some (v0, total)
    else
      if (← testEStop e) then return none
      else
        let d ← plannerDrive e axis (e.A.mul (e.A.ofInt dir) (homingMm e)) v0 v1
        approach axis trigger dir v1 fuel v1 (total + d)

/-- The second loop of `move_to_endstop`, lines 1003-1006. -/
def backOff (axis : Axis) (trigger : Trigger) (dir : Int) (v0 v1 : F) :
    (fuel : Nat) → Int → M F β σ (Option Int)
  | 0, _ => stuck
  | fuel + 1, total => do
    if (← testAxis e axis trigger) then
      if (← testEStop e) then return none
      else
        let d ← plannerDrive e axis (e.A.mul (e.A.ofInt (-dir)) (backoffMm e)) v0 v1
        backOff axis trigger dir v0 v1 fuel (total + d)
    else return some total

/-- `move_to_endstop`, lines 983-1009. -/
def moveToEndstop (axis : Axis) (feedrate : F) (trigger : Trigger) : M F β σ Int := do
  if !(← get).hw.initialized then return 0
  else
    let dir : Int := if trigger = .min then -1 else 1
    match ← approach e axis trigger dir feedrate e.patience e.A.zero 0 with
    | none => return 0
    | some (v0, total) =>
      match ← backOff e axis trigger dir v0 feedrate e.patience total with
      | none => return 0
      | some total => return total

/-- The loop of `move_to_probe`, lines 1023-1030; `step` is `dir * kProbeMM`. -/
def probeLoop (axis : Axis) (step v1 : F) (maxSteps : Int) :
    (fuel : Nat) → (v0 : F) → Int → M F β σ Int
  | 0, _, _ => stuck
  | fuel + 1, v0, total => do
    if (← testProbe e) then return total
    else
      let d ← plannerDrive e axis step v0 v1
      if maxSteps < ((total + d).natAbs : Int) then
        say .maxProbe
        return total + d
      else probeLoop axis step v1 maxSteps fuel v1 (total + d)

/-- `move_to_probe`, lines 1011-1033. -/
def moveToProbe (axis : Axis) (feedrate : F) (dir maxSteps : Int) : M F β σ Int := do
  if !(← get).hw.initialized then return 0
  else
    let mm := e.A.toFloat (e.A.div (e.A.ofInt 5) (e.A.ofInt 100))
    probeLoop e axis (e.A.mul (e.A.ofInt dir) mm) (e.A.min feedrate (e.cfg.maxProbeFeedrate axis))
      maxSteps e.patience e.A.zero 0

/-- Home position of an axis, lines 1040-1042. -/
def homePos (axis : Axis) : F :=
  if e.cfg.homingTrigger axis = .max then e.cfg.moveRange axis else e.A.zero

/-- `home_axis`, lines 1036-1049. -/
def homeAxis (axis : Axis) : M F β σ Unit := do
  let trigger := e.cfg.homingTrigger axis
  if trigger = .none then pure ()
  else
    let speed := if e.A.lt e.A.zero (e.cfg.homeFeedrate axis) then e.cfg.homeFeedrate axis
      else e.A.ofInt 15
    halt e
    let _ ← moveToEndstop e axis speed trigger
    plannerExternal e axis (homePos e axis)

/-- The loop of `go_home`, lines 1054-1058. -/
def homeAll (axes : Axis → Bool) : List (Option Axis) → M F β σ Unit
  | [] => pure ()
  | none :: rest => homeAll axes rest
  | some a :: rest => do
    if axes a then homeAxis e a
    homeAll axes rest

/-- `go_home`, lines 1051-1061. -/
def goHome (axes : Axis → Bool) : M F β σ Unit := do
  halt e
  if (← clearEstop e) then
    homeAll e axes e.cfg.homeOrder
    if (← checkForEstop e) then pure ()
    else modify fun s => { s with homing := .homed }

/-- `GetCurrentPosition` of the planner for one axis, planner.cc 893-908. -/
def currentPosition (s : State F β σ) (axis : Axis) : F :=
  match e.queue.position s.planner.backend with
  | none => e.A.zero
  | some pos =>
    if e.A.eq (e.plan.stepsPerMm axis) e.A.zero then e.A.zero
    else e.A.div (e.A.ofInt (getAxisSteps s.hw axis pos)) (e.plan.stepsPerMm axis)

/-- `probe_axis`, lines 1063-1095; the result is the probed position. -/
def probeAxis (feed : F) (axis : Axis) : M F β σ (Option F) := do
  if !(← allowedHoming e) then return none
  else
    if !(← allowedEstop) then return none
    else
      halt e
      let s ← get
      -- `HasProbeSwitch`, hardware-mapping.h 248-251
      if ¬ (axis = 2 ∧ s.hw.probeInput ≠ 0) then
        say .noProbe
        return none
      else
        let pos := currentPosition e s axis
        let dir : Int := if e.cfg.homingTrigger axis = .min then 1 else -1
        let feed := if e.A.le feed e.A.zero then e.A.ofInt 20 else feed
        let maxSteps := e.A.toInt (e.A.abs (e.A.mul (e.cfg.moveRange axis) (e.plan.stepsPerMm axis)))
        let total ← moveToProbe e axis feed dir maxSteps
        let newPos := e.A.add pos (e.A.div (e.A.ofInt total) (e.plan.stepsPerMm axis))
        plannerExternal e axis newPos
        return some newPos

/-- The events of the parser.
The methods of `GCodeParser::EventReceiver`, gcode-parser.h 181-318, overridden at gcode-machine-control.cc 85-106. -/
inductive Event (F : Type) where
  | start
  | finished (endOfStream : Bool)
  | idle (first : Bool)
  | waitForStart
  | home (axes : Axis → Bool)
  | probe (feed : F) (axis : Axis)
  | speedFactor (factor : F)
  | fan (speed : F)
  | dwell
  | motors (enable : Bool)
  | coordinated (feed : F) (pos : Axis → F)
  | rapid (feed : F) (pos : Axis → F)
  | unprocessed (letter : Char) (value : F) (args : List (Char × F))

/-- What a method answers to the parser. Results of the methods at gcode-machine-control.cc 85-106. -/
inductive Answer (F : Type) where
  | unit
  | bool (b : Bool)
  | probed (p : Option F)
  | rest (args : Option (List (Char × F)))

/-- One event. The methods overridden at gcode-machine-control.cc 85-106. -/
def handle : Event F → M F β σ (Answer F)
  | .start => do gcodeStart e; return .unit
  | .finished eos => do gcodeFinished e eos; return .unit
  | .idle first => do inputIdle e first; return .unit
  | .waitForStart => do waitForStart e; return .unit
  | .home axes => do goHome e axes; return .unit
  | .probe feed axis => do return .probed (← probeAxis e feed axis)
  | .speedFactor f => do setSpeedFactor e f; return .unit
  | .fan v => do setFanspeed e v; return .unit
  | .dwell => do dwell e; return .unit
  | .motors on => do motorsEnable e on; return .unit
  | .coordinated feed pos => do return .bool (← coordinatedMove e feed pos)
  | .rapid feed pos => do return .bool (← rapidMove e feed pos)
  | .unprocessed l v args => do return .rest (← special e l v args)

/-- The state after a sequence of events. The parser calls the methods in turn; no code of its own. -/
def run : State F β σ → List (Event F) → Option (State F β σ)
  | s, [] => some s
  | s, ev :: evs => (handle e ev s).bind fun r => run r.2 evs

end
end BeagleG.Machine
