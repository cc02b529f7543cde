import Verif.Machine.Model
/-!
# Model of the reports of `/repo/src/gcode-machine-control.cc` and of the status server

M114 (position), M119 (switches), and the two queries of `run_status_server`, machine-control.cc 262-340.

Simplifications:
* The text is the value that is formatted; `%.3f` is left out.
* The origin that has been told by `inform_origin_offset`, and its name, are kept apart from `State`, because nothing
  else depends on them but the wording of error messages (lines 838-868).
* `GetPhysicalStatus` shortens the history of the motor operations; this is not visible (C27).
-/
namespace BeagleG.Machine

open Planner (Axis Motor Arith)
open Hardware

variable {F β σ N : Type}

/-- `coordinate_display_origin_` and `coordinate_display_origin_name_`, lines 151-152; `N` are the names. -/
structure Display (F N : Type) where
  origin : Axis → F
  name : N

/-- `inform_origin_offset`, lines 368-372. -/
def Display.inform (_ : Display F N) (o : Axis → F) (n : N) : Display F N := ⟨o, n⟩

/-- What is said about the position according to the homing state, lines 729-741. -/
inductive Confidence where
  | unsure
  | lower
  | confident
  deriving DecidableEq

/-- gcode-machine-control.cc 729-741. -/
def confidence : Homing → Confidence
  | .never => .unsure
  | .unpowered => .lower
  | .homed => .confident

/-- The line printed by M114. -/
structure PositionLine (F N : Type) where
  x : F
  y : F
  z : F
  e : F
  absX : F
  absY : F
  absZ : F
  name : N
  confidence : Confidence

/-- An end of an axis, or the probe. gcode-machine-control.cc 743-779. -/
inductive Place where
  | min
  | max
  | probe
  deriving DecidableEq

/-- An item of the line printed by M119; `home` is not printed for the probe. -/
structure SwitchItem where
  axis : Axis
  place : Place
  home : Bool
  triggered : Bool
  deriving DecidableEq

/-- `EStopState`, gcode-machine-control.h 83. -/
inductive StopStatus where
  | none
  | soft
  | hard
  deriving DecidableEq

/-- `PauseState` and `StartState`, gcode-machine-control.h 84-85. -/
inductive InputStatus where
  | none
  | active
  | inactive
  deriving DecidableEq

/-- The answer to `s`: emergency stop, pause, start, homing (`no`, `maybe`, `yes`), motors. machine-control.cc 301-337. -/
structure Status where
  estop : StopStatus
  pause : InputStatus
  start : InputStatus
  homed : Homing
  motors : Bool
  deriving DecidableEq

section
variable (e : Env F β σ)

/-- `GetCurrentPosition`, lines 698-703; the answer to `p` are the first three axes. -/
def shownPosition (d : Display F N) (s : State F β σ) (a : Axis) : F :=
  e.A.sub (currentPosition e s a) (d.origin a)

/-- `mprint_current_position`, lines 705-741; axis 9 is E. -/
def positionLine (d : Display F N) (s : State F β σ) : PositionLine F N :=
  { x := e.A.sub (currentPosition e s 0) (d.origin 0)
    y := e.A.sub (currentPosition e s 1) (d.origin 1)
    z := e.A.sub (currentPosition e s 2) (d.origin 2)
    e := e.A.sub (currentPosition e s 9) (d.origin 9)
    absX := currentPosition e s 0
    absY := currentPosition e s 1
    absZ := currentPosition e s 2
    name := d.name
    confidence := confidence s.homing }

/-- `AvailableAxisSwitch`, hardware-mapping.cc 315-325, for one end. -/
def available (h : Hw F) (axis : Axis) : Place → Bool
  | .min => !h.initialized || h.minEndstop axis ≠ 0
  | .max => !h.initialized || h.maxEndstop axis ≠ 0
  -- `HasProbeSwitch`, hardware-mapping.h 248-251
  | .probe => axis = 2 && h.probeInput ≠ 0

/-- One item, lines 749-772. -/
def switchItem (axis : Axis) (p : Place) : M F β σ (List SwitchItem) := do
  if available (← get).hw axis p then
    match p with
    | .min =>
      let t ← testAxis e axis .min
      return [⟨axis, .min, e.cfg.homingTrigger axis = .min, t⟩]
    | .max =>
      let t ← testAxis e axis .max
      return [⟨axis, .max, e.cfg.homingTrigger axis = .max, t⟩]
    | .probe =>
      let t ← testProbe e
      return [⟨axis, .probe, false, t⟩]
  else return []

/-- The items of some places. gcode-machine-control.cc 743-779. -/
def switchItems : List (Axis × Place) → M F β σ (List SwitchItem)
  | [] => pure []
  | (a, p) :: rest => do
    let l ← switchItem e a p
    return l ++ (← switchItems rest)

/-- All places in the order of the loop, line 746. -/
def places : List (Axis × Place) := (List.finRange 10).flatMap fun a => [(a, .min), (a, .max), (a, .probe)]

/-- `mprint_endstop_status`, lines 743-779; no item: `This machine has no endstops configured`. -/
def switchLine : M F β σ (List SwitchItem) := switchItems e places

/-- `GetEStopStatus`, lines 663-670. -/
def estopStatus : M F β σ StopStatus := do
  if (← inEstop) then
    if (← testEStop e) then return .hard
    else return .soft
  else return .none

/-- `GetPauseStatus`, lines 672-679. -/
def pauseStatus : M F β σ InputStatus := do
  if (← get).hw.pauseInput ≠ 0 then
    if (← testPause e) then return .active
    else return .inactive
  else return .none

/-- `GetStartStatus`, lines 681-688. -/
def startStatus : M F β σ InputStatus := do
  if (← get).hw.startInput ≠ 0 then
    if (← testStart e) then return .active
    else return .inactive
  else return .none

/-- The answer to `s`, machine-control.cc 299-337, with `GetHomeStatus` and `GetMotorsEnabled`, lines 690-696. -/
def status : M F β σ Status := do
  let estop ← estopStatus e
  let pause ← pauseStatus e
  let start ← startStatus e
  let s ← get
  return ⟨estop, pause, start, s.homing, s.hw.motorsEnabled⟩

end
end BeagleG.Machine
