import Verif.Setup.MachineProps
import Verif.Setup.IntProps
import Verif.Setup.HardwareProps
import Verif.Config.ExprProps
import Verif.Planner.Props
/-!
# A configuration file as an example for C61-C63
-/
namespace BeagleG.Setup

open Text Config Hardware
open Planner (intArith)

/-- Whole numbers. -/
def exNum : Numbers Nat Int := { exNumbers with toFloat := Int.ofNat, negative := fun v => v < 0 }

/-- A machine with one axis and a probe. -/
def exFile : List Byte := ascii ("[General]\nhome-order=XZ # x\n[ X-Axis ]\nsteps-per-mm=9\nSteps-per-mm = 320/20\n" ++
  "max-feedrate=200\nhome-pos=min\n[other]\nwhatever=1\n")

/-- The same for the hardware. -/
def exHwFile : List Byte := ascii ("[Motor-Mapping]\nmotor_2=axis:X\nmotor_3=axis:-X\n[aux-mapping]\nAUX_16=LED\n" ++
  "[switch-mapping]\nswitch_1=min_X, active:high\nswitch_4=probe\n")

example : (fun r : Bool × Machine Int => (r.1, r.2.stepsPerMm 0, r.2.stepsPerMm 1, r.2.homingTrigger 0, r.2.homeOrder))
    (configureMachine exNum (Machine.default intArith) exFile) = (true, 16, 0, .min, ascii "XZ") := by decide +kernel

/-- Unknown names, malformed values and a second home position are refused. -/
example : (configureMachine exNum (Machine.default intArith) (ascii "[x-axis]\nrnage = 1")).1 = false ∧
    (configureMachine exNum (Machine.default intArith) (ascii "[x-axis]\nrange = 1x")).1 = false ∧
    (configureMachine exNum (Machine.default intArith) (ascii "[x-axis]\nhome-pos=min\nhome-pos=min")).1 = false := by
  refine ⟨?_, ?_, ?_⟩ <;> decide +kernel

example : (fun r : Bool × Hw Int => (r.1, r.2.axisToDriver 0, r.2.driverFlip 2, r.2.minEndstop 0, r.2.triggerLevel 0,
      r.2.probeInput, r.2.auxOf .led))
    (configureHw cramps (Hw.blank Int) exHwFile) = (true, 6#8, -1, 1, true, 4, 32768#16) := by decide +kernel

end BeagleG.Setup
