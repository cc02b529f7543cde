import Verif.Setup.Example
import Verif.Conformance.Config
import Verif.Machine.ProbeExample
import Verif.Spindle.Setup

/-!
# The configuration files that come with the program

`/repo/sample.config`, `/repo/hardware/BUMPS/bumps.config` and `/repo/hardware/VGEN5/vgen5.config`, copied line by line,
with the pins of the capes. Numbers are fractions (in the source `float` and `double`).
-/
namespace BeagleG.Setup.Shipped

open BeagleG BeagleG.Setup BeagleG.Text BeagleG.Hardware


/-- A text made of lines. Simplification for the copies below: the files themselves are bytes. -/
def fileText (lines : List String) : List Byte := ([10] : List Byte).intercalate (lines.map ascii)

/-- /repo/sample.config, all lines (the last one has no newline). -/
def sample : List Byte := fileText [
  "# -*- conf -*-",
  "# Some annotated BeagleG sample configuration file.",
  "# Adapt to your own needs.",
  "# You can configure logical axes X, Y, Z, E, A, B, C, U, V, W",
  "# Pass to machine-control with -c <config-file> option.",
  "##",
  "",
  "[ General ]",
  "# Homing order. For 3D printers, you'd probably home Z last, while CNC machines",
  "# typically home Z first.",
  "home-order        = XYZ",
  "require-homing    = yes  # Require homing (G28) is executed before first move.",
  "range-check       = yes  # Check that axes are within range. Dangerous if no.",
  "",
  "# It is possible to clamp movements that would leave the machine cube to",
  "# range; that way the range-check will not trigger for them, but movements don't",
  "# will not end up where they were intended to be in that case, so configure",
  "# with care. Typically it makes most sense in 2.5D applications where the",
  "# Z-axis is less important. Thus this feature is limited to the Z-axis",
  "#clamp-to-range    = Z",
  "",
  "auto-motor-disable-seconds = 120  # Switch off motors after 2min of inactivity.",
  "",
  "# -- Logical axis configuration",
  "",
  "[ X-Axis ]",
  "# The step motor has 200 full steps per turn. We do 32x microstepping",
  "# One turn of a gear moves the toothed belt 60mm. The configuration understands",
  "# a simple division expression:",
  "steps-per-mm     = 32 * 200 / 60",
  "max-feedrate     = 400   # mm/s",
  "max-acceleration = 2000  # mm/s^2",
  "range            = 300   # mm - the travel of this axis",
  "home-pos         = min   # This is where the home switch is. At min position.",
  "",
  "[ Y-Axis ]",
  "# Another example: each turn moves the ACME screw 1/4 inch on 8x microstepping",
  "steps-per-mm     = 8*200 / (1/4 * 25.4)",
  "max-feedrate     = 400  # mm/s",
  "max-acceleration = 800  # mm/s^2",
  "range            = 300  # mm",
  "home-pos         = min",
  "",
  "[ Z-Axis ]",
  "# Our Z-axis; here, our screw only moves 2mm per turn.",
  "steps-per-mm     = 32*200 / 2",
  "max-feedrate     =   4  # mm/s  - our Z-axis is not very fast.",
  "max-acceleration =  30  # mm/s^2",
  "range            = 120  # mm",
  "home-pos         = min  # For CNC machines, that typically would be max on Z",
  "",
  "[ A-Axis ]",
  "# The A-Axis is a rotational axis, so instead of steps-per-mm, we give",
  "# steps per degree. 200 full steps, 32x microstepping per 360 degrees.",
  "steps-per-degree = 32*200 / 360",
  "max-feedrate     = 720  # degree/s",
  "max-acceleration = 1000 # degree/s^2",
  "",
  "[ E-Axis ]",
  "# 3D printers have an 'E'-xtrusion axis.",
  "steps-per-mm     = 32*200 / 30",
  "max-feedrate     = 15",
  "max-acceleration = 100",
  "",
  "# Hardware mapping; which axes and switches are connected to which logical units.",
  "",
  "[ Motor-Mapping ]",
  "# If you don't happen to have a motor-mapping section, motors are assigned",
  "# for the configured axis above in sequence XYZEABCUVW",
  "motor_1 = axis:x   # X axis connected to motor 1",
  "# We double up the y axis by connecting it to two motor driver, 2 and 3.",
  "# One of it shall be mirrored.",
  "motor_2 = axis:y",
  "motor_3 = axis:-y  # negative, because we mirror this motor.",
  "motor_4 = axis:z",
  "motor_5 = axis:e",
  "motor_6 = axis:a",
  "",
  "[ Switch-Mapping ]",
  "# These switches trigger on high: when activated, they generate a pos level.",
  "switch_1 = active:high min_x",
  "switch_2 = active:high min_y",
  "switch_3 = active:high min_z",
  "",
  "# You can have multiple switches wired together in case you only have a limited",
  "# number of inputs or want to simplify wiring (put them electrically in series",
  "# or parallel to get a logical 'or' to reach the switching level if either",
  "# of these trigger). It is probably a good idea to have home-switches independent",
  "# of each other, while lumping together all the limit switches (only used for",
  "# exceptions anyway) can simplify wiring.",
  "#switch_4 = active:high max_y max_y",
  "",
  "# An example of a switch that triggers on low.",
  "#switch_5 = active:low max_z",
  "",
  "# In the beagleg-pin-mapping.h, additional AUX pins are chosen that can",
  "# be connected to various functions here. Valid logical names are one of",
  "# mist, flood, vacuum, spindle, spindle-speed, spindle-dir, cooler, case-lights,",
  "# fan, hotend, heatedbed, led, atx-power, estop.",
  "# All of these can be GCode controlled with various G or M codes (See G-code.md).",
  "[ Aux-Mapping ]",
  "aux_1 = mist",
  "aux_2 = flood",
  "aux_3 = spindle",
  "aux_12 = atx-power",
  "",
  "# Some of these functions make more sense with an analog output via pulse",
  "# width modulation (PWM) instead of a switching AUX output.",
  "[ PWM-Mapping ]",
  "pwm_1 = spindle-speed",
  "",
  "[ Spindle ]",
  "type = simple-pwm     # Other supported type: pololu-smc",
  "max-rpm = 4800        # Maximum speed at full PWM. See also PWM-mapping section.",
  "pwr-delay-msec = 400",
  "on-delay-msec = 100",
  "off-delay-msec = 100",
  "allow-ccw = false"]

/-- /repo/hardware/BUMPS/bumps.config, all lines. -/
def bumpsFile : List Byte := fileText [
  "[ General ]",
  "home-order        = ZXY",
  "require-homing    = yes  # require homing after first switch on",
  "range-check       = yes  # Dangerous if no",
  "auto-motor-disable-seconds = 10",
  "",
  "[ X-Axis ]",
  "steps-per-mm     = 32*200 / 60",
  "max-feedrate     = 450",
  "max-acceleration = 800",
  "range            = 355",
  "home-pos         = min",
  "",
  "[ Y-Axis ]",
  "steps-per-mm     = 32*200 / 60",
  "max-feedrate     = 450",
  "max-acceleration = 800",
  "range            = 335",
  "home-pos         = min",
  "",
  "[ Z-Axis ]",
  "steps-per-mm     = 32*200 / 2",
  "max-feedrate     =   4",
  "max-acceleration = 100",
  "range            =  95",
  "home-pos         = max",
  "",
  "# -- hardware mapping",
  "",
  "[ Motor-Mapping ]",
  "motor_1 = axis:z",
  "#motor_2 = axis:e",
  "motor_3 = axis:y",
  "#motor_4 = axis:a",
  "motor_5 = axis:x",
  "",
  "[ Switch-Mapping ]",
  "switch_1 = active:low min_x",
  "switch_2 = active:low min_y",
  "switch_3 = active:low max_z",
  "",
  "[ Aux-Mapping ]",
  "aux_1 = vacuum",
  "aux_2 = fan",
  "",
  "[ Pwm-Mapping ]",
  "pwm_2 = spindle-speed",
  ""]

/-- /repo/hardware/VGEN5/vgen5.config, all lines. -/
def vgen5File : List Byte := fileText [
  "# -*- conf -*-",
  "# Sample configuration for the VGEN5 cape",
  "##",
  "",
  "[ General ]",
  "home-order                 = ZXY           # CNC machine, home Z first then XY",
  "require-homing             = yes           # Require homing (G28) is executed before first move",
  "range-check                = yes           # Check that axes are within range",
  "enable-pause               = yes           # Enable pause switch detection",
  "auto-motor-disable-seconds = 120           # Switch off motors after 2 minutes of inactivity",
  "auto-fan-disable-seconds   = 240           # Switch off fan 4 minutes after motors",
  "auto-fan-pwm               = 5             # Enable fan at a PWM of 5 when a GCode program is started",
  "",
  "[ X-Axis ]",
  "steps-per-mm     = 200 * 16 * 4 / 25.4     # 16 microsteps 1/4 pitch screw",
  "max-feedrate     = 100                     # mm/s (~3.9 in/sec)",
  "max-acceleration = 381                     # mm/s^2 (~15 in/sec^2)",
  "range            = 6.5 * 25.4              # mm (6.5 in)",
  "home-pos         = min                     # home at X-",
  "",
  "[ Y-Axis ]",
  "steps-per-mm     = 200 * 16 * 4 / 25.4     # 16 microsteps 1/4 pitch screw",
  "max-feedrate     = 100                     # mm/s (~3.9 in/sec)",
  "max-acceleration = 381                     # mm/s^2 (~15 in/sec^2)",
  "range            = 7.5 * 25.4              # mm (7.5 in)",
  "home-pos         = min                     # home at Y-",
  "",
  "[ Z-Axis ]",
  "steps-per-mm     = 200 * 16 * 4 / 25.4     # 16 microsteps 1/4 pitch screw",
  "max-feedrate     = 100                     # mm/s (~3.9 in/sec)",
  "max-acceleration = 381                     # mm/s^2 (~15 in/sec^2)",
  "range            = 0.75 * 25.4             # mm (0.75 in)",
  "home-pos         = max                     # home at Z+",
  "",
  "[ Motor-Mapping ]",
  "motor_1 = axis:x                           # X axis",
  "motor_2 = axis:-y                          # Y axis",
  "motor_3 = axis:-z                          # Z axis",
  "",
  "[ Switch-Mapping ]",
  "switch_1 = active:low min_x                # X home limit",
  "switch_2 = active:low min_y                # Y home limit",
  "switch_3 = active:low max_z                # Z home limit",
  "switch_4 = active:low min_z                # Z prox (surface detect)",
  "#switch_5 =                                # IN4",
  "#switch_6 =                                # IN5",
  "switch_7 = active:high e-stop              # n/c e-stop switch to gnd",
  "switch_8 = active:low pause                # n/o pause switch to gnd",
  "switch_9 = active:low start                # n/o start switch to gnd",
  "",
  "[ Aux-Mapping ]",
  "aux_1  = vacuum                            # Aux Vacuum (M10=on; M11=off)",
  "aux_2  = mist                              # Aux Mist Coolant (M7=on; M9=off)",
  "aux_3  = cooler                            # General Purpose Aux Output (M245=on; M246=off)",
  "#aux_4 = fan                               # Fan is GPIO controlled (M106 Sn=on (n > 0); M107=off)",
  "aux_14 = spindle-on                        # Spindle on",
  "aux_16 = led                               # User LED",
  "",
  "[ PWM-Mapping ]",
  "pwm_4 = fan                                # Fan is PWM controlled (M106 Sn=on at Sn (0-255) PWM; M107=off)",
  ""]

/-! ## The capes -/

/-- The pins of BUMPS, hardware/BUMPS/beagleg-pin-mapping.h 42-55; a pin is written as the number of its connector and
its place on it, 0 is `GPIO_NOT_MAPPED`. -/
def bumps : Cape :=
  { aux := ![911, 913, 0, 0, 0, 0, 0, 0, 0, 0, 0, 0, 0, 0, 0, 0], pwm := ![809, 810, 807, 808]
    switch := ![813, 814, 817, 0, 0, 0, 0, 0, 0], motorEnable := 912, activeHigh := false }

/-- The pins of VGEN5, hardware/VGEN5/beagleg-pin-mapping.h 35-67. -/
def vgen5 : Cape :=
  { aux := vgen5Aux, pwm := ![807, 808, 809, 810], switch := ![815, 816, 811, 812, 813, 814, 817, 818, 819]
    motorEnable := 916, activeHigh := true }

/-- The pins of Pockegotion, hardware/Pockegotion/beagleg-pin-mapping.h 33-39. -/
def pockegotion : Cape :=
  { aux := fun _ => 0, pwm := fun _ => 0, switch := ![205, 207, 209, 211, 0, 0, 0, 0, 0], motorEnable := 210
    activeHigh := false }

/-! ## The machine as it is set up -/

/-- The command line without options. machine-control.cc 356 and 399-470. -/
def noOptions (dry : Bool) : Options Rat :=
  { speedFactor := none, thresholdAngle := none, speedTuneAngle := none, synchronous := false, requireHoming := false
    dontRequireHoming := false, disableRangeCheck := false, dryRun := dry }

/-- What an axis is after `Init`: motors and switches by their numbers. -/
structure Sheet where
  axis : Nat
  steps : Rat
  feedrate : Rat
  acceleration : Rat
  range : Rat
  home : AxisTrigger
  motors : List (Nat × Int)
  minSwitch : Nat
  maxSwitch : Nat
  deriving DecidableEq

/-- All axes that have steps or motors. -/
def sheets (r : Ready Rat) : List Sheet :=
  (axes.filter fun a => r.config.stepsPerMm a ≠ 0 ∨ r.hw.axisToDriver a ≠ 0).map fun a =>
    { axis := a.val, steps := r.config.stepsPerMm a, feedrate := r.config.maxFeedrate a
      acceleration := r.config.acceleration a, range := r.config.moveRange a, home := r.config.homingTrigger a
      motors := ((List.finRange 8).filter fun m => (r.hw.axisToDriver a).getLsbD m.val).map fun m =>
        (m.val + 1, r.hw.driverFlip m)
      minSwitch := r.hw.minEndstop a, maxSwitch := r.hw.maxEndstop a }

/-- The program started with a file on a cape, with no switches active. -/
def started (cape : Cape) (dry : Bool) (file : List Byte) : Option (Ready Rat) :=
  startUp Machine.ratArith Conformance.Config.num cape (noOptions dry) file (Hw.blank Rat) (fun _ => false)

/-- All outputs, hardware-mapping.h 96-117. -/
def allOutputs : List Output :=
  [.mist, .flood, .vacuum, .spindle, .spindleSpeed, .spindleDirection, .cooler, .caseLights, .fan, .hotend, .heatedBed,
   .pointer, .led, .atxPower, .estop]

/-- The connectors of the outputs that have some, by their numbers. -/
def outputs (r : Ready Rat) : List (Output × List Nat) :=
  (allOutputs.filter fun o => r.hw.auxOf o ≠ 0).map fun o =>
    (o, ((List.range 16).filter fun i => (r.hw.auxOf o).getLsbD i).map (· + 1))

/-- The outputs with a timer, and its pin. -/
def timers (r : Ready Rat) : List (Output × Nat) :=
  (allOutputs.filter fun o => r.hw.pwmOf o ≠ 0).map fun o => (o, r.hw.pwmOf o)

/-- The section `[ General ]`. -/
structure General where
  homeOrder : List Byte
  requireHoming : Bool
  rangeCheck : Bool
  enablePause : Bool
  motorDisable : Int
  fanDisable : Int
  fanPwm : Int
  deriving DecidableEq

/-- What the machine has after `Init`. -/
def general (r : Ready Rat) : General :=
  { homeOrder := r.config.homeOrder, requireHoming := r.config.requireHoming, rangeCheck := r.config.rangeCheck
    enablePause := r.config.enablePause, motorDisable := r.config.autoMotorDisable
    fanDisable := r.config.autoFanDisable, fanPwm := r.config.autoFanPwm }

/-- The inputs that are no end switches, by their numbers, and the levels at which switches are active. -/
structure Inputs where
  estop : Nat
  pause : Nat
  start : Nat
  probe : Nat
  levels : List Bool
  deriving DecidableEq

/-- What the machine has after `Init`. -/
def inputs (r : Ready Rat) : Inputs :=
  { estop := r.hw.estopInput, pause := r.hw.pauseInput, start := r.hw.startInput, probe := r.hw.probeInput
    levels := (List.finRange 9).map r.hw.triggerLevel }

/-- All of this but for the outputs. -/
structure Described where
  sheets : List Sheet
  general : General
  inputs : Inputs
  deriving DecidableEq

/-- What the machine has after `Init`. -/
def described (r : Ready Rat) : Described := { sheets := sheets r, general := general r, inputs := inputs r }

/-- The number of motors of a cape: `MOTOR_n_STEP_GPIO` in hardware/CRAMPS/beagleg-pin-mapping.h 24-31, BUMPS 24-31,
VGEN5 23-27, Pockegotion 23-26. -/
def motorCount : List (Cape × Nat) := [(cramps, 8), (bumps, 8), (vgen5, 5), (pockegotion, 4)]

/-! ## sample.config -/

/-- The axes that sample.config describes. -/
def sampleSheets : List Sheet :=
  [⟨0, 32 * 200 / 60, 400, 2000, 300, .min, [(1, 1)], 1, 0⟩,
   ⟨1, 8 * 200 / (1 / 4 * (254 / 10)), 400, 800, 300, .min, [(2, 1), (3, -1)], 2, 0⟩,
   ⟨2, 32 * 200 / 2, 4, 30, 120, .min, [(4, 1)], 3, 0⟩,
   ⟨3, 32 * 200 / 360, 720, 1000, 0, .none, [(6, 1)], 0, 0⟩,
   ⟨9, 32 * 200 / 30, 15, 100, 0, .none, [(5, 1)], 0, 0⟩]

set_option maxHeartbeats 4000000 in
/-- **C110 (partial).** With sample.config the program starts on each of the capes, in a dry run and otherwise; the axes have
the values, the motors and the switches that are written in it. -/
theorem C110_sample_partial : ∀ c ∈ motorCount, ∀ dry : Bool,
    (started c.1 dry sample).map described =
      some ⟨sampleSheets, ⟨ascii "XYZ", true, true, false, 120, -1, 0⟩,
        ⟨0, 0, 0, 0, [true, true, true, false, false, false, false, false, false]⟩⟩ := by
  have h : ∀ c ∈ motorCount, ∀ dry ∈ [false, true], (started c.1 dry sample).map described =
      some ⟨sampleSheets, ⟨ascii "XYZ", true, true, false, 120, -1, 0⟩,
        ⟨0, 0, 0, 0, [true, true, true, false, false, false, false, false, false]⟩⟩ := by decide +kernel
  exact fun c hc dry => h c hc dry (by cases dry <;> simp)

set_option maxHeartbeats 4000000 in
/-- The outputs that are left of `aux_1 = mist`, `aux_2 = flood`, `aux_3 = spindle`, `aux_12 = atx-power` and
`pwm_1 = spindle-speed` on the capes, and pins that are used twice. -/
theorem sample_outputs :
    motorCount.map (fun c => (started c.1 false sample).map fun r => (outputs r, timers r)) =
      [some ([(.mist, [1]), (.flood, [2]), (.spindle, [3])], [(.spindleSpeed, 811)]),
       some ([(.mist, [1]), (.flood, [2])], [(.spindleSpeed, 809)]),
       some ([(.mist, [1]), (.flood, [2]), (.spindle, [3]), (.atxPower, [12])], [(.spindleSpeed, 807)]),
       some ([], [])] := by
  decide +kernel

/-- **C110.** Violation: sample.config is accepted although the machine lacks something that it asks for. On VGEN5 the
pin of the output for mist is that of the timer for the speed of the spindle; on the other capes outputs are missing, on
Pockegotion all. -/
theorem C110_outputs :
    (∃ r, started vgen5 false sample = some r ∧ (Output.mist, [1]) ∈ outputs r ∧
      (Output.spindleSpeed, vgen5.aux 0) ∈ timers r) ∧
    (∀ c, c = cramps ∨ c = bumps ∨ c = pockegotion →
      ∃ r, started c false sample = some r ∧ ∀ x ∈ outputs r, x.1 ≠ .atxPower) ∧
    (∃ r, started pockegotion false sample = some r ∧ outputs r = [] ∧ timers r = []) := by
  have h := sample_outputs
  simp only [motorCount, List.map_cons, List.map_nil, List.cons.injEq, Option.map_eq_some_iff, Prod.mk.injEq] at h
  obtain ⟨⟨r1, e1, o1, t1⟩, ⟨r2, e2, o2, t2⟩, ⟨r3, e3, o3, t3⟩, ⟨r4, e4, o4, t4⟩, -⟩ := h
  refine ⟨⟨r3, e3, ?_, ?_⟩, ?_, ⟨r4, e4, o4, t4⟩⟩
  · rw [o3]; decide
  · rw [t3]; decide
  · rintro c (rfl | rfl | rfl)
    · exact ⟨r1, e1, by rw [o1]; decide⟩
    · exact ⟨r2, e2, by rw [o2]; decide⟩
    · exact ⟨r4, e4, by rw [o4]; decide⟩

/-- **C110.** Violation: what the motors of the cape are does not matter for the mapping of motors, whatever is written there (a
switch that is not there is an error, an output that is not there at least gives a message). -/
theorem C110_motors {F : Type} (c c' : Cape) (h : Hw F) (name value : List Byte) :
    hwOption c h (ascii "motor-mapping") name value = hwOption c' h (ascii "motor-mapping") name value := by
  have e1 : ascii "motor-mapping" ≠ ascii "aux-mapping" := by decide +kernel
  have e2 : ascii "motor-mapping" ≠ ascii "pwm-mapping" := by decide +kernel
  simp only [hwOption, if_neg e1, if_neg e2, if_true]

/-- **C110.** So with sample.config there are capes on which the program starts, but an axis with steps has no motor: on VGEN5
axis A, on Pockegotion A and E. On the other two all axes have their motors. -/
theorem C110_missing : ∀ c ∈ motorCount, ∃ r, started c.1 false sample = some r ∧
    ((sheets r).filter fun s => s.motors.all fun m => decide (c.2 < m.1)).map (·.axis) =
      (if c.2 = 8 then [] else if c.2 = 5 then [3] else [3, 9]) := by
  intro c hc
  have h := C110_sample_partial c hc false
  rw [Option.map_eq_some_iff] at h
  obtain ⟨r, e, h⟩ := h
  have h : sheets r = sampleSheets := congrArg Described.sheets h
  refine ⟨r, e, ?_⟩
  rw [h]
  simp only [motorCount, List.mem_cons, List.not_mem_nil, or_false] at hc
  rcases hc with rfl | rfl | rfl | rfl <;> decide +kernel

/-- **C110.** The section for the spindle is accepted, too. -/
theorem C110_spindle : configureSpindle .default sample =
    (true, { type := ascii "simple-pwm", port := ascii "/dev/ttyACM0", maxRpm := 4800, maxAccel := 0, maxDecel := 0,
             pwrDelay := 400, onDelay := 100, offDelay := 100, allowCcw := false }) := by
  decide +kernel

/-! ## The files of the capes -/

/-- **C110.** With bumps.config the program starts on BUMPS, with all that is written in the file. -/
theorem C110_bumps (dry : Bool) :
    (started bumps dry bumpsFile).map described =
      some ⟨[⟨0, 32 * 200 / 60, 450, 800, 355, .min, [(5, 1)], 1, 0⟩, ⟨1, 32 * 200 / 60, 450, 800, 335, .min, [(3, 1)], 2, 0⟩,
          ⟨2, 32 * 200 / 2, 4, 100, 95, .max, [(1, 1)], 0, 3⟩],
        ⟨ascii "ZXY", true, true, false, 10, -1, 0⟩, ⟨0, 0, 0, 0, List.replicate 9 false⟩⟩ ∧
    (started bumps dry bumpsFile).map (fun r => (outputs r, timers r)) =
      some ([(.vacuum, [1]), (.fan, [2])], [(.spindleSpeed, bumps.pwm 1)]) := by
  cases dry <;> decide +kernel

/-- The axes that vgen5.config describes. -/
def vgen5Sheets : List Sheet :=
  [⟨0, 200 * 16 * 4 / (254 / 10), 100, 381, 65 / 10 * (254 / 10), .min, [(1, 1)], 1, 0⟩,
   ⟨1, 200 * 16 * 4 / (254 / 10), 100, 381, 75 / 10 * (254 / 10), .min, [(2, -1)], 2, 0⟩,
   ⟨2, 200 * 16 * 4 / (254 / 10), 100, 381, 75 / 100 * (254 / 10), .max, [(3, -1)], 4, 3⟩]

set_option maxHeartbeats 2000000 in
/-- **C110.** With vgen5.config the program starts on VGEN5, with all that is written in the file. -/
theorem C110_vgen5 (dry : Bool) :
    (started vgen5 dry vgen5File).map described =
      some ⟨vgen5Sheets, ⟨ascii "ZXY", true, true, true, 120, 240, 5⟩,
        ⟨7, 8, 9, 0, [false, false, false, false, false, false, true, false, false]⟩⟩ ∧
    (started vgen5 dry vgen5File).map (fun r => (outputs r, timers r)) =
      some ([(.mist, [2]), (.vacuum, [1]), (.spindle, [14]), (.cooler, [3]), (.led, [16])], [(.fan, vgen5.pwm 3)]) := by
  cases dry <;> decide +kernel

/-- **C110.** In these two the cape has all motors, no pin is used twice, and the files have no section for a spindle. -/
theorem C110_complete :
    (∀ s ∈ vgen5Sheets, ∀ m ∈ s.motors, m.1 ≤ 5) ∧
    (∀ o ∈ [2, 1, 14, 3, 16], ∀ (h : o - 1 < 16), vgen5.aux ⟨o - 1, h⟩ ≠ 0 ∧ vgen5.aux ⟨o - 1, h⟩ ≠ vgen5.pwm 3) ∧
    configureSpindle .default bumpsFile = (true, .default) ∧ configureSpindle .default vgen5File = (true, .default) := by
  refine ⟨by decide +kernel, by decide +kernel, by decide +kernel, by decide +kernel⟩

/-- The file of one cape is not fit for the other: BUMPS has no fourth switch. -/
example : started bumps true vgen5File = none := by
  have h : (started bumps true vgen5File).isNone = true := by decide +kernel
  exact Option.isNone_iff_eq_none.1 h

end BeagleG.Setup.Shipped
