# A machine-checked model of BeagleG

This directory holds a Lean 4 model of the logic of BeagleG (`/repo`, C++ and
PRU assembler) and proofs of the properties listed in `properties.jsonl`.

* `lean/Verif/<Topic>/Model.lean` – definitions that mirror the code; each
  carries the file and lines it models and every simplification made.
* `lean/Verif/<Topic>/Lemmas.lean` – helper lemmas.
* `lean/Verif/<Topic>/Props.lean` – the independent specification and the
  property theorems (`C07_...`), each next to an `example` showing that a
  concrete case meets its hypotheses.
* `lean/Verif/Conformance/*.lean` – the expectations of the unit tests of the
  project, checked against the model. These are tests: they show that the
  models agree with what the authors of the code wrote down, and prove nothing.
  All tests of the project that run without hardware are there. Where exact
  fractions are enough the kernel evaluates them; the tests of planner, arcs
  and machine control are evaluated by the compiler with the floating point
  numbers of the machine (`#guard`), and no theorem depends on those.
* `MANIFEST.json` – which theorems support which property, and its status.
* `seeded/LOG.jsonl` – deliberate faults put into a scratch copy of the model,
  and which theorems noticed.

## Trusted base

1. The Lean 4.33.0 kernel and the three standard axioms `propext`,
   `Classical.choice`, `Quot.sound`. No axioms are added, no `sorry`, no
   `native_decide`, no `bv_decide`.
2. The reading of `/repo`. The C++ and the PRU assembler are not executed or
   parsed; the link is the per-definition citation of source lines.
3. The modelling conventions below.
4. The semantics of the instructions of the real-time unit (`Firmware/Isa`),
   written down from its reference guide, which is not part of the repository.
5. What the C library and the system do, as far as a property needs it: `getopt_long`,
   `strtod`-like conversions, `select`, signals. It is stated where it is used.

## Modelling conventions

* **Integers.** `int`, `unsigned`, `size_t` are `Int`/`Nat` unless the property
  is about wrap-around. Where the width matters (firmware registers, step
  counters, loop counts, PWM registers) the model uses explicit `mod 2^n` or
  `BitVec`, and the theorem states the range under which it holds.
* **Floating point.** Never modelled bit by bit. Either the quantity is an
  abstract parameter (a theorem then holds for *every* rounding behaviour, e.g.
  the split of a segment in acceleration/travel/deceleration in C29), or the
  computation is done in exact arithmetic (ordered field / `ℚ` / `ℝ`) and the
  theorem says so (C32). Overflow, NaN and rounding are outside the model then.
* **Undefined behaviour and failed `assert`** are a distinct outcome (`none`, or
  a constructor such as `oob`), never a default value.
* **Loops** are structural recursion or recursion with a fuel argument that is
  proved sufficient.
* **External calls** (`read`, `select`, event receiver, GPIO, clock, hardware
  backend) are parameters or recorded as events in a trace. A theorem
  quantifies over all their behaviours unless it states an assumption.
* **Concurrency** (host CPU and PRU sharing memory) is interleaving of atomic
  steps of the two programs over sequentially consistent memory. Each PRU
  burst read/write and each host store to a slot is split at the granularity
  the protocol depends on (payload, then state byte).
* **Characters** are unsigned bytes as on the target (ARM), locale "C".
* **Logging** is left out of the other models, except where a message *is* the observable effect; the functions themselves are C98.

## Comments and citations

Definitions that model code cite file and lines in `/repo`. The remaining definitions model no code of their
own and have no citation: specifications a theorem is stated with, invariants and measures of proofs
(`Parser/Steps`, `Parser/Block`, `Expr/Sound`, `Planner/Exact*`, `Machine/Trace`, the files of `Firmware` other than
`Program` and `Capes`), examples, and the processor of the PRU (`Firmware/Isa`, from its reference guide, not in
the repository).

## What is not modelled

`libprussdrv` and the UIO drivers of the kernel (reduced to the effects used in
C71), real time of the host (the cycles of the
firmware are modelled, C64 and C70), cache
and memory ordering effects between CPU and PRU, float rounding, libc functions
(`strtod`, `snprintf`) beyond the contract stated at their use.

## Plan per property

| Id | Model | Proof idea |
|----|-------|------------|
| C01 | `RingDeque`: array, two cursors modulo CAPACITY | refinement to `List`; induction over operations |
| C02–C04 | `LineBuf`: byte buffer with three positions, `read` as parameter | refinement to a one-character-at-a-time line splitter; invariant on the positions; negation for mixed endings and for `IncompleteLine` on a full buffer |
| C05 | `FdMux`: handler maps, ready sets | invariant and exact call trace of one cycle; induction over cycles |
| C06 | `Text/StringProps` | algebraic laws on lists |
| C07 | `Text/LexerProps`: trie with longest match | trie lookup = maximum over the keyword set |
| C08, C09 | `Expr`: stack machine with MAX_STACK slots | refinement to a grammar evaluator; bounded stack invariant; negation for unary minus |
| C10 | `Parser/ParamProps` | refinement to a total map |
| C11 | `ParamFile` save/load | round trip, decimal printing as parameterised codec; negation for a negative key |
| C12 | `ParamFile` crash model | explicit list of file-system steps, all prefixes |
| C13–C15 | `Parser/{Move,Coord,Curve}Props`: coordinate systems and moves | refinement to an abstract origin function; negation for continuation lines and refused arc segments |
| C16 | `Parser/CurveProps` | trace of emitted segments, geometry as parameter |
| C17 | `LineBuf/StreamerProps` on top of the line reader | composition with C02 |
| C18 | `Parser/ParamProps`: reading past the NUL is a fault | every step stays within a set of texts; negation for an open comment |
| C19–C21, C28 | `StepGen`, `MotorOps` | integer arithmetic: telescoping sums, rising edges of an accumulator |
| C22 | `Idiv` | loop invariant of restoring division in 32-bit arithmetic |
| C23–C26, C51 | `PruQueue`: two-party transition system | inductive invariant over all interleavings; a measure for the wake-up |
| C27 | `MotorOps/Status*`: shadow queue against a backend that tracks the progress | refinement to the list of outstanding requests; bounds on the interpolation |
| C29, C30, C47, C52 | `Planner`: the whole of `planner.cc` over an arithmetic without laws; `Machine/AssertProps` for the calls made by the machine control | telescoping sum invariant; buffer length invariant; negation for look-ahead 1024; invariant of `path_halted_` under aborts |
| C31, C32, C53 | `Planner/Exact*`: the same model, arithmetic = ordered field with square roots | invariant of backward and forward pass; instance for the reals |
| C33–C38, C48 | `Machine`: `gcode-machine-control.cc` as functions on a state that contains planner, motor backend and hardware | every method decomposed once into labelled steps (`Trace`), then invariants over single steps and histories of events; negations in `Machine/Example` |
| C60 | `Machine/HomingProps` | induction over the loops of `move_to_endstop` with the readings of the switches as parameter; negation shared with C36 |
| C39–C41 | `Hardware` | refinement to functions; induction over sequences |
| C42, C43, C57 | `Spindle`, `Pwm` | traces of the acts; register arithmetic; negation for reverse direction of the serial controller |
| C44, C45 | `Config/{Props,ExprProps}` | round trip of rendered files; answer of the parser for every text; grammar of expressions, completeness and exact exceptions; negation for malformed expressions |
| C61 | `Setup`: the readers of the configuration file on top of C44 | a reader that treats each line alike is a fold over the lines of its sections (`FileProps`); then last line wins |
| C62 | `Setup/{HardwareProps,MappingProps}`: lines of the mapping sections as a type `Line` | one line at a time (`C62_line`), then the fold; connection checked when the word is read; negation for the emergency stop |
| C63 | `Setup/{InitProps,StartProps,RunProps}`: `Init` and the start of `main` | the loops as conditions on all axes (`Acceptable`); result computed (`C63_result`); then what C60 and C35 assume about the start; negation for the acceleration |
| C46 | `EndToEnd`: composition of C29, C19, C20, C21, C23, C25, C40, C58, C64 | the planner run with the motor operations as backend is simulated by the run with a recorder; chaining the theorems |
| C64 | `MotorOps/{Timing,RampTiming,TimingProps,SplitTiming}`, `StepGen/RampProps` | host: series index and cycle count bounded by exact inequalities (`RampOk`); firmware: the integer recurrence compared with an exact one that has a closed square (`idealUp_sq`, `idealDown_sq`); negation for accelerations from a speed |
| C65 | `Parser/ArcProps` | the points in closed form over ℝ, compared with a rotation about the normal axis (right-hand rule); `atan2` is the argument of a complex number |
| C66 | `Parser/SplineProps` | the points as Bernstein polynomials over ℝ; hull, slope and Lipschitz bound of the cubic; exact deviation of G5.1 from the quadratic curve |
| C67 | `Server`: `run_gcode_server`, `run_status_server` and the streamer on the event loop of C16, with descriptor table and system calls as parameters | invariant through the loop (`FdMux/Induct`); the log of acts against the sessions of C17; negations by runs |
| C68 | `Gpio`: registers of the banks, `generic-gpio.cc`, its use in `hardware-mapping.cc`, stores of the firmware to the same registers | bits of words; the tables of the capes by computation; interleavings by induction, with C69 for what the firmware writes |
| C69 | `Firmware`: the processor (`Isa`), the program line by line with its labels and macros (`Program`, `Assemble`), the capes | weakest preconditions along the lines, routine by routine, up to the whole program; refinement of `StepGen.exec` and of the layout of C58 |
| C70 | `Firmware.Timing`, `Firmware.Speed`: cycles of a loop, of a segment and of a step | cycle counts of the routines of C69 with the latency of the bus as a parameter; combined with C64 for the speed |
| C71 | `PruHw`: the device, its mappings, control register and memories of the PRU, start and stop with both drivers; `PruHw.Events`: `WaitEvent` of both drivers, interrupt controller and firmware | the core with arbitrary contents, running or wedged, and arbitrary writes of an old program; invariant and rank over all interleavings |
| C72 | `Life`: `main` and `drop_privileges` as a list of steps, each with the credentials and the directory of the process at that moment; answers of the system as parameters | shape of the trace: a part before the rights are dropped and one after; each way out by cases |
| C73 | `Machine.DryRun`: the machine of C55–C60 on hardware that was never initialised, with the dummy queue | every step of a trace leaves the outputs; equality of whole runs under other inputs |
| C74 | `Spindle.Setup`: reader of the section `spindle`, `CreateFromConfig`; `Spindle.Wire`: the serial line byte by byte, with answers of the controller, lengths of reads and contents of the uninitialised buffers as parameters | the theory of readers of C61; refinement of `On` and `Off` to the commands of C57; witnesses for short and failing reads |
| C75 | `Parser.ReportProps` over `Parser.Model` | induction over the assignments of a line; witnesses |
| C76 | `Parser.OriginProps` over `Parser.Model`; `Machine.ReportProps` over `Machine.Report` | invariant over all lines: the last origin told is the one that positions are converted with; composition with C77; witnesses for the names |
| C77 | `Machine.SyncProps` over `Machine.Model` and `Planner.Ledger` | invariant over all histories of events: account of steps sent against position of the planner |
| C78 | `Machine.ProbeProps`, `Machine.ProbeExample` | induction over the loop of `move_to_probe`; a backend that is late as witness |
| C79 | `Machine.ReportProps`, `Machine.ReportExample` over `Machine.Report` | induction over the places, each reading with its time |
| C80 | `Whole.PositionProps`, `Whole.Example`, `Machine.PlaceProps` over `Whole.Model` | machine handles the calls the parser makes; induction over steps of the parser |
| C81 | `Hershey.Props` over `Hershey.Model`, table in `Hershey.Font` | the table by evaluation (it is finite), the text by induction over its characters |
| C82 | `Visualizer.Props`, `Visualizer.TightProps`, `Visualizer.Example` over `Visualizer.Model` | invariant over the calls of both passes; witnesses with the parser of `Parser.Model` |
| C83 | `Visualizer.GrayProps`, `Visualizer.Example` | invariant over the calls: range of speeds, last speed |
| C84 | `Visualizer.Layout` | floor and ceiling; induction over rounds; C81 for the width of the title |
| C85 | `Visualizer.Page` | rotations keep lengths; a coordinate is at most half of the diagonal |
| C86 | `Visualizer.PathProps` over `Visualizer.Path` | relation `Paints` (what has to be drawn) against the colours that PostScript gives to strokes; induction over the calls |
| C87 | `Text.NumberProps`, `Text.NumberUse` over `Text.Number` | both conversions against the number that is written (`meant`); the models of the parser and the configuration are shown to use the same conversion |
| C88 | `Sim.AudioProps` over `Sim.Audio` | calls of the writer against the passes of the firmware (`history`); samples by induction over the calls; header byte by byte |
| C89 | `Sim.TableProps` over `Sim.Table` | rows against the passes of the firmware; invariant of the ring of times |
| C90 | `Life.OptionsProps`, `Life.OptionsMeaning` over `Life.Options` | inductive grammar of the forms, equivalence with the scan by induction; the loop against the last value of each option; composition with C61 and C63 |
| C91 | `LineBuf.ReadFileProps` over `LineBuf.ReadFile` | the cut into blocks is characterised and shown to be unique; composition with C17; witnesses computed with the parser |
| C92 | `Machine.CodesProps`, `Machine.CodesExample`, `Planner.AuxProps` | the table of G-code.md as a list, exact states after each code; invariant of the planner with a log of the bits |
| C93 | `Parser.SystemProps` | table of RS274/NGC; agreement of parameters and systems as an invariant of the commands; restart |
| C94 | `Whole.Chain`, `Whole.ChainProps`, `Whole.ChainExample`: parser, machine control, planner, motor operations and firmware in one run | the motor operations satisfy the laws `Counts`, `Reports`, `Lawful` and `AuxLog` that C35, C56, C77, C80 and C92 have as hypotheses; composition with C46 |
| C95 | `Text.View`, `Text.ViewProps` | views as place and length in a memory; each operation against the standard on lists; `find` by induction over its loop |
| C96 | `Stats.Tool`, `Stats.ToolProps` | `getopt`, descriptors and the table; the loop over files against a table written file by file; the configuration reader keeps the angles (induction over its lines) |
| C97 | `Pwm.Timers`, `Pwm.TimersProps` | the four timers as a function of their number; calls change one entry; simulation between the timers and the abstract `pwmOn`/`duty` of `Hardware` |
| C98 | `Log.Model`, `Log.Props` | one write per message; reading the file back into lines (induction over the messages), injectivity of the fixed columns |
| C99 | `Adc.Model`, `Adc.Props` | `fgets`, `atoi` and `%d` on bytes; printing after reading is the identity |
| C100 | `Visualizer.Options`, `Visualizer.OptionsProps` | `getopt` as a fold over the arguments; meaning of a list of options by composition; order of the parts as a sublist of a sorted list |
| C101 | `Visualizer.Measures`, `Visualizer.MeasuresProps` | corners as triples of bits; the bars of the legend as a map over a range; floors of 256 t and 255 t + 1/2 |
| C102 | `Visualizer.Ps` (an interpreter for the words used), `Visualizer.PsProps` | symbolic execution of each call of the device; induction over the calls with the pen as state |
| C103 | `Setup.Summary` | an axis' bits are not changed by the rounds of other axes; the names of motors by evaluation on all 256 sets |
| C104 | `Visualizer.Title` | extent of the text from C81; comments taken out of the bytes of the file by recursion on them |
| C105 | `Life.Help` | the texts are read by a function, each line evaluated against the tables; what an entry of a table means for all command lines by cases |
| C106 | `Machine.SpindleProps`, `Machine.SpindleExample` | the result of M3, M4 and M5 as a whole state; a property of the state of the spindle is carried through all methods of the machine control |
| C107 | `FdMux.Signals` | rounds of the loop with the signals that arrive in them; induction over the rounds, with the cycles of C05 |
| C108 | `Visualizer.Colours` | neighbouring entries of the whole table by evaluation, all others by induction; monotony of the index |
| C109 | `Sim.Remarks` | what pass `j` says as a function of `j`, by induction over the loops of the segment |
| C110 | `Setup.Shipped` (copies of the files) | evaluation of `Setup.startUp` in the kernel on the three files (these are all there are); the mapping of motors for all capes |
| C58 | `EndToEnd/Layout`: fields of the C struct and of the assembler struct as byte lists | induction over the fields |
| C49, C54 | `Parser/FlowProps`: IF/WHILE, assignments | relation `Selects` for branches, `LoopRuns` for loops; induction over the loop |
| C55 | `Planner/JoinProps` | case analysis, for every arithmetic; negation for axes other than X, Y, Z |
| C56 | `MotorOps/EnableProps`: backend that records the calls | induction over the parts of a move |
| C59 | `Parser/ProgramProps` | invariant between flag and announcements over all steps of the parser; negation for the next stream |
| C50 | `Stats` on top of `Machine` | the backend only adds segments (relation through all steps of the machine control); fold = min/max; negation for Z and for negative coordinates |

## Disagreements between code and property found while reading

These are places where the unchanged code violates the property as stated. For
each, the model follows the code, the negation is proved with a concrete
witness, and the positive part is proved with the suffix `_partial`.

* **C03** `LinebufReader::ReadAndConsumeLine` sets `cr_seen_` at a CR and only
  resets it at the next LF, not at an ordinary character. In `"a\rb\nc\n"` the
  line `b` is swallowed.
* **C04** `LinebufReader::IncompleteLine` stores a newline at `content_end_`
  without checking that there is room; with a completely filled buffer this is
  a write one past the end. `C17_long_line_overflows`: a client reaches it by
  sending 16384 bytes without a line end.
* **C17** At the end of a CR-only stream the unterminated last line is lost
  (`IncompleteLine` appends LF while `cr_seen_` is set). With LF or CR LF an
  empty line is parsed at the end of every properly terminated stream.
* **C09** A unary minus in front of a parameter or bracket pushes
  `-1 *` on the evaluation stack without the depth check of the binary
  operators: `[1 == -#1 ** -#1 ** -#1]` uses slot 6 of a 6-slot stack.
  `C09_within_stack_partial`: an overrun needs six operators waiting at one
  bracket level, two of them such minus signs.
* **C11** `SaveParams` stops writing numeric parameters at the first key that
  does not start with a digit; a parameter stored under a negative number sorts
  first and suppresses all of them. `#< 7up>` (with a space) creates a key that
  starts with a digit and is saved as number 7. `LoadParams` sets 5220 to 1
  before reading, and zeroes are not written, so a 0 there comes back as 1. An
  entry longer than 255 characters is read in pieces; the value is cut.
* **C12** After a kill between the two calls of `rename` both sets exist, but
  `LoadParams` only looks at the name that is missing.
* **C15** A bare axis word continuing a previous motion command updates the
  parser position before the move is issued; if it is refused the position is
  already changed. Arcs that are refused midway leave the parser at the start
  of the arc while the machine has moved.
* **C18** A `(` comment without `)` lets the scanner step over the NUL.
* **C20** The firmware uses delay 0 as "segment finished". If the computed
  delay of an acceleration phase becomes 0 while loops are left (overflow or a
  tiny quotient), the segment ends early and the loop counter kept in `r28`
  stays wrong until the ring buffer wraps.
* **C28** Hence simulation and firmware differ for such a segment: the
  simulation makes the steps (C28_early_stop).
* **C24** `GetPendingElements` under-reports in a race: all 16 slots occupied,
  the firmware has finished one but not yet published the status of the next,
  the host has refilled the slot: the answer is 1 instead of 17. The shadow
  queue of `MotionQueueMotorOperations` is truncated accordingly. The count and
  the loop counter are also not read at the same instant; count 0 can come with
  the loops of an old element, and C27 shows what position results.
* **C26** is proved as stated. Worth knowing: the pending count stays 1 after an
  abort until the host enqueues again, an abort surfaces up to 16 `Enqueue`
  calls later, `Shutdown(true)` ignores a refused exit marker (the firmware is
  then disabled without having seen it), and the firmware outputs direction and
  aux bits of a dropped element before it looks at the stop input.
* **C30** `SetLookahead` accepts 1024 – which is also the default – while the
  ring holds 1023 elements: 1023 buffered segments without a halt trip the
  assertion of `RingDeque::append`.
* **C32** The number of steps of a phase is truncated. If less than one step
  would be needed to reach the target speed, it is planned from standstill with
  no acceleration phase at all (`C32_peak_not_reachable`); generally speeds are
  reachable up to the gain of one step. A `speed-tune-angle` below -90 degrees
  makes the corner factor, and then speeds, negative (`C63_tune_angle_negative`);
  `main` checks only that it is below 90 degrees together with the threshold.
* **C33** NaN compares with nothing, so a NaN target passes the range check; the
  parser delivers NaN for `X[0/0]`.
* **C35** `set_estop` switches the auxiliary outputs off and then lets the moves
  still in the planner and in the queue be executed (M0 finishes all queued
  moves); their auxiliary bits switch outputs on again. After setting the bit of
  the ESTOP output it does not write the outputs, so this output only shows the
  stop at the next occasion. In emergency stop M3 and M64 are executed.
* **C36** The stop input ends the search for an end switch, but if it is
  inactive again at the end of `G28` the position is set and the machine is
  "homed" without having moved. `G28` sets "homed" whatever axes were homed, also
  none.
* **C60** Same cause as C36: a search that is ended by the stop input sets the
  position nevertheless.
* **C37** The first rapid move with an F word stores the feed with all factors
  already applied, the next coordinated move applies the M220 factor again. The
  F word of a refused move is lost.
* **C48** holds; the fan is only switched off automatically if switching off the
  motors is configured, too.
* **C57** `smcOn` waits in reverse for a speed report it can not get.
* Observations in `pwm-timer.cc`: `memset` in `pwm_timers_map` clears only one
  timer; negative frequencies are not refused.
* **C44** holds for lines that are ended; on a last line without line end a
  comment is taken for a part of the line.
* **C45** `ParseDoubleExpression` accepts an empty string, `"200 *"`, `"2*(3"`,
  `"2*()"` and `"2*(3*)"`, with the default 1 in place of what is broken.
* **C61** holds. Integers are read by `from_chars`: what follows the number is
  ignored (`auto-motor-disable-seconds = 10min` are 10 seconds). The file's
  `synchronous` overrides `-S`.
* **C62** `SetSwitchOptions` checks that the switch is connected on the cape only
  for end switches; an emergency stop (also pause, start, probe) on a switch that
  the cape does not have is accepted and never seen. After `axis:x` the rest of
  the word is ignored (`axis:xyz`).
* **C63** `Init` refuses a negative acceleration, but not 0 (the default when the
  file gives none) for an axis with a motor; the planner then divides by 0 and
  converts the result to `int`. With that excluded (and the tuning angle above)
  the limits hold from the file to the planned segments (`C63_limits_partial`).
* **C64** For an acceleration from a speed the host computes the cycle count of
  the first loop together with its series index, but the firmware (and
  `sim-firmware.cc`) updates the count once before it uses it. The square of the
  speed is too high by a factor between (4i+1)/(4i-1) and (2i+1)/(2i-1) all along
  the ramp; for index i = 1 the commanded end speed is exceeded by more than a
  quarter (`C64_overshoot`; a simulation gives 63 % for 800 to 32000 steps/s).
  Accelerations from rest and decelerations are right. `test_acceleration_ok` is
  disabled, so very small accelerations overflow; two speeds of 0 divide by 0. The
  planner can ask for a tiny deceleration, if accelerating and decelerating ramps
  meet between two steps (`accelerationPlan`, last branch but one).
* **C50** `determine_print_stats` initialises `y_min` twice and `z_min` never, so
  a file that stays above the bed has minimum 0; the maxima start at 0, so they
  are wrong for negative coordinates. Moves that are refused (after M0) count for
  the extremes, but not for the time. `G28` is left out; the move after it is
  measured from the position before it.
* **C49** An IF branch is taken if the value equals 1, a WHILE body if it is not
  0. `ELSE` is searched as plain text, also inside names and comments. Lines of
  a WHILE body that come from the line reader are joined without a separator; a
  comment or an IF in the body swallows the lines after it. A WHILE inside a
  WHILE body invalidates the string views of the outer one (fault `dangling`).
  `G0 X1 WHILE [..] DO` records the WHILE line itself as part of the body.
* **C54** The handler of a command reads words until one is not its own; the
  assignments it met on the way to that point are read again by the main loop.
* **C65** In the XZ plane (G18) the axes are taken in the order X, Z, which is
  left-handed about Y: G2 turns counter-clockwise and G3 clockwise as seen from
  the positive end of Y (`C65_xz_plane`, `C65_xz_wrong`). If the target is not on
  the circle nothing is reported; the last segment jumps to it.
* **C66** G5.1 converts its control point to cubic ones with
  `cp2 = cp1 + offset / 3` instead of `cp1 + (end - start) / 3`: the curve is
  not the documented quadratic one, off by (1−t)t² times the distance of control
  point and target, i.e. up to 4/27 of it (`C66_quadratic_error`). G5 with only
  one of P and Q is accepted although both are documented as required
  (`C66_only_p`).
* **C67** The machine keeps the message stream of a client that left; what it
  prints while idle (emergency stop) goes to whichever connection got the same
  descriptor number, e.g. one of the status server (`C67_stale_message`). If
  `fcntl` fails on a new connection the descriptor is neither closed nor used
  (`C67_leak`). Every failing `read` ends the program, also `EAGAIN`, although
  the descriptor is made non-blocking for exactly this case (`C67_error_ends`).
  A G-code file that cannot be opened is not reported; `FD_SET(-1)` follows
  (`C67_no_file`). The number of status connections is not limited by
  `FD_SETSIZE` (`C67_too_many`). The `FILE` made by `fdopen` is never closed.
* **C68** `cfg_gpio_io` makes the outputs outputs before any level is written:
  after power up, when all latches are 0, the motors of the capes with an active
  low enable pin (all but VGEN5) are enabled until `ResetHardware`. If
  `pwm_timers_map` fails in between, `InitializeHardware` returns without
  resetting, and as `is_hardware_initialized_` is still false neither does the
  destructor: motors stay enabled and the banks mapped (`C68_enabled_at_start`).
  After a failing `mmap` the pointer is `MAP_FAILED`, not `NULL`, and
  `unmap_gpio` unmaps it (`C68_unmaps_failed`). `ena_gpio_clk` waits without a
  limit for a clock to start.
* **C69** The comment at the status word ("we guarantee that the bottom three
  bytes are all zero") is not true after a segment that ended early because a
  computed delay was 0 (C20): its remaining loops are added to the count of all
  following elements until the queue wraps around (`C69_leftover`). The upper
  byte, the index of the element, stays right.
* **C70** `CalculateDelay` subtracts the time of its division, but not that of
  the rest of the loop (reading the emergency stop, adding the fractions,
  writing up to eight pins, the status word): at constant speed every loop is at
  least 34 cycles longer than computed, so a step takes at least 66 cycles
  (0.33 us) longer than commanded (`C70_speed_partial`) and the limit of 1 MHz
  of the host is out of reach (`C70_limit_not_reached`). In the first loop from
  rest the time of a division is subtracted that does not take place
  (`C70_first_early`). Clearing a pin takes a cycle more than setting it
  (`C70_jitter`).
* **C71** `PRUMotionQueue::Init` clears the queue before `StartExecution` resets
  the core. If a previous process ended without `Shutdown`, its firmware still
  runs and can write into the cleared queue, e.g. `STATE_ABORT`, so that the
  first segment of the new process is refused (`C71_stale_abort`). The uio_pruss
  driver loads the program without a reset and without a check; instruction
  memory of a running core does not take it, so the old program is started again
  and success is reported (`C71_pruss_old_program`).
* **C72** `--priv user` without a group keeps the group ids of root, and
  supplementary groups are never given up (`C72_groups_kept`, `C72_group_root`).
  If dropping the rights or creating the machine control fails, `main` returns
  without stopping the PRU it started (`C72_pru_left_running`). As daemon the
  directory is `/`, so a relative name of a G-code file is not found, although
  `--param` is made absolute for this very reason (`C72_daemon_file`). The status
  port is opened after the rights were dropped, so it cannot be below 1024; a
  `daemon()` that fails is only logged.
* **C73** The spindle is created before the choice of the backend and without
  regard to `-n`: the Pololu controller gets its commands in a dry run too
  (`C73_spindle_created`, `C73_serial`).
* **C74** An unknown `type`, missing outputs or a port that cannot be opened give
  no spindle and no error; M3 and M4 then do nothing and say nothing
  (`C74_unknown_type`, `C74_silent`). `receive` ignores the number of bytes
  read: after one short read every value is made of two halves of different
  answers (`C74_short_read`), after a failing one it is what the stack held
  (`C74_read_fails`). `Off` waits without limit for a speed of 0, and an
  emergency stop calls it first (`C74_no_answer`, `C74_estop_waits`).
* **C57** `M3 S671089` overflows `int` in `rpm * MAX_SPEED`, and `max-rpm = 0`
  divides by zero (`C57_defined`).
* **C75** `read_param_name` returns null without a message if there is no
  name, so `G1 X1 #=5 Y2` moves X only and says nothing
  (`C75_noname_silent`). Only one comment is skipped between words; a second
  one, or `;` after it, is reported as an error and ends the line
  (`C75_second_comment`).
* **C76** The name told with the origin is not that of the origin in use: `H` after
  M2 and M30, which do not leave the coordinate system (`C76_name_after_end`); empty
  after G92.1 and G92.2 (`C76_name_after_reset`); and `G55` alone if an offset of G92
  is added to it (`C76_name_with_offset`). The origin itself is always right.
* **C78** `probe_axis` brings the path to a halt, but does not wait until the queue is
  empty before it reads the position: if the motors still move, the result is wrong by
  the way that was left (`C78_still_moving`). If the probe never touches, there is a
  message, but the position is reported and declared all the same, and it is outside
  of the range by up to one step of the probe (`C78_never_touches`). The emergency
  stop input is not read by the loop (`C78_no_stop`).
* **C80** The parser loses track of the machine: after homing an axis without a home switch (it takes the axis to be at
  its home position; a following line with only `F` then moves the axis there), after a refused move given without G0/G1
  (the position is changed before the move), after an arc with radius 0 (not made, but taken to be made), and after an
  arc that is broken off on the way (taken not to be made). The next move with absolute coordinates for the axes
  concerned that is made puts it right.
* **C81** Rows of text are 30 units apart, glyphs reach from 7 below to 25 above the base line; brackets in consecutive
  rows overlap (`C81_rows_overlap`).
* **C82** `Reset` between the two passes of `gcode2ps` keeps parameters and the selected coordinate system, so the path
  drawn may not be the path measured (`C82_parameters`, `C82_system`). Help lines of arcs may leave the frame
  (`C82_arc_help`).
* **C83** The gray level is lost behind a rapid move, the second pass begins with the last speed of the file, speed 1 at
  the beginning is not shown, and speeds given with M3 are not seen; the words behind M3 on its line are dropped
  (`C83_rapid`, `C83_before_first`, `C83_speed_one`, `C83_spindle_on`).
* **C84** If the picture is narrower than two text sizes, the title gets a negative size and is mirrored (`C84_narrow`).
* **C85** With perspective, points near to the eye may be projected outside of the page (`C85_perspective`).
* **C86** `SegmentQueuePrinter` interpolates speed along the way, though it is its square that changes evenly
  (`C86_linear`); converts 0/0 to an index if there is one speed only (`C86_one_speed`); prints `nan` as coordinates of
  machines without X, Y or Z (`C86_two_axes`); takes motor numbers for axes, and forgets the whole segment if the motor
  with most steps has no steps per millimeter (`C86_other_motor`); does not follow the motors in the first pass, so the
  second one is shifted for axes that are not homed (`C86_second_pass`). Colours for lines out of range are wrong in
  three ways (`C86_stuck_colour`, `C86_first_outside`, `C86_last_colour`), but no option enables them.
* **C87** With `std::from_chars` (C++17 with a library that has it for floats) an exponent is part of a number:
  `G1 X10E5` moves X to a million instead of X to 10 and E to 5 (`C87_exponent`, `C87_extruder`); `inf` and `nan` are
  numbers, `+-5` is one. With the buffer, numbers longer than 31 characters are cut in the middle (`C87_long`) and
  integers wrap around (`C87_out_of_range`).
* **C88** The sizes in the header are 32 bit numbers, so that files of more than 2³⁰ samples have wrong ones (`C88_long`);
  written to a pipe, the file gets the sizes as additional samples at the end (`C88_pipe`).
* **C89** The acceleration in the table is the change of speed over the time between the beginnings of two loops instead
  of that between their middles (`C89_biased`), and the ring of times is not cleared between segments, so motors that
  run at constant speed are shown to accelerate (`C89_other_segment`).
* **C90** `-S` is applied before the file is read, so `synchronous = no` in the file undoes it, while the options for homing
  and the range check are applied after it (`C90_synchronous`). The test `<= 0` lets a speed factor pass that is not a number
  (`C90_nan`). `-W` opens its file while the options are still being read: it is emptied even if the command line is refused
  (`C90_emptied`), and if it cannot be created the program continues silently without sound (`C90_no_sound`).
* **C91** `ReadFile` takes lines with `fgets` and a buffer of 8192 bytes, the machine takes them with its line buffer. A longer
  line is cut, and its tail is carried out as a line of its own even if it belongs to a comment (`C91_long_line`); lines ended
  by CR only are one line (`C91_cr`). Lines of a loop body are put together without a separator; from a file they bring their
  own line feed, from a connection they do not, so that the tools show another program than the machine runs (`C91_loop`).
  A read error is taken for the end of the file (`C91_error`).
* **C92** Outputs change with the next move. If there is none, an M9 (or M63, M11, M246 ..) has no effect at all: the end of the
  program does not write the outputs (`C92_lost`, `C92_stays_on`), coolant and lasers stay as the last move had them. M64,
  M65, M80 and M81 write all outputs, and so also those that were to wait for a move (`C92_early`); "independent of buffered
  moves" (G-code.md) holds only until the next buffered move, which brings the old bits back (`C92_overwritten`).
* **C93** Assignments to the parameters of the coordinate systems, and M501, do not change the systems in use; parameters and
  systems disagree until the next start (`C93_written`; G-code.md says programs should not write these parameters).
* **C95** The own `string_view` differs from the standard one: `substr(pos)` behind the end is a view of 2^64 characters
  (`C95_substr_wraps`), comparison and `find_first_of` stop at NUL, the latter looks behind the end of the view
  (`C95_find_first_behind`), `SplitString` splits at NUL (`C95_split_nul`). `StringPrintf` returns texts of 1024 and more
  characters with NUL in them (`C95_printf_long`).
* **C96** `gcode-print-stats` computes its times with the angles of the constructor, −1 and 0 degrees, because no configuration
  file sets them; the machine control (and `gcode2ps`) use 10 and 60 (`C96_angles`). The standard input can be named only once
  (`C96_dash_twice`). The exit code is 0 even if no file was processed (`C96_unfit`, `C96_code`).
* **C97** None of the four PWM pins of CRAMPS has a timer, so a PWM output configured there never changes anything (`C97_cramps`); the comment in
  `hardware-mapping.cc` says it works as a plain output. A value above 1 is not limited, the timer runs with the duty cycle it had (`C97_too_large`).
  `memset(timers, 0, sizeof(*timers))` clears one timer of four (`C97_again`), and `munmap` gets `MAP_FAILED` when a timer cannot be mapped
  (`C97_munmap_failed`).
* **C98** If `vasprintf` has no memory, its result -1 is used as a length and memory outside of the program is read (`C98_memory`). A message of
  several lines gives lines without beginning (`C98_two_lines`). A second `Log_init` keeps the colours of the first (`C98_again`).
* **C99** A channel whose file has no number in it reads as 0, only missing and empty files as -1 (`C99_text`).
* **C100** If the G-code file cannot be opened, `gcode2ps` draws an empty picture and returns 0 (`C100_unreadable`). `-o` empties its file while
  options are read, also when the usage is printed afterwards (`C100_emptied`). An empty angle, `inf` and `nan` are copied into the PostScript
  program, which then fails (`C100_bad_angle`). An empty view is the front view (`C100_view`).
* **C102** `gcode_start` is called again for the first word behind `M2` or `M30`; the
  visualizer then sets the colour to black and moves to the origin of the
  machine, although the parser goes on from where it was and `last_move_rapid_`
  is kept: a line appears that no machine takes, and rapid moves look like
  others until the kind of move changes (`C102_restart`).
* **C104** A title of several lines (`-C`), which `DrawText` supports, ends the comment it is written in: from the second line on it is
  executed as PostScript (`C104_executed`).
* **C105** The usage text shows `--threshold-angle` and `--speed-tune-angle` without an argument, but they take the next word of the
  command line (`C105_angles`). It says that messages go to /dev/stderr by default, but those of a daemon go to the system log (`C105_log`).
* **C106** The comment says that the queue is flushed before the spindle is switched, but the path is only planned to a halt: M3, M4 and M5
  take effect while the motors still have moves to make (`C106_early`, `C106_early_off`). M3 starts the spindle in emergency stop
  (`C106_estop_on`).
* **C107** SIGPIPE shall be ignored "completely", but one that arrives while `select` waits makes it fail, and the loop ends with the result
  true although descriptors are registered (`C107_pipe_ends`); `disarm_signal_handler` leaves its handler installed (`C107_handlers`).
* **C109** `is_first` is set only once for a segment: the beginning of travel and of deceleration is reported, in the lines and in the remarks of
  the table, only if the segment begins with it, the end of a deceleration always (`C109_silent`).
* **C110** sample.config is accepted on every cape, but asks for more than some have: a motor without connector is neither refused nor reported
  (`C110_motors`), so on VGEN5 and Pockegotion axes with steps have no motor (`C110_missing`); on VGEN5 the output for mist and the timer for the speed of
  the spindle are the same pin, and on all other capes `atx-power` is left out with a message (`C110_outputs`).
* **C55** Only the angle in X/Y/Z counts: if it is below the threshold, any other
  axis may start, stop or reverse at full speed.
* **C59** At the end of a stream the end of the program is announced, but the
  flag `program_in_progress_` stays set if there was no M2 or M30: the first
  command of the next stream does not announce a new program, so the automatic
  fan is not switched on for it.
* **C13/C38** On a continuation line the first axis word is not announced as a
  word of a move: `clamp_to_range` for Z treats `X5 Z-1` and `G0 X5 Z-1`
  differently (`C13_bare_axis_unnoticed`).
* Further observations in the parser: the error messages of the ternary operator
  pass `printf` arguments in the wrong order (fault `printf`); two adjacent
  comments are an error; storing #5221… or M501 does not update the coordinate
  systems; an arc with a travel below 1e-5 sets the parser position without a
  move; G92 and G10 use the linear unit factor for rotational axes; G92 ignores
  the G51 scale; G92 while suspended re-activates the old offset on other axes;
  splines move Z and E only in the last segment.
