import Verif.Firmware.Isa
/-!
# The firmware, instruction by instruction

`/repo/src/motor-interface-pru.p`, with the macros of `/repo/src/idiv.hp` and
`/repo/src/pru-generic-io-routines.hp` and the pin assignments of `/repo/hardware/*/beagleg-pin-mapping.h`. Every
line of the source is a line here, in the same order, with the same labels. Labels within a macro are local to its
expansion; here they carry a number.
-/
namespace BeagleG.Firmware

/-! ## Pins -/

/-- `GPIO_*_BASE`, motor-interface-constants.h 42-45. -/
def gpioBase : Fin 4 → Nat
  | 0 => 0x44e07000
  | 1 => 0x4804c000
  | 2 => 0x481ac000
  | 3 => 0x481ae000

/-- `GPIO_n_BASE | bit`, motor-interface-constants.h 61-114. -/
def pin (bank : Fin 4) (bit : Nat) : Nat := gpioBase bank ||| bit

/-- `GPIO_NOT_MAPPED`, motor-interface-constants.h 116. -/
def notMapped : Nat := 0

/-- Registers of a bank, motor-interface-constants.h 48-52. -/
def gpioOe : Nat := 0x134
/-- motor-interface-constants.h 49-52. -/
def gpioDatain : Nat := 0x138
/-- motor-interface-constants.h 49-52. -/
def gpioDataout : Nat := 0x13c
/-- motor-interface-constants.h 49-52. -/
def gpioClear : Nat := 0x190
/-- motor-interface-constants.h 49-52. -/
def gpioSet : Nat := 0x194

/-- The assignment of signals to pins that a cape defines (`hardware/*/beagleg-pin-mapping.h`); what is left out
there is `GPIO_NOT_MAPPED` (motor-interface-constants.h 127-289). -/
structure Cape where
  step : Fin 8 → Nat := fun _ => notMapped
  dir : Fin 8 → Nat := fun _ => notMapped
  enable : Nat := notMapped
  enableHigh : Bool := false
  aux : Fin 16 → Nat := fun _ => notMapped
  pwm : Fin 4 → Nat := fun _ => notMapped
  input : Fin 9 → Nat := fun _ => notMapped
  /-- `CheckForEStop` of `hardware/*/pru-io-routines.hp` looks at `IN_7_GPIO`; otherwise it returns at once. -/
  checksEstop : Bool := false

/-! ## Registers -/

/-- Register r0 as a whole, motor-interface-pru.p 177-186, 231-246. -/
abbrev r0 : Fld := ⟨0, 0, 4⟩
/-- Register r1 as a whole, motor-interface-pru.p 179, 210, 273-279. -/
abbrev r1 : Fld := ⟨1, 0, 4⟩
/-- Register r2 as a whole, motor-interface-pru.p 188, 199, 287-295. -/
abbrev r2 : Fld := ⟨2, 0, 4⟩
/-- Register r3 as a whole, motor-interface-pru.p 206, 215, 219. -/
abbrev r3 : Fld := ⟨3, 0, 4⟩
/-- Register r4 as a whole, motor-interface-pru.p (pru-generic-io-routines.hp 35-45). -/
abbrev r4 : Fld := ⟨4, 0, 4⟩
/-- Register r5 as a whole, motor-interface-pru.p 273. -/
abbrev r5 : Fld := ⟨5, 0, 4⟩
/-- Register r6 as a whole, motor-interface-pru.p 273. -/
abbrev r6 : Fld := ⟨6, 0, 4⟩
/-- Register r28 as a whole, motor-interface-pru.p 175-178, 189, 227-249, 292-296. -/
abbrev r28 : Fld := ⟨28, 0, 4⟩

/-- `.struct QueueHeader` at `r1.w0`, motor-interface-pru.p (".p" below) 63-66, 198. -/
abbrev hState : Fld := ⟨1, 0, 1⟩
/-- `queue_header.direction_bits`, .p 65. -/
abbrev hDir : Fld := ⟨1, 1, 1⟩

/-- `.struct TravelParameters` at r7, .p 33-61, 211; `loops_accel`, .p 39. -/
abbrev pLoopsAccel : Fld := ⟨7, 0, 2⟩
/-- `loops_travel`, .p 40. -/
abbrev pLoopsTravel : Fld := ⟨7, 2, 2⟩
/-- `loops_decel`, .p 41. -/
abbrev pLoopsDecel : Fld := ⟨8, 0, 2⟩
/-- `aux`, .p 43. -/
abbrev pAux : Fld := ⟨8, 2, 2⟩
/-- `accel_series_index`, .p 45. -/
abbrev pIndex : Fld := ⟨9, 0, 4⟩
/-- `hires_accel_cycles`, .p 46. -/
abbrev pCycles : Fld := ⟨10, 0, 4⟩
/-- `travel_delay_cycles`, .p 49. -/
abbrev pTravelDelay : Fld := ⟨11, 0, 4⟩
/-- `fraction_1` … `fraction_8`, .p 53-60. -/
abbrev pFraction (i : Fin 8) : Fld := ⟨12 + i.val, 0, 4⟩

/-- `.struct MotorState` at r20, .p 69-81. -/
abbrev mState (i : Fin 8) : Fld := ⟨20 + i.val, 0, 4⟩

/-! ## Labels -/

/-- The labels of motor-interface-pru.p 97-304, idiv.hp 90-99 and pru-generic-io-routines.hp 33-92; those inside macros with the number of the expansion. -/
inductive Lbl where
  | INIT | QUEUE_READ | STEP_GEN | DO_STEP_GEN | STEP_DELAY | DONE_STEP_GEN | STEP_GEN_ABORTED | FINISH
  | PHASE_1_ACCELERATION | accel_calc_done | PHASE_2_TRAVEL | PHASE_3_DECELERATION | calc_decel | DONE_CALCULATE_DELAY
  | SetAuxBits | SetDirections | SetSteps | CheckForEStop | debounce | estop_ok | estop_active
  /-- in expansion `k` of `SetGPIO` -/
  | set_gpio (k : Nat) | update_gpio (k : Nat) | no_map (k : Nat)
  /-- in expansion `k` of `_idiv_division_step` -/
  | DO_SUB (k : Nat) | SKIP_SUB (k : Nat)
deriving DecidableEq, Repr

/-- A line of the source. -/
inductive Line where
  | lab (l : Lbl)
  | ins (i : Instr Lbl)

open Instr Line Lbl

/-- `SetGPIO bits, bit, gpio_def`, pru-generic-io-routines.hp 33-47. -/
def setGPIO (k : Nat) (bits : Fld) (bit : Nat) (gpioDef : Nat) : List Line :=
  [ ins (mov r4 (.imm (gpioDef &&& 0xfffff000))),
    ins (qbeq (no_map k) ⟨4, 2, 2⟩ (.imm notMapped)),
    ins (mov r5 (.imm (2 ^ (gpioDef &&& 0x1f)))),
    ins (qbbs (set_gpio k) bits (.imm bit)),
    ins (mov r6 (.imm gpioClear)),
    ins (qba (update_gpio k)),
    lab (set_gpio k),
    ins (mov r6 (.imm gpioSet)),
    lab (update_gpio k),
    ins (add r4 r4 (.fld r6)),
    ins (store r5 .bus (.fld r4) 4),
    lab (no_map k) ]

/-- `_idiv_division_step hi, lo, d`, idiv.hp 90-99. -/
def divisionStep (k : Nat) (hi lo d : Fld) : List Line :=
  [ ins (add lo lo (.fld lo)),
    ins (adc hi hi (.fld hi)),
    ins (qblt (SKIP_SUB k) d (.fld hi)),
    ins (.set lo lo (.imm 0)),
    lab (DO_SUB k),
    ins (sub hi hi (.fld d)),
    lab (SKIP_SUB k) ]

/-- `n` expansions of `_idiv_division_step`, idiv.hp 49-83. -/
def divisionSteps (hi lo d : Fld) (k : Nat) : Nat → List Line
  | 0 => []
  | n + 1 => divisionStep k hi lo d ++ divisionSteps hi lo d (k + 1) n

/-- `idiv_macro`, idiv.hp 42-84: 32 steps. -/
def idivMacro (k : Nat) (dividend divisor remainder : Fld) : List Line :=
  ins (zero remainder 4) :: divisionSteps remainder dividend divisor k 32

/-- `(IDIV_MACRO_CYCLE_COUNT + 9) / 2` and `(IDIV_MACRO_CYCLE_COUNT + 11) / 2`, idiv.hp 33, .p 130, 166. -/
def accelCompensation : Nat := (129 + 9) / 2
/-- The same for the deceleration, .p 166. -/
def decelCompensation : Nat := (129 + 11) / 2

/-- `CalculateDelay r1, travel_params, r3, r5, r6`, .p 97-169; here the first phase, 103-131. -/
def calculateDelay1 : List Line :=
  [ lab PHASE_1_ACCELERATION,
    ins (qbeq PHASE_2_TRAVEL pLoopsAccel (.imm 0)),
    ins (qbeq accel_calc_done pIndex (.imm 0)),
    ins (lsl r5 pCycles (.imm 1)),
    ins (add r5 r5 (.fld r3)),
    ins (lsl r6 pIndex (.imm 2)),
    ins (add r6 r6 (.imm 1)) ] ++
  idivMacro 0 r5 r6 r3 ++
  [ ins (sub pCycles pCycles (.fld r5)),
    lab accel_calc_done,
    ins (add pIndex pIndex (.imm 1)),
    ins (sub pLoopsAccel pLoopsAccel (.imm 1)),
    ins (lsr r1 pCycles (.imm 5)),
    ins (sub r1 r1 (.imm accelCompensation)),
    ins (jmp DONE_CALCULATE_DELAY) ]

/-- The second phase of `CalculateDelay`, .p 133-138. -/
def calculateDelay2 : List Line :=
  [ lab PHASE_2_TRAVEL,
    ins (qbeq PHASE_3_DECELERATION pLoopsTravel (.imm 0)),
    ins (sub pLoopsTravel pLoopsTravel (.imm 1)),
    ins (mov r1 (.fld pTravelDelay)),
    ins (sub r1 r1 (.imm (4 / 2))),
    ins (jmp DONE_CALCULATE_DELAY) ]

/-- The third phase of `CalculateDelay`, .p 140-168. -/
def calculateDelay3 : List Line :=
  [ lab PHASE_3_DECELERATION,
    ins (qbne calc_decel pLoopsDecel (.imm 0)),
    ins (zero r1 4),
    ins (jmp DONE_CALCULATE_DELAY),
    lab calc_decel,
    ins (lsl r5 pCycles (.imm 1)),
    ins (add r5 r5 (.fld r3)),
    ins (lsl r6 pIndex (.imm 2)),
    ins (sub r6 r6 (.imm 1)) ] ++
  idivMacro 32 r5 r6 r3 ++
  [ ins (add pCycles pCycles (.fld r5)),
    ins (sub pIndex pIndex (.imm 1)),
    ins (sub pLoopsDecel pLoopsDecel (.imm 1)),
    ins (lsr r1 pCycles (.imm 5)),
    ins (sub r1 r1 (.imm decelCompensation)),
    lab DONE_CALCULATE_DELAY ]

/-- `UpdateQueueStatus`, .p 173-180. -/
def updateQueueStatus : List Line :=
  [ ins (sub r28 r28 (.imm 1)),
    ins (mov r0 (.imm 0)),
    ins (store r28 .dram (.fld r0) 4),
    ins (sub r1 r1 (.imm (4 / 2))) ]

/-- `QUEUE_OFFSET`, .p 31. -/
def queueOffset : Nat := 4

/-- `SIZE(QueueHeader)`, .p 63-66. -/
def headerSize : Nat := 2

/-- `SIZE(TravelParameters)`, .p 35-61. -/
def paramSize : Nat := 52

/-- `QUEUE_ELEMENT_SIZE`, .p 30. -/
def elementSize : Nat := headerSize + paramSize

/-- `STATE_*`, `QUEUE_LEN`, motor-interface-constants.h 30-35. -/
def stateEmpty : Nat := 0
/-- `STATE_FILLED`, motor-interface-constants.h 31. -/
def stateFilled : Nat := 1
/-- `STATE_EXIT`, motor-interface-constants.h 32. -/
def stateExit : Nat := 2
/-- `STATE_ABORT`, motor-interface-constants.h 33. -/
def stateAbort : Nat := 3
/-- `QUEUE_LEN`, motor-interface-constants.h 35. -/
def queueLen : Nat := 16

/-- `INIT`, .p 182-191. -/
def codeInit : List Line :=
  [ lab INIT,
    ins (load r0 .cfg (.imm 4) 4),
    ins (clr r0 r0 (.imm 4)),
    ins (store r0 .cfg (.imm 4) 4),
    ins (mov r2 (.imm queueOffset)),
    ins (mov r28 (.imm 0)) ]

/-- `QUEUE_READ`, .p 192-232. -/
def codeRead : List Line :=
  [ lab QUEUE_READ,
    ins (load hState .dram (.fld r2) headerSize),
    ins (qbeq QUEUE_READ hState (.imm stateEmpty)),
    ins (qbeq QUEUE_READ hState (.imm stateAbort)),
    ins (qbeq FINISH hState (.imm stateExit)),
    ins (mov r3 (.fld hDir)),
    ins (call SetDirections),
    ins (add r1 r2 (.imm headerSize)),
    ins (load pLoopsAccel .dram (.fld r1) paramSize),
    ins (mov r3 (.fld pAux)),
    ins (call SetAuxBits),
    ins (zero (mState 0) 32),
    ins (zero r3 4),
    ins (add r28 r28 (.fld pLoopsAccel)),
    ins (add r28 r28 (.fld pLoopsTravel)),
    ins (add r28 r28 (.fld pLoopsDecel)),
    ins (mov r0 (.imm 0)),
    ins (store r28 .dram (.fld r0) 4) ]

/-- `STEP_GEN`, .p 243-252. -/
def codeStepGen : List Line :=
  [ lab STEP_GEN,
    ins (mov r0 (.imm 0)),
    ins (call CheckForEStop),
    ins (qbne DO_STEP_GEN r0 (.imm 1)),
    ins (zero r28 3),
    ins (add r28 r28 (.imm 1)) ] ++
  updateQueueStatus ++
  [ ins (mov hState (.imm stateAbort)),
    ins (jmp STEP_GEN_ABORTED) ]

/-- `DO_STEP_GEN`, .p 254-271. -/
def codeDoStepGen : List Line :=
  [ lab DO_STEP_GEN,
    ins (add (mState 0) (mState 0) (.fld (pFraction 0))),
    ins (add (mState 1) (mState 1) (.fld (pFraction 1))),
    ins (add (mState 2) (mState 2) (.fld (pFraction 2))),
    ins (add (mState 3) (mState 3) (.fld (pFraction 3))),
    ins (add (mState 4) (mState 4) (.fld (pFraction 4))),
    ins (add (mState 5) (mState 5) (.fld (pFraction 5))),
    ins (add (mState 6) (mState 6) (.fld (pFraction 6))),
    ins (add (mState 7) (mState 7) (.fld (pFraction 7))),
    ins (call SetSteps) ]

/-- .p 273-281. -/
def codeDelay : List Line :=
  ins (qbeq DONE_STEP_GEN r1 (.imm 0)) :: updateQueueStatus ++
  [ lab STEP_DELAY,
    ins (sub r1 r1 (.imm 1)),
    ins (qbne STEP_DELAY r1 (.imm 0)),
    ins (jmp STEP_GEN) ]

/-- `DONE_STEP_GEN` to `HALT`, .p 283-304. `PRU0_ARM_INTERRUPT+16` is 35. -/
def codeDone : List Line :=
  [ lab DONE_STEP_GEN,
    ins (mov hState (.imm stateEmpty)),
    lab STEP_GEN_ABORTED,
    ins (store hState .dram (.fld r2) 1),
    ins (event 35),
    ins (add r2 r2 (.imm elementSize)),
    ins (add ⟨28, 3, 1⟩ ⟨28, 3, 1⟩ (.imm 1)),
    ins (mov r1 (.imm (queueLen * elementSize))),
    ins (qblt QUEUE_READ r1 (.fld r2)),
    ins (mov r2 (.imm queueOffset)),
    ins (zero r28 4),
    ins (jmp QUEUE_READ),
    lab FINISH,
    ins (mov hState (.imm stateEmpty)),
    ins (store hState .dram (.fld r2) 1),
    ins (event 35),
    ins halt ]

/-- `SetAuxBits`, pru-generic-io-routines.hp 50-67. -/
def codeAux (c : Cape) : List Line :=
  lab SetAuxBits ::
  (setGPIO 0 r3 0 (c.aux 0) ++ setGPIO 1 r3 1 (c.aux 1) ++ setGPIO 2 r3 2 (c.aux 2) ++ setGPIO 3 r3 3 (c.aux 3) ++
   setGPIO 4 r3 4 (c.aux 4) ++ setGPIO 5 r3 5 (c.aux 5) ++ setGPIO 6 r3 6 (c.aux 6) ++ setGPIO 7 r3 7 (c.aux 7) ++
   setGPIO 8 r3 8 (c.aux 8) ++ setGPIO 9 r3 9 (c.aux 9) ++ setGPIO 10 r3 10 (c.aux 10) ++
   setGPIO 11 r3 11 (c.aux 11) ++ setGPIO 12 r3 12 (c.aux 12) ++ setGPIO 13 r3 13 (c.aux 13) ++
   setGPIO 14 r3 14 (c.aux 14) ++ setGPIO 15 r3 15 (c.aux 15)) ++ [ins ret]

/-- `SetDirections`, pru-generic-io-routines.hp 71-80. -/
def codeDir (c : Cape) : List Line :=
  lab SetDirections ::
  (setGPIO 16 r3 0 (c.dir 0) ++ setGPIO 17 r3 1 (c.dir 1) ++ setGPIO 18 r3 2 (c.dir 2) ++ setGPIO 19 r3 3 (c.dir 3) ++
   setGPIO 20 r3 4 (c.dir 4) ++ setGPIO 21 r3 5 (c.dir 5) ++ setGPIO 22 r3 6 (c.dir 6) ++ setGPIO 23 r3 7 (c.dir 7)) ++
  [ins ret]

/-- `SetSteps`, pru-generic-io-routines.hp 83-92. -/
def codeSteps (c : Cape) : List Line :=
  lab SetSteps ::
  (setGPIO 24 (mState 0) 31 (c.step 0) ++ setGPIO 25 (mState 1) 31 (c.step 1) ++ setGPIO 26 (mState 2) 31 (c.step 2) ++
   setGPIO 27 (mState 3) 31 (c.step 3) ++ setGPIO 28 (mState 4) 31 (c.step 4) ++ setGPIO 29 (mState 5) 31 (c.step 5) ++
   setGPIO 30 (mState 6) 31 (c.step 6) ++ setGPIO 31 (mState 7) 31 (c.step 7)) ++ [ins ret]

/-- `CheckForEStop`, hardware/VGEN5/pru-io-routines.hp 17-32; in the other capes only `RET`. -/
def codeEstop (c : Cape) : List Line :=
  lab CheckForEStop ::
  if c.checksEstop then
    [ ins (mov r4 (.imm (c.input 6 &&& 0xfffff000))),
      ins (qbeq estop_ok ⟨4, 2, 2⟩ (.imm notMapped)),
      ins (mov r5 (.imm gpioDatain)),
      ins (add r4 r4 (.fld r5)),
      ins (mov r5 (.imm (c.input 6 &&& 0x1f))),
      lab debounce,
      ins (load r6 .bus (.fld r4) 4),
      ins (qbbc estop_ok r6 (.fld r5)),
      ins (qbeq estop_active r0 (.imm 1)),
      ins (mov r0 (.imm 1)),
      ins (jmp debounce),
      lab estop_ok,
      ins (mov r0 (.imm 0)),
      lab estop_active,
      ins ret ]
  else [ins ret]

/-- The whole source, motor-interface-pru.p 97-313. -/
def source (c : Cape) : List Line :=
  codeInit ++ codeRead ++ codeStepGen ++ codeDoStepGen ++ calculateDelay1 ++ calculateDelay2 ++ calculateDelay3 ++
  codeDelay ++ codeDone ++ codeAux c ++ codeDir c ++ codeSteps c ++ codeEstop c

/-! ## Assembling -/

/-- Number of instructions before a label, as the assembler counts them. -/
def address : List Line → Lbl → Nat
  | [], _ => 0
  | .lab l :: ls, m => if l = m then 0 else address ls m
  | .ins _ :: ls, m => address ls m + 1

/-- The instructions of some lines, with given addresses of the labels. -/
def instrs (adr : Lbl → Nat) (ls : List Line) : List (Instr Nat) :=
  ls.filterMap fun
    | .lab _ => none
    | .ins i => some (i.map adr)

/-- The program in the memory of the PRU. -/
def firmware (c : Cape) : List (Instr Nat) := instrs (address (source c)) (source c)

end BeagleG.Firmware
