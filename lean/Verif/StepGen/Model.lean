import Verif.Idiv.Model
/-!
# Model of the step generation firmware

* `/repo/src/motor-interface-pru.p` – the program running on the PRU
* `/repo/src/pru-generic-io-routines.hp` – output of the step and direction pins
* `/repo/src/sim-firmware.cc` – the software simulation of the same program
* `/repo/src/motion-queue.h:51-80` – the data exchanged (`MotionSegment`)

Registers are natural numbers with explicit truncation to 32 bit.  Real time is
not modelled; the number of busy-wait rounds between two outputs is.
-/
namespace BeagleG.StepGen

open Idiv (reg idiv)

/-- `MOTION_MOTOR_COUNT`, `motion-queue.h:29`. -/
abbrev Motor := Fin 8

/-- 32 bit `SUB`. motor-interface-pru.p 119, 130-137, 151, 158, 166, 179. -/
def sub32 (a b : Nat) : Nat := reg (a + (2 ^ 32 - b))

/-- `MotionSegment`, `motion-queue.h:51-80` (without the disabled jerk experiment).
Field widths: `directionBits` 8 bit, loops and `aux` 16 bit, the others 32 bit.
The `state` byte is part of the queue protocol and modelled in `PruQueue`. -/
structure MotionSegment where
  directionBits : Nat
  loopsAccel : Nat
  loopsTravel : Nat
  loopsDecel : Nat
  aux : Nat
  accelSeriesIndex : Nat
  hiresAccelCycles : Nat
  travelDelayCycles : Nat
  fractions : Motor → Nat

/-- Field widths are respected. The types in motion-queue.h 51-80. -/
structure MotionSegment.WF (s : MotionSegment) : Prop where
  dir : s.directionBits < 2 ^ 8
  la : s.loopsAccel < 2 ^ 16
  lt : s.loopsTravel < 2 ^ 16
  ld : s.loopsDecel < 2 ^ 16
  aux : s.aux < 2 ^ 16
  idx : s.accelSeriesIndex < 2 ^ 32
  cyc : s.hiresAccelCycles < 2 ^ 32
  del : s.travelDelayCycles < 2 ^ 32
  fr : ∀ i, s.fractions i < 2 ^ 32

/-- The registers `CalculateDelay` works on (`motor-interface-pru.p:35-61`, r3). -/
structure Regs where
  loopsAccel : Nat
  loopsTravel : Nat
  loopsDecel : Nat
  index : Nat
  cycles : Nat
  travelDelay : Nat
  /-- r3, `state_register`: remainder carried to the next division. -/
  remainder : Nat
  deriving DecidableEq

/-- `motor-interface-pru.p:210-219`: load the parameters, clear r3. -/
def Regs.load (s : MotionSegment) : Regs :=
  { loopsAccel := s.loopsAccel, loopsTravel := s.loopsTravel, loopsDecel := s.loopsDecel
    index := s.accelSeriesIndex, cycles := s.hiresAccelCycles
    travelDelay := s.travelDelayCycles, remainder := 0 }

/-- `DELAY_CYCLE_SHIFT`, `motor-interface-constants.h:39`.
Used at motion-queue-motor-operations.cc 59-67, 118-209 and motor-interface-pru.p 126, 163. -/
def delayCycleShift : Nat := 5

/-- One acceleration update of the cycle count, `motor-interface-pru.p:105-119`. -/
def accelUpdate (r : Regs) : Regs :=
  if r.index = 0 then r
  else
    let dividend := reg (reg (r.cycles * 2) + r.remainder)
    let divisor := reg (reg (r.index * 4) + 1)
    let qr := idiv dividend divisor
    { r with cycles := sub32 r.cycles qr.1, remainder := qr.2 }

/-- One deceleration update, `motor-interface-pru.p:146-156`. -/
def decelUpdate (r : Regs) : Regs :=
  let dividend := reg (reg (r.cycles * 2) + r.remainder)
  let divisor := sub32 (reg (r.index * 4)) 1
  let qr := idiv dividend divisor
  { r with cycles := reg (r.cycles + qr.1), remainder := qr.2 }

/-- `CalculateDelay`, `motor-interface-pru.p:97-169`. Returns the new registers and
`output_reg`; the value 0 is "done".  Constants: `(129+9)/2 = 69`, `4/2 = 2`,
`(129+11)/2 = 70`. -/
def calculateDelay (r : Regs) : Regs × Nat :=
  if r.loopsAccel ≠ 0 then
    let r' := accelUpdate r
    ({ r' with index := reg (r'.index + 1), loopsAccel := r'.loopsAccel - 1 },
     sub32 (r'.cycles >>> delayCycleShift) 69)
  else if r.loopsTravel ≠ 0 then
    ({ r with loopsTravel := r.loopsTravel - 1 }, sub32 r.travelDelay 2)
  else if r.loopsDecel ≠ 0 then
    let r' := decelUpdate r
    ({ r' with index := sub32 r'.index 1, loopsDecel := r'.loopsDecel - 1 },
     sub32 (r'.cycles >>> delayCycleShift) 70)
  else (r, 0)

/-- Busy-wait rounds for the delay value `d`: `UpdateQueueStatus` subtracts 2
(`motor-interface-pru.p:179`), the loop at 277-279 decrements before testing. -/
def waitRounds (d : Nat) : Nat :=
  let r1 := sub32 d 2
  if r1 = 0 then 2 ^ 32 else r1

/-- What one pass through `STEP_GEN` makes visible: the motor state words whose bit
31 is output by `SetSteps` (`pru-generic-io-routines.hp:83-92`), the loop counter
published in the status register, and the delay that follows (0 after the last). -/
structure Pass where
  mstate : Motor → Nat
  status : Nat
  delay : Nat

/-- The step line of motor `i`, `pru-generic-io-routines.hp:83-92`: bit 31. -/
def Pass.pin (p : Pass) (i : Motor) : Bool := (p.mstate i).testBit 31

/-- How a segment ends. `stuck` is only there to make the fuel explicit; it is proved
not to occur. motor-interface-pru.p 246, 274. -/
inductive Outcome where
  | done
  | aborted
  | stuck
  deriving DecidableEq

/-- `STEP_GEN` … `DONE_STEP_GEN`, `motor-interface-pru.p:243-285`.
`estop k` is the level of the emergency stop input when it is sampled before the
`k`-th pass.  `status` is the loop counter in r28.
The result lists the passes performed, in order. -/
def stepGen (fr : Motor → Nat) (estop : Nat → Bool) :
    (fuel : Nat) → (k : Nat) → Regs → (Motor → Nat) → (status : Nat) → List Pass × Outcome
  | 0, _, _, _, _ => ([], .stuck)
  | fuel + 1, k, r, m, status =>
    if estop k then ([], .aborted)
    else
      let m' := fun i => reg (m i + fr i)
      let rd := calculateDelay r
      if rd.2 = 0 then ([⟨m', status, 0⟩], .done)
      else
        let status' := status - 1
        let rest := stepGen fr estop fuel (k + 1) rd.1 m' status'
        (⟨m', status', rd.2⟩ :: rest.1, rest.2)

/-- Total number of loops of a segment, `motor-interface-pru.p:227-229`. -/
def MotionSegment.loops (s : MotionSegment) : Nat :=
  s.loopsAccel + s.loopsTravel + s.loopsDecel

/-- Execution of one queue slot, `motor-interface-pru.p:206-285`: motor states are
cleared, then passes are made until `CalculateDelay` reports 0 or the emergency
stop is seen. -/
def exec (s : MotionSegment) (estop : Nat → Bool) : List Pass × Outcome :=
  stepGen s.fractions estop (s.loops + 1) 0 (Regs.load s) (fun _ => 0) s.loops

/-- Direction pin of motor `i` during the segment: `motor-interface-pru.p:206-207`,
`pru-generic-io-routines.hp:71-80`. -/
def MotionSegment.dirPin (s : MotionSegment) (i : Motor) : Bool := s.directionBits.testBit i.val

/-! ## The simulation, `/repo/src/sim-firmware.cc:165-324`

Only the part that determines loops, delays and steps; output formatting and
simulated time are left out. -/

/-- Lines 235-306: update of the segment fields for one loop; `none` is `break`.
The second component is `delay_loops`. -/
def simDelay (r : Regs) : Option (Regs × Nat) :=
  if r.loopsAccel > 0 then
    let r' :=
      if r.index ≠ 0 then
        let dividend := reg (reg (r.cycles * 2) + r.remainder)
        let divisor := reg (reg (r.index * 4) + 1)
        { r with cycles := sub32 r.cycles (dividend / divisor), remainder := dividend % divisor }
      else r
    some ({ r' with index := reg (r'.index + 1), loopsAccel := r'.loopsAccel - 1 },
      r'.cycles >>> delayCycleShift)
  else if r.loopsTravel > 0 then
    some ({ r with loopsTravel := r.loopsTravel - 1 }, r.travelDelay)
  else if r.loopsDecel > 0 then
    let dividend := reg (reg (r.cycles * 2) + r.remainder)
    let divisor := sub32 (reg (r.index * 4)) 1
    let r' := { r with cycles := reg (r.cycles + dividend / divisor)
                       remainder := dividend % divisor }
    some ({ r' with index := sub32 r'.index 1, loopsDecel := r'.loopsDecel - 1 },
      r'.cycles >>> delayCycleShift)
  else none

/-- Lines 187-322: the loop. Result: the delay of every completed loop and the final
step counters; `none` if the fuel was too small (proved not to happen). -/
def simLoop (fr : Motor → Nat) (dir : Motor → Bool) :
    (fuel : Nat) → Regs → (Motor → Nat) → (Motor → Int) → Option (List Nat × (Motor → Int))
  | 0, _, _, _ => none
  | fuel + 1, r, m, steps =>
    let m' := fun i => reg (m i + fr i)
    let steps' := fun i =>
      if !(m i).testBit 31 && (m' i).testBit 31 then steps i + (if dir i then -1 else 1)
      else steps i
    match simDelay r with
    | none => some ([], steps')
    | some (r', d) =>
      (simLoop fr dir fuel r' m' steps').map fun p => (d :: p.1, p.2)

/-- The variables the simulation starts with: the fields of the segment and `remainder`, line 184. -/
def Regs.simLoad (s : MotionSegment) : Regs :=
  { loopsAccel := s.loopsAccel, loopsTravel := s.loopsTravel, loopsDecel := s.loopsDecel
    index := s.accelSeriesIndex, cycles := s.hiresAccelCycles
    travelDelay := s.travelDelayCycles, remainder := 0 }

/-- `SimFirmwareQueue::Enqueue` for a segment that is not the exit marker, starting
from the step counters `steps` (`sim_steps`, a static variable, line 151). -/
def simExec (s : MotionSegment) (steps : Motor → Int) : Option (List Nat × (Motor → Int)) :=
  simLoop s.fractions s.dirPin (s.loops + 1) (Regs.simLoad s) (fun _ => 0) steps

end BeagleG.StepGen
