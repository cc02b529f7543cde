/-!
# The queue between host and PRU

Host side: `/repo/src/pru-motion-queue.cc`. Firmware side: the main loop of
`/repo/src/motor-interface-pru.p` (lines 182-304, from `INIT` to `HALT`). Both sides are programs
over shared memory; the model is the interleaving of their atomic steps. One action of `step` is one
access to shared memory (or a private computation together with the following access).

Simplifications: memory is sequentially consistent; an element is the list of its `N` bytes after the
state byte; what the firmware does with an element is reduced to `loops` passes plus a final one
(`StepGen` has the details); the 24 bit loop counter does not overflow (it is a sum of three 16 bit
numbers); `EXIT` elements carry no payload.
-/
namespace BeagleG.PruQueue

/-- `STATE_*`, motor-interface-constants.h 29-32. -/
inductive SlotState where
  | empty | filled | exit | abort
deriving DecidableEq, Repr

/-- `QUEUE_LEN`, motor-interface-constants.h 35. -/
def queueLen : Nat := 16

/-- What the host hands over. pru-motion-queue.cc 125-151, 167-173; motion-queue.h 51-80. -/
inductive Elem where
  | seg (bytes : List Nat)
  | exit
deriving DecidableEq, Repr

/-- The state byte that announces an element. pru-motion-queue.cc 126, 170. -/
def Elem.kind : Elem → SlotState
  | .seg _ => .filled
  | .exit => .exit

/-- The bytes copied to the slot; the element of `Shutdown` is all zero
(pru-motion-queue.cc 169). -/
def Elem.bytes (N : Nat) : Elem → List Nat
  | .seg p => p
  | .exit => List.replicate N 0

/-- How the firmware left an element.
motor-interface-pru.p 182-304: the segment is done, or the emergency stop ends it. -/
inductive Outcome where
  | executed | aborted
deriving DecidableEq, Repr

/-- State byte the firmware leaves behind (.p 251, 285). -/
def Outcome.state : Outcome → SlotState
  | .executed => .empty
  | .aborted => .abort

/-- What a host call returned. pru-motion-queue.cc 136, 150, 153-161. -/
inductive Result where
  /-- `Enqueue` returned true. -/
  | accepted (e : Elem)
  /-- `Enqueue` returned false. -/
  | refused (e : Elem)
  /-- `WaitQueueEmpty` returned because the last slot is empty. -/
  | drained
  /-- `WaitQueueEmpty` returned because the last slot is aborted. -/
  | drainedAbort
  /-- `GetPendingElements` returned `n` with progress `loops`. -/
  | pending (n loops : Nat)
  /-- `Shutdown` returned. -/
  | shutdown
deriving DecidableEq, Repr

/-- Where to continue after `WaitEvent`. pru-motion-queue.cc 133-139, 155-160, 167-173. -/
inductive Cont where
  | enq (e : Elem)
  | wait
deriving DecidableEq, Repr

/-- Program counter of the host. pru-motion-queue.cc 125-176. -/
inductive HostPc where
  | idle
  /-- `Enqueue` line 133: about to read the state of the slot. -/
  | check (e : Elem)
  /-- line 134: about to read it again. -/
  | checkAbort (e : Elem)
  /-- line 135: about to clear an aborted slot. -/
  | clearAbort (e : Elem)
  /-- In `WaitEvent`, waiting (lines 138, 159). -/
  | blocked (k : Cont)
  /-- In `WaitEvent`, about to clear the event (uio-pruss-interface.cc `WaitEvent`). -/
  | clearing (k : Cont)
  /-- line 142, first byte of the copy: state `EMPTY`, to slot `w`. -/
  | copyState (w : Nat) (e : Elem)
  /-- line 142, byte `k` of the payload. -/
  | copy (w : Nat) (e : Elem) (k : Nat)
  /-- `WaitQueueEmpty` line 155. -/
  | wcheck
  /-- line 156. -/
  | wcheckAbort
  /-- `GetPendingElements` line 98. -/
  | pend1
  /-- line 104, with the status read. -/
  | pend2 (index counter : Nat)
  /-- `Shutdown` line 174. -/
  | off
  /-- `Shutdown` line 175. -/
  | motorsOff
  /-- after `Shutdown`. -/
  | dead
deriving DecidableEq, Repr

/-- Program counter of the firmware; `regs` are the parameters in its registers. motor-interface-pru.p 182-304. -/
inductive PruPc where
  /-- `QUEUE_READ`. -/
  | poll
  /-- header with direction byte `d` was read, about to load the parameters. -/
  | load (d : Nat)
  /-- about to publish the status. -/
  | publish (regs : List Nat)
  /-- `STEP_GEN`: about to sample the emergency stop; `left` loops to do. -/
  | sample (regs : List Nat) (left : Nat)
  /-- `DO_STEP_GEN`. -/
  | pass (regs : List Nat) (left : Nat)
  /-- about to write the state of the slot. -/
  | mark (regs : List Nat) (o : Outcome)
  /-- about to raise the event. -/
  | signal
  /-- about to go to the next slot. -/
  | advance
  /-- `FINISH`. -/
  | finish
  | finishSignal
  | halted
  /-- Disabled by the host. -/
  | disabled
deriving DecidableEq, Repr

/-- Host, shared memory and firmware. pru-motion-queue.cc 42-45 and the members used at 91-176. -/
structure Sys where
  /-- state bytes of the ring buffer -/
  slot : Nat → SlotState
  /-- payload bytes of the ring buffer -/
  cell : Nat → Nat → Nat
  /-- `PRUCommunication::status`: index and counter -/
  status : Nat × Nat
  /-- the event `PRU0_ARM_INTERRUPT` is pending -/
  event : Bool
  /-- level of the emergency stop input -/
  estop : Bool
  /-- `queue_pos_` -/
  hpos : Nat
  host : HostPc
  /-- the host is inside `Shutdown(true)` -/
  shutting : Bool
  /-- motors enabled (`hardware_mapping_->EnableMotors`) -/
  motors : Bool
  /-- slot number of `r2`; always equal to `r28.b3` -/
  ppos : Nat
  /-- lower three bytes of `r28` -/
  r28 : Nat
  pru : PruPc
  /-- what the host calls returned so far, in order -/
  results : List Result
  /-- what the firmware took from the queue so far, in order (registers, outcome) -/
  consumed : List (Elem × Outcome)
  /-- number of passes of the step generation so far (each may output step pulses) -/
  passes : Nat

/-- Elements for which `Enqueue` returned true, in order. Specification; no code of its own. -/
def accepted (s : Sys) : List Elem :=
  s.results.filterMap fun | .accepted e => some e | _ => none

/-- One entry of a table is replaced. Assignment to an element of `ring_buffer`, pru-motion-queue.cc 93, 142, 145, 197. -/
def upd {α : Type} (f : Nat → α) (i : Nat) (v : α) : Nat → α := fun j => if j = i then v else f j

/-- State after `Init` (pru-motion-queue.cc 188-202): memory zeroed by `AllocateSharedMem`
(uio-pruss-interface.cc), all slots `EMPTY` (= 0), firmware at `QUEUE_READ`. -/
def init : Sys where
  slot := fun _ => .empty
  cell := fun _ _ => 0
  status := (0, 0)
  event := false
  estop := false
  hpos := 0
  host := .idle
  shutting := false
  motors := false
  ppos := 0
  r28 := 0
  pru := .poll
  results := []
  consumed := []
  passes := 0

/-- A step of the client, of the host, of the firmware or of the surroundings.
Interleaving of pru-motion-queue.cc 91-176 with motor-interface-pru.p. -/
inductive Action where
  /-- the client calls `Enqueue` with state `FILLED` -/
  | callEnqueue (bytes : List Nat)
  | callWait
  | callPending
  | callMotorEnable (on : Bool)
  /-- `Shutdown(true)` -/
  | callShutdown
  /-- next step of the host -/
  | host
  /-- next step of the firmware -/
  | pru
  /-- next step of the firmware, where the computed delay happens to be the stop value 0 although
  loops are left (C20) -/
  | pruEarly
  /-- the emergency stop input changes -/
  | estop (on : Bool)
deriving DecidableEq, Repr

/-- `RingbufferOffset`, pru-motion-queue.cc 85-89, for offset `-k`, `k ≤ 16`. -/
def ringOffset (current k : Nat) : Nat := (queueLen + current - k) % queueLen

/-- `GetPendingElements`, pru-motion-queue.cc 104-110, after the status was read. -/
def pendingCount (hpos index : Nat) (lastState : SlotState) : Nat :=
  if lastState = .empty then 0
  else if ringOffset hpos index = 0 then queueLen else ringOffset hpos index

/-- A call returns: `Shutdown` continues with the next statement (lines 171-174). -/
def ret (s : Sys) (r : Result) : Sys :=
  { s with
    results := s.results ++ [r]
    host := if s.shutting then
        (match r with
         | .accepted _ => .wcheck
         | .refused _ => .wcheck
         | _ => .off)
      else .idle }

/-- One step of the host. `none`: it is not running (idle, blocked or gone). pru-motion-queue.cc 91-176. -/
def hostStep (N : Nat) (s : Sys) : Option Sys :=
  match s.host with
  | .idle => none
  | .dead => none
  | .check e =>
    -- lines 133, 141 (`queue_pos_++`)
    if s.slot s.hpos = .empty then some { s with host := .copyState s.hpos e, hpos := s.hpos + 1 }
    else some { s with host := .checkAbort e }
  | .checkAbort e =>
    if s.slot s.hpos = .abort then some { s with host := .clearAbort e }
    else some { s with host := .blocked (.enq e) }
  | .clearAbort e => some (ret { s with slot := upd s.slot s.hpos .empty } (.refused e))
  | .blocked k => if s.event then some { s with host := .clearing k } else none
  | .clearing (.enq e) => some { s with event := false, host := .check e }
  | .clearing .wait => some { s with event := false, host := .wcheck }
  | .copyState w e => some { s with slot := upd s.slot w .empty, host := .copy w e 0 }
  | .copy w e k =>
    if k < N then
      some { s with cell := upd s.cell w (upd (s.cell w) k ((e.bytes N).getD k 0)),
                    host := .copy w e (k + 1) }
    else -- line 145
      some (ret { s with slot := upd s.slot w e.kind } (.accepted e))
  | .wcheck =>
    if s.slot (ringOffset s.hpos 1) = .empty then some (ret s .drained)
    else some { s with host := .wcheckAbort }
  | .wcheckAbort =>
    if s.slot (ringOffset s.hpos 1) = .abort then some (ret s .drainedAbort)
    else some { s with host := .blocked .wait }
  | .pend1 => some { s with host := .pend2 s.status.1 s.status.2 }
  | .pend2 index counter =>
    some (ret s (.pending (pendingCount s.hpos index (s.slot (ringOffset s.hpos 1))) counter))
  | .off => some { s with pru := .disabled, host := .motorsOff }
  | .motorsOff =>
    some { s with motors := false, host := .dead, results := s.results ++ [.shutdown] }

/-- One step of the firmware; `early`: the stop value 0 shows up in this pass. `none`: it does not
run. motor-interface-pru.p 182-304. -/
def pruStep (N : Nat) (loops : List Nat → Nat) (early : Bool) (s : Sys) : Option Sys :=
  match s.pru with
  | .poll =>
    -- .p 192-203
    match s.slot s.ppos with
    | .empty => some s
    | .abort => some s
    | .exit => some { s with pru := .finish }
    | .filled => some { s with pru := .load (s.cell s.ppos 0) }
  | .load d =>
    -- .p 205-212 (the header was read in one burst, the rest in a second one)
    some { s with pru := .publish (d :: (List.range (N - 1)).map fun k => s.cell s.ppos (k + 1)) }
  | .publish regs =>
    -- .p 227-232
    let r := s.r28 + loops regs
    some { s with r28 := r, status := (s.ppos, r), pru := .sample regs (loops regs) }
  | .sample regs left =>
    -- .p 243-252
    if s.estop then
      some { s with r28 := 0, status := (s.ppos, 0), pru := .mark regs .aborted }
    else some { s with pru := .pass regs left }
  | .pass regs left =>
    -- .p 254-281; `UpdateQueueStatus` 172-180
    if left = 0 ∨ early then some { s with passes := s.passes + 1, pru := .mark regs .executed }
    else some { s with passes := s.passes + 1, r28 := s.r28 - 1, status := (s.ppos, s.r28 - 1),
                       pru := .sample regs (left - 1) }
  | .mark regs o =>
    -- .p 283-287
    some { s with slot := upd s.slot s.ppos o.state,
                  consumed := s.consumed ++ [(.seg regs, o)], pru := .signal }
  | .signal => some { s with event := true, pru := .advance }
  | .advance =>
    -- .p 290-297
    if s.ppos + 1 < queueLen then some { s with ppos := s.ppos + 1, pru := .poll }
    else some { s with ppos := 0, r28 := 0, pru := .poll }
  | .finish =>
    -- .p 299-301
    some { s with slot := upd s.slot s.ppos .empty, consumed := s.consumed ++ [(.exit, .executed)],
                  pru := .finishSignal }
  | .finishSignal => some { s with event := true, pru := .halted }
  | .halted => none
  | .disabled => none

/-- One action. `none`: it is not possible in this state. pru-motion-queue.cc 91-176 and motor-interface-pru.p 182-304. -/
def step (N : Nat) (loops : List Nat → Nat) (s : Sys) : Action → Option Sys
  | .callEnqueue bytes =>
    -- lines 126-132; the caller passes a complete `MotionSegment`
    if s.host = .idle ∧ bytes.length = N then
      some { s with host := .check (.seg bytes), hpos := s.hpos % queueLen }
    else none
  | .callWait => if s.host = .idle then some { s with host := .wcheck } else none
  | .callPending => if s.host = .idle then some { s with host := .pend1 } else none
  | .callMotorEnable on => if s.host = .idle then some { s with motors := on } else none
  | .callShutdown =>
    -- lines 167-171
    if s.host = .idle then
      some { s with host := .check .exit, hpos := s.hpos % queueLen, shutting := true }
    else none
  | .host => hostStep N s
  | .pru => pruStep N loops false s
  | .pruEarly => pruStep N loops true s
  | .estop on => some { s with estop := on }

/-- An execution: any sequence of actions, i.e. any interleaving. Specification: any interleaving; no code of its own. -/
def run (N : Nat) (loops : List Nat → Nat) (s : Sys) : List Action → Option Sys
  | [] => some s
  | a :: as => (step N loops s a).bind fun s' => run N loops s' as

end BeagleG.PruQueue
