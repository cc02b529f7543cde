import Verif.FdMux.Model
import Verif.LineBuf.Model
/-!
# Model of the servers: `/repo/src/machine-control.cc` 157-345, `/repo/src/gcode-parser/gcode-streamer.cc`

The handlers that the program registers with the multiplexer (`Verif.FdMux.Model`), on a table of the open
descriptors of the process. A connection is identified by the number of the `accept` it came from, so that a
descriptor number that is used again is a different connection. A `FILE` is represented by the number of the
descriptor it was opened on: the program never calls `fclose` on one. The line buffer and the streamer are
those of `Verif.LineBuf.Model`. What the parser and the machine do with a line is left out, except where the
messages they print meanwhile would go. Partial writes, and messages lost as the other side does not read, are
left out.
-/
namespace BeagleG.Server
open BeagleG.FdMux
open BeagleG.LineBuf (Byte Buf Streamer)

/-- What an open descriptor refers to: a listening socket, the connection that was accepted as number `c`, or
anything else. The descriptors of machine-control.cc 161, 172, 216, 278. -/
inductive Obj where
  | socket
  | client (c : Nat)
  | other
  deriving DecidableEq, Repr

/-- What the system calls of one call of a handler return. `accept`: the descriptor; the kernel gives one that
is not in use. `getfl`, `setfl`: the calls of `fcntl` succeed. `fdopen`: does not return NULL. `read`: the
bytes, `none` for −1 (also for `EAGAIN`). machine-control.cc 161, 216-250, 278, 287; gcode-streamer.cc 74. -/
structure Answer where
  accept : Option Nat
  getfl : Bool
  setfl : Bool
  fdopen : Bool
  read : Option (List Byte)

/-- What happens. The messages are where something printed by the parser (to the stream it is given) or by the
machine (to the stream of `SetMsgOut`) during the act goes to; `none` if nothing is written, for want of a
stream or as the descriptor is closed. machine-control.cc 157-342; gcode-streamer.cc 45-108. -/
inductive Act where
  /-- `accept` on a listening socket fails. -/
  | acceptFail (socket : Nat)
  /-- `accept` on a listening socket returns this descriptor, for this connection. -/
  | accept (socket fd c : Nat)
  /-- The handler returns after a failed `fcntl`; the descriptor stays open. -/
  | abandon (fd c : Nat)
  /-- "Sorry, can only handle one connection at a time" is printed to the connection. -/
  | refuse (fd c : Nat)
  /-- `ConnectStream` succeeds. -/
  | connect (fd c : Nat)
  /-- The streamer calls `read` on the descriptor, which refers to this object. -/
  | read (fd : Nat) (o : Option Obj) (data : Option (List Byte))
  /-- `ParseBlock`. -/
  | parse (line : List Byte) (parserMsg machineMsg : Option Obj)
  /-- `gcode_finished(true)`. -/
  | finish (machineMsg : Option Obj)
  | close (fd : Nat) (o : Option Obj)
  /-- `input_idle`. -/
  | idle (first : Bool) (machineMsg : Option Obj)
  /-- The status server starts to wait for queries of a connection. -/
  | watch (fd c : Nat)
  /-- The status server calls `read` for one byte. -/
  | query (fd : Nat) (o : Option Obj) (data : Option Byte)
  /-- The status server answers a query. -/
  | reply (fd : Nat) (o : Option Obj) (q : Byte)
  deriving DecidableEq, Repr

/-- The functions registered with the multiplexer, with the values they capture.
machine-control.cc 212-254, 274-341; gcode-streamer.cc 42, 58. -/
inductive Handler where
  /-- machine-control.cc 214 -/
  | gcodeListen (socket : Nat)
  /-- machine-control.cc 280 -/
  | statusListen (socket : Nat)
  /-- machine-control.cc 291 -/
  | statusClient (fd : Nat)
  /-- gcode-streamer.cc 58 -/
  | stream
  /-- gcode-streamer.cc 42 -/
  | timeout
  deriving DecidableEq, Repr

/-- The process and the system around it. The members of gcode-streamer.h 28-59, and the descriptors of the process. -/
structure World where
  /-- The open descriptors of the process. -/
  tab : Nat → Option Obj
  /-- The number of connections accepted so far. -/
  next : Nat
  /-- `GCodeStreamer::connection_fd_`, `none` if −1. -/
  connFd : Option Nat
  /-- `GCodeStreamer::msg_stream_`, `none` if NULL. -/
  msgStream : Option Nat
  /-- `GCodeMachineControl::Impl::msg_stream_`. -/
  msgOut : Option Nat
  /-- `GCodeStreamer::line_tokenize_buffer_`. -/
  buf : Buf
  /-- `GCodeStreamer::is_processing_`. -/
  processing : Bool
  /-- The system, call by call. -/
  answers : Nat → Answer
  calls : Nat
  /-- What happened so far. -/
  log : List Act

/-- A descriptor is opened or closed.
`accept`, `open` and `close`, machine-control.cc 161, 216, 241, 278, 288; gcode-streamer.cc 66. -/
def setTab (t : Nat → Option Obj) (fd : Nat) (o : Option Obj) : Nat → Option Obj :=
  fun x => if x = fd then o else t x

/-- Where output to a `FILE` goes at the moment. The streams of machine-control.cc 160-162, 250-252. -/
def World.target (w : World) (f : Option Nat) : Option Obj := f.bind w.tab

/-- The streamer of `Verif.LineBuf.Model`. gcode-streamer.h 28-59. -/
def World.streamer (w : World) : Streamer := ⟨w.buf, w.connFd.isSome, w.processing⟩

/-- Something happens. Recording for the specification; no code of its own. -/
def World.add (w : World) (l : List Act) : World := { w with log := w.log ++ l }

/-- The answers for this call, and the world that will give the next ones.
machine-control.cc 216-250, 278, 287; gcode-streamer.cc 74. -/
def World.answer (w : World) : Answer := w.answers w.calls

/-- A call was answered. Bookkeeping of the model; no code of its own. -/
def World.tick (w : World) : World := { w with calls := w.calls + 1 }

/-- `accept`: a descriptor that is not in use. machine-control.cc 216-217, 278-279. -/
def World.accepted (w : World) (a : Answer) : Option Nat :=
  match a.accept with
  | none => none
  | some fd => if (w.tab fd).isNone then some fd else none

/-- What a handler yields: the return value, the registrations and the world; `none` if the behaviour is
undefined. common/fd-mux.h 37. -/
abbrev Result := Bool × List (Reg Handler) × Option World

/-- `GCodeStreamer::ConnectStream`, gcode-streamer.cc 45-60. -/
def connectStream (w : World) (fd c : Nat) (file : Option Nat) : List (Reg Handler) × World :=
  if w.connFd.isSome then ([], w)
  else ([⟨.read, fd, .stream⟩], { w with msgStream := file, connFd := some fd }.add [.connect fd c])

/-- The handler of the listening socket for G-code, machine-control.cc 214-257. -/
def gcodeListen (socket : Nat) (w : World) : Result :=
  let a := w.answer
  let w := w.tick
  match w.accepted a with
  | none => (true, [], some (w.add [.acceptFail socket]))
  | some fd =>
    let c := w.next
    let w := { w with tab := setTab w.tab fd (some (.client c)), next := c + 1 }.add [.accept socket fd c]
    if !a.getfl then (true, [], some (w.add [.abandon fd c]))
    else if !a.setfl then (true, [], some (w.add [.abandon fd c]))
    else if w.connFd.isSome then
      (true, [], some ({ w with tab := setTab w.tab fd none }.add [.refuse fd c, .close fd (w.tab fd)]))
    else
      let file := if a.fdopen then some fd else none
      let r := connectStream { w with msgOut := file } fd c file
      (true, r.1, some r.2)

/-- What an output of the streamer's model is here. gcode-streamer.cc 62-115. -/
def outAct (w : World) (fd : Nat) : LineBuf.Out → Act
  | .parse l => .parse l (w.target w.msgStream) (w.target w.msgOut)
  | .finished => .finish (w.target w.msgOut)
  | .close => .close fd (w.tab fd)
  | .idle first => .idle first (w.target w.msgOut)
  | .connect _ => .connect fd 0

/-- `ReadData`, gcode-streamer.cc 72-108, with `CloseStream` 62-69. It is called only while there is a
connection. -/
def readData (w : World) : Result :=
  match w.connFd with
  | none => (false, [], none)
  | some fd =>
    let a := w.answer
    let w := w.tick
    match w.streamer.step (.readable a.read) with
    | none => (true, [], none)
    | some (s, outs) =>
      let w1 := { w with buf := s.buf, processing := s.processing }.add
        (.read fd (w.tab fd) a.read :: outs.map (outAct w fd))
      if s.connected then (true, [], some w1)
      else (false, [], some { w1 with connFd := none, tab := setTab w1.tab fd none })

/-- `Timeout`, gcode-streamer.cc 111-115. -/
def timeout (w : World) : Result :=
  (true, [], some ({ w with processing := false }.add [.idle w.processing (w.target w.msgOut)]))

/-- The handler of the listening socket of the status server, machine-control.cc 280-344. -/
def statusListen (socket : Nat) (w : World) : Result :=
  let a := w.answer
  let w := w.tick
  match w.accepted a with
  | none => (true, [], some (w.add [.acceptFail socket]))
  | some fd =>
    let c := w.next
    (true, [⟨.read, fd, .statusClient fd⟩],
      some ({ w with tab := setTab w.tab fd (some (.client c)), next := c + 1 }.add
        [.accept socket fd c, .watch fd c]))

/-- The handler of a connection to the status server, machine-control.cc 291-341: one byte is read; 'p' and 's'
are answered, other bytes ignored. -/
def statusClient (fd : Nat) (w : World) : Result :=
  let q := (w.answer.read.getD []).head?
  let w := w.tick
  match q with
  | none =>
    (false, [], some ({ w with tab := setTab w.tab fd none }.add [.query fd (w.tab fd) none, .close fd (w.tab fd)]))
  | some q =>
    (true, [], some (w.add (.query fd (w.tab fd) (some q) ::
      if q = 0x70 ∨ q = 0x73 then [.reply fd (w.tab fd) q] else [])))

/-- The handlers, as registered in machine-control.cc 196-282 and gcode-streamer.cc 42-58. -/
def handle : Handler → World → Result
  | .gcodeListen s, w => gcodeListen s w
  | .statusListen s, w => statusListen s w
  | .statusClient fd, w => statusClient fd w
  | .stream, w => readData w
  | .timeout, w => timeout w

/-- Calling a handler, for the multiplexer. Once something was undefined nothing more is said. common/fd-mux.cc 99, 145. -/
def call : CallFun Handler (Option World)
  | h, some w => handle h w
  | _, none => (true, [], none)

/-- What is registered before the loop: the streamer's `Timeout` (constructor, gcode-streamer.cc 42), the
listening socket for G-code (machine-control.cc 213) and that of the status server, if there is one
(machine-control.cc 637-640, 280). -/
def startMux (gcode : Nat) (status : Option Nat) : Mux Handler :=
  ((⟨fun _ => [], [.timeout]⟩ : Mux Handler).registerAll
    (⟨.read, gcode, .gcodeListen gcode⟩ :: match status with
      | none => []
      | some s => [⟨.read, s, .statusListen s⟩])).1

/-- The world before the loop: `stderr` (descriptor 2) is the machine's message stream, machine-control.cc
612-613. -/
def startWorld (tab : Nat → Option Obj) (buf : Buf) (answers : Nat → Answer) : World :=
  { tab := tab, next := 0, connFd := none, msgStream := none, msgOut := some 2, buf := buf, processing := false,
    answers := answers, calls := 0, log := [] }

/-- The event loop of the server, machine-control.cc 643, with the results of `select` given. -/
def serve (gcode : Nat) (status : Option Nat) (tab : Nat → Option Obj) (buf : Buf) (answers : Nat → Answer)
    (sels : List Sel) : Mux Handler × Option World × List (Ev Handler) :=
  loop call (startMux gcode status) (some (startWorld tab buf answers)) sels

/-! ### A file instead of the server -/

/-- `FD_SETSIZE`, <sys/select.h>. Bound of `FD_SET`, common/fd-mux.cc 120, 126. -/
def fdSetSize : Int := 1024

/-- The start of `SingleCycle`, fd-mux.cc 113-128: `FD_SET` for all keys of the maps, which is undefined for
a number that is negative or not below `FD_SETSIZE`; the result is whether there is something to wait for
(`maxfd >= 0`). -/
def prepareSets (keys : List Int) : Option Bool :=
  if keys.all (fun fd => decide (0 ≤ fd) && decide (fd < fdSetSize)) then some (!keys.isEmpty) else none

/-- `send_file_to_machine`, machine-control.cc 157-163: the keys registered for reading, from the result of
`open` (−1 if the file cannot be opened). `ConnectStream` finds `connection_fd_` to be −1 and registers
whatever it is given. -/
def sendFile (fd : Int) : List Int := [fd]

/-! ### The status reply -/

/-- `EStopState`, gcode-machine-control.h 83. -/
inductive EStop where
  | none | soft | hard
  deriving DecidableEq, Repr

/-- `PauseState` and `StartState`, gcode-machine-control.h 84-85. -/
inductive Switch where
  | none | active | inactive
  deriving DecidableEq, Repr

/-- `HomingState`, gcode-machine-control.h 89. -/
inductive Homing where
  | never | unpowered | homed
  deriving DecidableEq, Repr

/-- `%s` of the reply, machine-control.cc 321-336. -/
def EStop.text : EStop → List Char
  | .none => ['n', 'o', 'n', 'e']
  | .soft => ['s', 'o', 'f', 't']
  | .hard => ['h', 'a', 'r', 'd']

/-- `%s` of the reply, machine-control.cc 321-336. -/
def Switch.text : Switch → List Char
  | .none => ['n', 'o', 'n', 'e']
  | .active => ['a', 'c', 't', 'i', 'v', 'e']
  | .inactive => ['i', 'n', 'a', 'c', 't', 'i', 'v', 'e']

/-- `%s` of the reply, machine-control.cc 321-336. -/
def Homing.text : Homing → List Char
  | .never => ['n', 'o']
  | .unpowered => ['m', 'a', 'y', 'b', 'e']
  | .homed => ['y', 'e', 's']

/-- The reply to 's', machine-control.cc 305-339. -/
def statusReply (e : EStop) (p s : Switch) (h : Homing) (motors : Bool) : List Char :=
  "{\"estop\":\"".toList ++ (e.text ++ ("\", \"pause\":\"".toList ++ (p.text ++ ("\", \"start\":\"".toList ++
  (s.text ++ ("\", \"homed\":\"".toList ++ (h.text ++ ("\", \"motors\":".toList ++
  ((if motors then "true".toList else "false".toList) ++ "}\n".toList)))))))))

end BeagleG.Server
