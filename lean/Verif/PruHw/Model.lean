import Verif.Firmware.Capes

/-!
# The interfaces to the PRU

`/repo/src/uio-genirq-interface.cc` and `/repo/src/uio-pruss-interface.cc` with the start in
`/repo/src/pru-motion-queue.cc` 188-202: finding the device, mapping its memories, loading and starting the
firmware, stopping it, and the release of everything. Waiting for events is in `Events`.

Simplifications: a mapping is the number of its region; what the kernel answers is a parameter; `usleep` and messages
are left out. `libprussdrv` is not part of the repository; it is reduced to the writes it makes (loading words one by
one, `2` to the control register for enable, `1` for disable).
-/
namespace BeagleG.PruHw

/-! ### The device -/

/-- `kUioName`, uio-genirq-interface.cc 84. -/
def uioName : List Char := "beagleg_pru_irq".toList

/-- The comparison of lines 115-117; `name` is the line that `fgets` read. -/
def nameMatches (name : List Char) : Bool :=
  name.take uioName.length == uioName &&
    match name[uioName.length]? with
    | none => true
    | some c => c == '\n' || c == '@'

/-- An entry of `/sys/class/uio`: its name and the first line of its file `name`, `none` if it cannot be read. -/
structure Entry where
  dname : List Char
  line : Option (List Char)
deriving DecidableEq, Repr

/-- At most 63 characters of the line, up to and with the end of line: `fgets`, line 114. -/
def fgets (n : Nat) : List Char → List Char
  | [] => []
  | c :: r => match n with
    | 0 => []
    | n + 1 => if c = '\n' then [c] else c :: fgets n r

/-- Is it the device that is looked for? Lines 107-119. An empty line (end of file) makes `fgets` fail. -/
def Entry.isOurs (e : Entry) : Bool :=
  e.dname.head? ≠ some '.' &&
    match e.line with
    | none => false
    | some l => !(fgets 63 l).isEmpty && nameMatches (fgets 63 l)

/-- `OpenUioDevice` 103-135: the first entry that matches; `dir = none` if the directory cannot be opened. The result is
what is handed to `open`. -/
def findDevice (dir : Option (List Entry)) : Option (List Char) :=
  match dir with
  | none => none
  | some es => (es.find? Entry.isOurs).map fun e => "/dev/".toList ++ e.dname

/-! ### Mapping and release -/

/-- Which memory, lines 60-62. -/
inductive Region where
  | dataRam | ctrl | iram
deriving DecidableEq, Repr

/-- `kPageSize`, line 54. -/
def pageSize : Nat := 4096

/-- `MapRange::size`, lines 60-62. -/
def Region.size : Region → Nat
  | .dataRam => 2 * pageSize
  | .ctrl => pageSize
  | .iram => 2 * pageSize

/-- `MapRange::index`, lines 60-62. -/
def Region.index : Region → Nat
  | .dataRam => 0
  | .ctrl => 1
  | .iram => 2

/-- The offset given to `mmap`, line 96. -/
def Region.offset (r : Region) : Nat := r.index * pageSize

/-- The fields of `UioGenirqInterface`, pru-hardware-interface.h 93-96: open, and which memories are mapped. -/
structure Iface where
  fd : Bool := false
  dataRam : Bool := false
  ctrl : Bool := false
  iram : Bool := false
deriving DecidableEq, Repr

/-- What is held and must be given back. uio-genirq-interface.cc 137-158. -/
inductive Res where
  | fd
  | map (r : Region) (size : Nat)
deriving DecidableEq, Repr

/-- Answers of the kernel. Answers to uio-genirq-interface.cc 95, 101-133, 206, 213 and uio-pruss-interface.cc 50-90. -/
structure Answers where
  dir : Option (List Entry)
  opens : Bool
  maps : Region → Bool

/-- What `Init` leaves, what it returns and what it acquired: lines 147-158. -/
def init (a : Answers) : Iface × Bool × List Res :=
  match findDevice a.dir with
  | none => ({}, false, [])
  | some _ =>
    if a.opens then
      let s : Iface := { fd := true, dataRam := a.maps .dataRam, ctrl := a.maps .ctrl, iram := a.maps .iram }
      (s, s.dataRam && s.ctrl && s.iram,
        .fd :: ([Region.dataRam, .ctrl, .iram].filter a.maps).map fun r => .map r r.size)
    else ({}, false, [])

/-- `~UioGenirqInterface`, lines 140-145: what is released, in this order. -/
def Iface.destroy (s : Iface) : List Res :=
  (if s.iram then [.map .iram Region.iram.size] else []) ++
  (if s.ctrl then [.map .ctrl Region.ctrl.size] else []) ++
  (if s.dataRam then [.map .dataRam Region.dataRam.size] else []) ++
  (if s.fd then [.fd] else [])

/-! ### The core -/

/-- The PRU as its host sees it. `wedged`: it does not run but drops what is written to its instruction memory
(uio-genirq-interface.cc 174-178). -/
structure Core where
  iram : Nat → Nat
  dram : Nat → Nat
  enabled : Bool
  wedged : Bool
  pc : Nat

/-- A write to the control register (lines 64-79): bit 0 clear is a reset, and execution then starts at the address in
the upper half; bit 1 lets the core run. `clears`: whether a reset ends the wedged state. -/
def Core.writeCtrl (clears : Bool) (v : Nat) (c : Core) : Core :=
  if v % 2 = 0 then
    { c with enabled := v.testBit 1, wedged := c.wedged && !clears, pc := v / 2 ^ 16 }
  else
    { c with enabled := v.testBit 1 }

/-- A write to the instruction memory; it is lost unless the core is halted.
uio-genirq-interface.cc 187; uio-pruss-interface.cc 75. -/
def Core.writeIram (i w : Nat) (c : Core) : Core :=
  if c.enabled || c.wedged then c else { c with iram := fun j => if j = i then w else c.iram j }

/-- A write to the data memory by the host. pru-motion-queue.cc 93, 121, 145, 197. -/
def Core.writeDram (a b : Nat) (c : Core) : Core := { c with dram := fun j => if j = a then b else c.dram j }

/-- Writes by whatever runs on the core: none unless it is enabled.
The firmware, motor-interface-pru.p, or whatever ran before it (uio-genirq-interface.cc 174-178). -/
def Core.stores (l : List (Nat × Nat)) (c : Core) : Core :=
  if c.enabled then l.foldl (fun c x => c.writeDram x.1 x.2) c else c

/-- The words of a program one after the other, from word `i` on.
uio-genirq-interface.cc 185-187; uio-pruss-interface.cc 75. -/
def Core.load (c : Core) (i : Nat) : List Nat → Core
  | [] => c
  | w :: r => (c.writeIram i w).load (i + 1) r

/-- Compare with the program, from word `i` on. uio-genirq-interface.cc 188-193. -/
def Core.verify (c : Core) (i : Nat) : List Nat → Bool
  | [] => true
  | w :: r => if c.iram i ≠ w then false else c.verify (i + 1) r

/-- `kCtrlSoftRstN`, `kCtrlEnable`, lines 78-79. -/
def ctrlSoftRstN : Nat := 1
/-- `kCtrlEnable`, line 79. -/
def ctrlEnable : Nat := 2

/-- `UioGenirqInterface::StartExecution`, lines 171-198. -/
def startGenirq (clears : Bool) (code : List Nat) (c : Core) : Core × Bool :=
  let c := (c.writeCtrl clears 0).load 0 code
  if c.verify 0 code then (c.writeCtrl clears ctrlEnable, true) else (c, false)

/-- `UioPrussInterface::StartExecution`, uio-pruss-interface.cc 74-78. -/
def startPruss (clears : Bool) (code : List Nat) (c : Core) : Core × Bool :=
  ((c.load 0 code).writeCtrl clears ctrlEnable, true)

/-- `Shutdown` of both, uio-genirq-interface.cc 223-227, uio-pruss-interface.cc 86-90. -/
def shutdown (clears : Bool) (c : Core) : Core := c.writeCtrl clears ctrlSoftRstN

/-- `memset` to zero of the first `n` bytes of the data memory. uio-genirq-interface.cc 166; uio-pruss-interface.cc 70. -/
def Core.zero (n : Nat) (c : Core) : Core := { c with dram := fun j => if j < n then 0 else c.dram j }

/-- `AllocateSharedMem`, uio-genirq-interface.cc 160-169. -/
def allocGenirq (size : Nat) (c : Core) : Option Core :=
  if size > Region.dataRam.size then none else some (c.zero size)

/-- `sizeof(PRUCommunication)`, pru-motion-queue.cc 42-45: status and the ring. -/
def commSize : Nat := Firmware.queueOffset + Firmware.queueLen * Firmware.elementSize

/-- Address of the state of slot `i`. pru-motion-queue.cc 42-45, 197; motion-queue.h 51-55. -/
def stateAddr (i : Nat) : Nat := Firmware.queueOffset + i * Firmware.elementSize

/-- The states of the slots, pru-motion-queue.cc 196-198. -/
def Core.clearStates (c : Core) : Core :=
  (List.range Firmware.queueLen).foldl (fun c i => c.writeDram (stateAddr i) Firmware.stateEmpty) c

/-- `PRUMotionQueue::Init`, pru-motion-queue.cc 188-202, after a successful `Init` of the interface. What still runs on
the core writes `l1` before the memory is cleared, `l2` and `l3` before the next steps. `start` is the `StartExecution`
of the interface. -/
def bringUp (start : Core → Core × Bool) (l1 l2 l3 : List (Nat × Nat)) (c : Core) : Option (Core × Bool) :=
  match allocGenirq commSize (c.stores l1) with
  | none => none
  | some c => some (start ((((c.stores l2).clearStates).stores l3)))

/-! ### Size of the firmware -/

/-- Words of an instruction: `MOV` of a constant beyond 16 bit is two instructions.
The assembler's encoding of motor-interface-pru.p; no code of its own. -/
def words : Firmware.Instr Nat → Nat
  | .mov _ (.imm n) => if n < 2 ^ 16 then 1 else 2
  | _ => 1

/-- Words of the program for a cape. `sizeof(PRUcode) / sizeof(uint32_t)`, uio-genirq-interface.cc 172, 186. -/
def codeWords (c : Firmware.Cape) : Nat := ((Firmware.firmware c).map words).sum

end BeagleG.PruHw
