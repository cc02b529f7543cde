import Verif.Text.Model

/-!
# Start and end of the program

`main` and `drop_privileges` in `/repo/src/machine-control.cc` (lines 117-154, 344-353 and 355-674): the order of its steps for
all answers of the system and of the functions called, with the rights and the working directory of the process at each
step.

Simplifications: the options are given as read (`Options.machine` of `Setup` has those that change the configuration); the steps
themselves are in other models: reading the configuration (`Setup`), the hardware (`Gpio`), the PRU (`PruHw`), the servers
(`Server`). A path is a list of bytes; paths are not normalised. Destructors at a `return` are included.
-/
namespace BeagleG.Life

open BeagleG.Text (Byte splitString)

/-- Rights of a process. Changed at machine-control.cc 133, 147. -/
structure Cred where
  ruid : Nat
  euid : Nat
  suid : Nat
  rgid : Nat
  egid : Nat
  sgid : Nat
  /-- supplementary groups -/
  groups : List Nat
deriving DecidableEq, Repr

/-- The process: credentials and working directory. machine-control.cc 118-154, 346-353. -/
structure Proc where
  cred : Cred
  cwd : List Byte
deriving DecidableEq, Repr

/-- The backend, lines 577-604. -/
inductive Backend where
  | simulation | audio | dummy | pru
deriving DecidableEq, Repr

/-- What the program does. machine-control.cc 355-674. -/
inductive Ev where
  /-- lines 519-549: the configuration was read -/
  | config
  /-- line 551: a spindle was created -/
  | spindle
  | daemon (ok : Bool)
  | listen (ok : Bool)
  | backend (b : Backend)
  /-- line 592: `InitializeHardware` -/
  | hardware (ok : Bool)
  /-- line 603: the PRU runs -/
  | pru
  /-- an assertion fails (pru-motion-queue.cc 185) -/
  | aborted
  | setgid (g : Nat) (ok : Bool)
  | setuid (u : Nat) (ok : Bool)
  | machine (ok : Bool)
  | load (path : List Byte)
  /-- line 642: the file is opened -/
  | file (path : List Byte)
  | server
  | status
  | loop
  | shutdown (flush : Bool)
  | save (path : List Byte)
  /-- `~HardwareMapping` of an initialized mapping -/
  | unmap
  | exit (code : Nat)
deriving DecidableEq, Repr

/-- Something done, with the process as it was then. machine-control.cc 355-674; recorded for the specification. -/
structure Entry where
  ev : Ev
  proc : Proc
deriving DecidableEq, Repr

/-- Command line. -/
structure Opts where
  file : Option (List Byte)
  /-- `listen_port > 0` -/
  port : Bool
  /-- `status_server_port > 0` -/
  statusPort : Bool
  dryRun : Bool
  simulation : Bool
  /-- the wav file could be opened -/
  wav : Bool
  daemon : Bool
  privs : List Byte
  /-- argument of `--param` -/
  param : List Byte

/-- Answers. Answers of the functions called at machine-control.cc 118-154, 346-353, 355-674. -/
structure Answers where
  /-- everything up to line 549 succeeds -/
  configOk : Bool
  spindle : Bool
  daemonOk : Bool
  listenOk : Bool
  hardwareOk : Bool
  /-- a failure of the initialization came after the mapping was complete (hardware-mapping.cc 174-194) -/
  hardwareHalf : Bool
  pruOk : Bool
  group : List Byte → Option Nat
  user : List Byte → Option Nat
  setgidOk : Bool
  setuidOk : Bool
  machineOk : Bool
  /-- `Loop` ended because nothing is left to do -/
  cleanExit : Bool

/-- `MakeAbsoluteFile`, lines 346-353. -/
def makeAbsolute (cwd path : List Byte) : List Byte :=
  match path with
  | [] => []
  | c :: _ => if c = 47 then path else cwd ++ [47] ++ path

/-- Which file the kernel opens: a path that does not begin with `/` is relative to the working directory.
`open`, by way of machine-control.cc 161 and of the files opened in `main` (355-674). -/
def resolve (cwd path : List Byte) : List Byte :=
  match path with
  | [] => []
  | c :: _ => if c = 47 then path else cwd ++ [47] ++ path

/-- `setresgid`, all three. machine-control.cc 133. -/
def Proc.setgid (p : Proc) (g : Nat) : Proc := { p with cred := { p.cred with rgid := g, egid := g, sgid := g } }

/-- `setresuid`, all three. machine-control.cc 147. -/
def Proc.setuid (p : Proc) (u : Nat) : Proc := { p with cred := { p.cred with ruid := u, euid := u, suid := u } }

/-- `drop_privileges`, second half: the user, lines 139-152. -/
def dropUser (a : Answers) (name : List Byte) (p : Proc) : List Entry × Proc × Bool :=
  match a.user name with
  | none => ([], p, false)
  | some u =>
    if a.setuidOk then ([⟨.setuid u true, p⟩], p.setuid u, true) else ([⟨.setuid u false, p⟩], p, false)

/-- `drop_privileges`, lines 118-154. -/
def dropPrivileges (a : Answers) (privs : List Byte) (p : Proc) : List Entry × Proc × Bool :=
  match splitString privs [58] with
  | [u] => dropUser a u p
  | [u, g] =>
    match a.group g with
    | none => ([], p, false)
    | some gid =>
      if a.setgidOk then
        let r := dropUser a u (p.setgid gid)
        (⟨.setgid gid true, p⟩ :: r.1, r.2)
      else ([⟨.setgid gid false, p⟩], p, false)
  | _ => ([], p, false)

/-- Lines 606-614. -/
def dropStep (o : Opts) (a : Answers) (p : Proc) : List Entry × Proc × Bool :=
  if p.cred.euid = 0 ∧ o.privs ≠ [] then dropPrivileges a o.privs p else ([], p, true)

/-- A `return` with the destructor of the mapping. machine-control.cc 355-674; hardware-mapping.cc (destructor). -/
def leave (init : Bool) (code : Nat) (p : Proc) : List Entry :=
  (if init then [⟨.unmap, p⟩] else []) ++ [⟨.exit code, p⟩]

/-- From line 615 on; `param` is the absolute name of the parameter file. -/
def work (o : Opts) (a : Answers) (param : List Byte) (p : Proc) : List Entry :=
  let init := !o.dryRun
  if !a.machineOk then ⟨.machine false, p⟩ :: leave init 1 p
  else
    [⟨.machine true, p⟩, ⟨.load param, p⟩] ++
    (match o.file with
     | some f => [⟨.file (resolve p.cwd f), p⟩]
     | none => [⟨.server, p⟩] ++ (if o.statusPort then [⟨.status, p⟩] else [])) ++
    [⟨.loop, p⟩, ⟨.shutdown a.cleanExit, p⟩, ⟨.save param, p⟩] ++
    leave init (if a.cleanExit then 0 else 1) p

/-- Lines 606-615. -/
def rights (o : Opts) (a : Answers) (param : List Byte) (p : Proc) : List Entry :=
  let r := dropStep o a p
  r.1 ++ if r.2.2 then work o a param r.2.1 else leave (!o.dryRun) 1 r.2.1

/-- Which simulation, lines 579-588. -/
def dryBackend (o : Opts) : Backend := if o.simulation then .simulation else if o.wav then .audio else .dummy

/-- Lines 574-605. -/
def backend (o : Opts) (a : Answers) (param : List Byte) (p : Proc) : List Entry :=
  if o.dryRun then ⟨.backend (dryBackend o), p⟩ :: rights o a param p
  else if !a.hardwareOk then ⟨.hardware false, p⟩ :: leave a.hardwareHalf 1 p
  else if !a.pruOk then [⟨.hardware true, p⟩, ⟨.aborted, p⟩]
  else [⟨.hardware true, p⟩, ⟨.pru, p⟩, ⟨.backend .pru, p⟩] ++ rights o a param p

/-- Lines 563-573. -/
def sockets (o : Opts) (a : Answers) (param : List Byte) (p : Proc) : List Entry :=
  if o.file.isNone then
    if !a.listenOk then ⟨.listen false, p⟩ :: leave false 1 p else ⟨.listen true, p⟩ :: backend o a param p
  else backend o a param p

/-- The working directory of a daemon is the root directory (`daemon(0, 0)`, line 559). -/
def Proc.daemon (p : Proc) : Proc := { p with cwd := [47] }

/-- `main` from line 490 on. -/
def main (o : Opts) (a : Answers) (p : Proc) : List Entry :=
  let param := makeAbsolute p.cwd o.param
  if o.file.isSome = o.port then leave false 1 p
  else if !a.configOk then leave false 1 p
  else
    [⟨.config, p⟩] ++ (if a.spindle then [⟨.spindle, p⟩] else []) ++
    (if o.daemon then
      let q := if a.daemonOk then p.daemon else p
      ⟨.daemon a.daemonOk, p⟩ :: sockets o a param q
    else sockets o a param p)

end BeagleG.Life
