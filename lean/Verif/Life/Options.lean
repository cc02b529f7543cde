import Verif.Life.Model
import Verif.Setup.Model

/-!
# The command line

`main` of `/repo/src/machine-control.cc`, lines 355-517: `getopt_long` with the two tables, the loop over its answers, and the
tests after it, up to what the rest of the program is given (`Setup.Options`, `Life.Opts`).

Simplifications: `getopt_long` is that of glibc as its manual describes it, with arguments in any order (`POSIXLY_CORRECT` not
set): arguments that are not options are moved to the end. What it prints is left out. `atof` with the conversion to `float`,
`atoi`, `realpath` and the success of `fopen` are parameters. An argument is a list of bytes without the final NUL.
-/
namespace BeagleG.Life.Cmd

open BeagleG.Text (Byte)
open BeagleG.Planner (Arith)
open BeagleG.Setup (ascii)

/-- What `getopt_long` can return, lines 366-379 and 426. -/
inductive Code where
  | help | thresholdAngle | speedTuneAngle | requireHoming | dontRequireHoming | disableRangeCheck | disableAckOk | loop
  | privs | enableM111 | paramFile | statusServer
  | config | port | bind | logfile | daemon | synchronous | verbose | dry | simulate | factor | wav
deriving DecidableEq, Repr

/-- `has_arg` of `struct option`, getopt.h. machine-control.cc 382-424. -/
inductive HasArg where
  | no | required | optional
deriving DecidableEq, Repr

/-- `long_options`, lines 382-412. -/
def longOptions : List (List Byte × HasArg × Code) := [
  (ascii "help", .no, .help),
  (ascii "config", .required, .config),
  (ascii "homing-required", .no, .requireHoming),
  (ascii "nohoming-required", .no, .dontRequireHoming),
  (ascii "norange-check", .no, .disableRangeCheck),
  (ascii "port", .required, .port),
  (ascii "bind-addr", .required, .bind),
  (ascii "loop", .optional, .loop),
  (ascii "logfile", .required, .logfile),
  (ascii "param", .required, .paramFile),
  (ascii "daemon", .no, .daemon),
  (ascii "priv", .required, .privs),
  (ascii "allow-m111", .no, .enableM111),
  (ascii "status-server", .required, .statusServer),
  (ascii "noack-ok", .no, .disableAckOk),
  (ascii "threshold-angle", .required, .thresholdAngle),
  (ascii "speed-tune-angle", .required, .speedTuneAngle)]

/-- `"p:b:SPnNf:l:dc:W:"`, line 426. -/
def shortOption (ch : Byte) : Option (HasArg × Code) :=
  if ch = 112 then some (.required, .port)
  else if ch = 98 then some (.required, .bind)
  else if ch = 83 then some (.no, .synchronous)
  else if ch = 80 then some (.no, .verbose)
  else if ch = 110 then some (.no, .dry)
  else if ch = 78 then some (.no, .simulate)
  else if ch = 102 then some (.required, .factor)
  else if ch = 108 then some (.required, .logfile)
  else if ch = 100 then some (.no, .daemon)
  else if ch = 99 then some (.required, .config)
  else if ch = 87 then some (.required, .wav)
  else none

/-- An answer of `getopt_long`: an option with `optarg`, or `'?'`. machine-control.cc 426-427. -/
inductive Item where
  | opt (c : Code) (arg : Option (List Byte))
  | bad
deriving DecidableEq, Repr

/-- The entry of the table for a name: the one of that name, or else the only one that begins with it. (All codes are
different, so that several candidates are always ambiguous.)
`getopt_long`, machine-control.cc 426, on the table at 382-424. -/
def findLong (name : List Byte) : Option (HasArg × Code) :=
  match longOptions.find? (fun e => e.1 == name) with
  | some e => some e.2
  | none =>
    match longOptions.filter (fun e => name.isPrefixOf e.1) with
    | [e] => some e.2
    | _ => none

/-- How far `getopt_long` is. `getopt_long`, machine-control.cc 426. -/
structure Scan where
  items : List Item
  /-- arguments that are not options -/
  files : List (List Byte)
  /-- the option that takes the next argument -/
  pending : Option Code
  /-- after `--` -/
  ended : Bool
deriving DecidableEq, Repr

/-- Put behind the answers. `getopt_long`, machine-control.cc 426. -/
def Scan.add (s : Scan) (l : List Item) : Scan := { s with items := s.items ++ l }

/-- `--name` or `--name=value`, without the `--`. `getopt_long`, machine-control.cc 426. -/
def Scan.long (s : Scan) (a : List Byte) : Scan :=
  let name := a.takeWhile (· ≠ 61)
  let value := (a.dropWhile (· ≠ 61)).tail?
  match findLong name, value with
  | none, _ => s.add [.bad]
  | some (.no, c), none => s.add [.opt c none]
  | some (.no, _), some _ => s.add [.bad]
  | some (_, c), some v => s.add [.opt c (some v)]
  | some (.required, c), none => { s with pending := some c }
  | some (.optional, c), none => s.add [.opt c none]

/-- Letters after one `-`. `getopt_long`, machine-control.cc 426. -/
def Scan.letters (s : Scan) : List Byte → Scan
  | [] => s
  | ch :: rest =>
    match shortOption ch with
    | none => s.add [.bad]
    | some (.no, c) => (s.add [.opt c none]).letters rest
    | some (_, c) => if rest = [] then { s with pending := some c } else s.add [.opt c (some rest)]

/-- One argument. `getopt_long`, machine-control.cc 426. -/
def Scan.arg (s : Scan) (a : List Byte) : Scan :=
  match s.pending with
  | some c => { s.add [.opt c (some a)] with pending := none }
  | none =>
    if s.ended then { s with files := s.files ++ [a] }
    else
      match a with
      | 45 :: 45 :: [] => { s with ended := true }
      | 45 :: 45 :: l => s.long l
      | 45 :: ch :: l => s.letters (ch :: l)
      | _ => { s with files := s.files ++ [a] }

/-- Before the first argument. `getopt_long`, machine-control.cc 426. -/
def Scan.start : Scan := ⟨[], [], none, false⟩

/-- All arguments; an option whose argument is missing gives `'?'`. `getopt_long`, machine-control.cc 426. -/
def scan (args : List (List Byte)) : Scan :=
  let s := args.foldl Scan.arg .start
  match s.pending with
  | some _ => { s.add [.bad] with pending := none }
  | none => s

/-- What the loop asks of the library. `atof`, `atoi`, `fopen`, `realpath` at machine-control.cc 430-473. -/
structure Libc (F : Type) where
  /-- `(float)atof(...)` -/
  atof : List Byte → F
  atoi : List Byte → Int
  realpath : List Byte → Option (List Byte)
  /-- `fopen(..., "w")` succeeds -/
  create : List Byte → Bool

/-- The variables of `main`, lines 356-363 and 415-425. -/
structure Vars (F : Type) where
  speedFactor : F
  thresholdAngle : F
  speedTuneAngle : F
  acknowledge : Bool
  debugPrint : Bool
  synchronous : Bool
  requireHoming : Bool
  dontRequireHoming : Bool
  disableRangeCheck : Bool
  dryRun : Bool
  simulation : Bool
  /-- `wav_output`: the file, if one could be created -/
  wav : Option (List Byte)
  port : Int
  statusPort : Int
  bindAddr : Option (List Byte)
  logfile : Option (List Byte)
  param : List Byte
  daemon : Bool
  config : Option (List Byte)
  privs : List Byte
  allowM111 : Bool
  /-- files emptied by `-W` -/
  emptied : List (List Byte)
deriving DecidableEq

section
variable {F : Type} (A : Arith F) (L : Libc F)

/-- Their values before the loop. machine-control.cc 356-380. -/
def Vars.start : Vars F where
  speedFactor := A.ofInt 1
  thresholdAngle := A.ofInt 10
  speedTuneAngle := A.ofInt 60
  acknowledge := true
  debugPrint := false
  synchronous := false
  requireHoming := false
  dontRequireHoming := false
  disableRangeCheck := false
  dryRun := false
  simulation := false
  wav := none
  port := -1
  statusPort := -1
  bindAddr := none
  logfile := none
  param := []
  daemon := false
  config := none
  privs := ascii "daemon:daemon"
  allowM111 := false
  emptied := []

/-- The `switch`, lines 428-479: `none` means `return usage(...)`. `cwd` is the working directory. -/
def Vars.option (cwd : List Byte) (v : Vars F) (c : Code) (arg : List Byte) : Option (Vars F) :=
  match c with
  | .factor => if A.le (L.atof arg) (A.ofInt 0) then none else some { v with speedFactor := L.atof arg }
  | .thresholdAngle => some { v with thresholdAngle := L.atof arg }
  | .speedTuneAngle => some { v with speedTuneAngle := L.atof arg }
  | .requireHoming => some { v with requireHoming := true }
  | .dontRequireHoming => some { v with dontRequireHoming := true }
  | .disableRangeCheck => some { v with disableRangeCheck := true }
  | .disableAckOk => some { v with acknowledge := false }
  | .dry => some { v with dryRun := true }
  | .simulate => some { v with dryRun := true, simulation := true }
  | .wav => some { v with
      dryRun := true
      wav := if L.create arg then some arg else none
      emptied := if L.create arg then v.emptied ++ [arg] else v.emptied }
  | .verbose => some { v with debugPrint := true }
  | .synchronous => some { v with synchronous := true }
  | .loop => some v
  | .port => some { v with port := L.atoi arg }
  | .statusServer => some { v with statusPort := L.atoi arg }
  | .bind => some { v with bindAddr := some arg }
  | .logfile => some { v with logfile := some arg }
  | .paramFile => some { v with param := makeAbsolute cwd arg }
  | .daemon => some { v with daemon := true }
  | .config => some { v with config := some ((L.realpath arg).getD arg) }
  | .privs => some { v with privs := arg }
  | .enableM111 => some { v with allowM111 := true }
  | .help => none

/-- What the loop leaves: the variables, and whether the program returned from inside it. machine-control.cc 426-490. -/
structure Loop (F : Type) where
  vars : Vars F
  returned : Bool

/-- The loop, lines 426-480. -/
def loop (cwd : List Byte) (v : Vars F) : List Item → Loop F
  | [] => ⟨v, false⟩
  | .bad :: _ => ⟨v, true⟩
  | .opt c arg :: rest =>
    match v.option A L cwd c (arg.getD []) with
    | none => ⟨v, true⟩
    | some v' => loop cwd v' rest

/-- The tests after the loop, lines 482-495: `usage`. -/
def Vars.refused (v : Vars F) (file : Bool) : Bool :=
  A.le (A.ofInt 90) (A.add v.thresholdAngle v.speedTuneAngle) ||
  (v.requireHoming && v.dontRequireHoming) ||
  !(file ^^ decide (0 < v.port))

/-- Where messages go, line 499 with `Log_init` (logging.cc 44-49): `none` is the system log. -/
def Vars.log (v : Vars F) : Option (List Byte) :=
  let name := if v.daemon then v.logfile else some (v.logfile.getD (ascii "/dev/stderr"))
  name.bind fun n => if n = [] then none else some n

/-- The result of the command line. -/
structure Call (F : Type) where
  vars : Vars F
  /-- `argv[optind]` -/
  file : Option (List Byte)
  /-- `config.acknowledge_lines`, line 517 -/
  acknowledge : Bool

/-- `main` from its beginning to line 517 with the arguments after the name of the program; the first part are the files
that were emptied. `none`: the program has printed how it is used and returns 1. -/
def parse (cwd : List Byte) (args : List (List Byte)) : List (List Byte) × Option (Call F) :=
  let s := scan args
  let r := loop A L cwd (Vars.start A) s.items
  (r.vars.emptied,
   if r.returned || r.vars.refused A (!s.files.isEmpty) then none
   else some ⟨r.vars, s.files.head?, r.vars.acknowledge && s.files.isEmpty⟩)

/-- What the setup of the machine is given. machine-control.cc 356, 490-600. -/
def Call.setup (r : Call F) : Setup.Options F where
  speedFactor := some r.vars.speedFactor
  thresholdAngle := some r.vars.thresholdAngle
  speedTuneAngle := some r.vars.speedTuneAngle
  synchronous := r.vars.synchronous
  requireHoming := r.vars.requireHoming
  dontRequireHoming := r.vars.dontRequireHoming
  disableRangeCheck := r.vars.disableRangeCheck
  dryRun := r.vars.dryRun

/-- What the rest of `main` is given. machine-control.cc 490-674. -/
def Call.life (r : Call F) : Opts where
  file := r.file
  port := decide (0 < r.vars.port)
  statusPort := decide (0 < r.vars.statusPort)
  dryRun := r.vars.dryRun
  simulation := r.vars.simulation
  wav := r.vars.wav.isSome
  daemon := r.vars.daemon
  privs := r.vars.privs
  param := r.vars.param

end

end BeagleG.Life.Cmd
