import Verif.Setup.Model
import Verif.LineBuf.ReadFile
import Verif.Stats.Model
/-!
# The program `gcode-print-stats`

`/repo/src/gcode-print-stats.cc`: the command line, the settings for `determine_print_stats`
(determine-print-stats.cc 127-156) and the table.

Simplifications: `getopt` is that of glibc as its manual describes it, with arguments in any order; what it prints, and the
messages on `stderr`, are left out but for their kind. The parser together with the machine control is a parameter (`Sys.look`);
it is the subject of C50. `atof`, the contents of files, `printf` of a number and the choice of a free descriptor
are parameters. An argument is a list of bytes without the final NUL, a line of the table without its line feed.
-/
namespace BeagleG.Stats.Tool

open BeagleG.Text (Byte)
open BeagleG.Planner (Arith)
open BeagleG.Setup (ascii Ready Machine configureMachine)
open BeagleG.Hardware (Hw)
open BeagleG.LineBuf (Stream)

/-- An answer of `getopt`, line 74. -/
inductive Item where
  | config (arg : List Byte)
  | factor (arg : List Byte)
  | header
  | verbose
  /-- `'?'` -/
  | bad
deriving DecidableEq, Repr

/-- How far `getopt` is. `getopt`, gcode-print-stats.cc 74. -/
structure Scan where
  items : List Item
  /-- arguments that are not options -/
  files : List (List Byte)
  /-- the option that takes the next argument -/
  pending : Option (List Byte → Item)
  /-- after `--` -/
  ended : Bool

/-- Put behind the answers. `getopt`, gcode-print-stats.cc 74. -/
def Scan.add (s : Scan) (i : Item) : Scan := { s with items := s.items ++ [i] }

/-- An option with an argument: the rest of the letters, or else the next argument. `getopt`, gcode-print-stats.cc 74. -/
def Scan.arg (s : Scan) (i : List Byte → Item) (rest : List Byte) : Scan :=
  if rest = [] then { s with pending := some i } else s.add (i rest)

/-- Letters after `-`; `"c:f:Hv"`, line 77. -/
def Scan.letters (s : Scan) : List Byte → Scan
  | [] => s
  | ch :: rest =>
    if ch = 99 then s.arg .config rest
    else if ch = 102 then s.arg .factor rest
    else if ch = 72 then (s.add .header).letters rest
    else if ch = 118 then (s.add .verbose).letters rest
    else s.add .bad

/-- One argument. `getopt`, gcode-print-stats.cc 74. -/
def Scan.next (s : Scan) (a : List Byte) : Scan :=
  match s.pending with
  | some i => { s.add (i a) with pending := none }
  | none =>
    if s.ended then { s with files := s.files ++ [a] }
    else
      match a with
      | 45 :: 45 :: [] => { s with ended := true }
      | 45 :: ch :: l => s.letters (ch :: l)
      | _ => { s with files := s.files ++ [a] }

/-- All arguments; an option whose argument is missing gives `'?'`. `getopt`, gcode-print-stats.cc 74. -/
def scan (args : List (List Byte)) : Scan :=
  let s := args.foldl Scan.next ⟨[], [], none, false⟩
  if s.pending.isSome then s.add .bad else s

/-- What a descriptor is open for. gcode-print-stats.cc 51-52. -/
inductive Obj where
  | input (s : Stream)
  /-- not for reading: the messages, the log -/
  | other

/-- The library, the system and the rest of the program. Functions called at gcode-print-stats.cc 47-132. -/
structure Sys (F : Type) where
  /-- `(float)atof(...)` -/
  atof : List Byte → F
  /-- the file `open` finds at its `n`th call -/
  file : Nat → List Byte → Option Stream
  /-- the text of a configuration file (`SetContentFromFile`, config-parser.cc 116-122) -/
  text : List Byte → Option (List Byte)
  /-- can `/dev/null` or (with `-v`) `/dev/stderr` be opened for writing? -/
  messages : Bool → Bool
  /-- the descriptor `open` chooses -/
  free : (Nat → Option Obj) → Nat
  /-- `GCodeParser` with the machine control behind it, for the `n`th stream: `error_count()` and the statistics -/
  look : Nat → Ready F → Stream → Nat × Stats F
  /-- `printf("%w.pf")` -/
  fmt : Nat → Nat → F → List Byte

/-- The variables of `main`, lines 66-71. -/
structure Vars (F : Type) where
  factor : F
  header : Bool
  config : Option (List Byte)
  verbose : Bool

section
variable {D F : Type} (A : Arith F) (W : Sys F)

/-- Their values before the loop. gcode-print-stats.cc 68-71. -/
def Vars.start : Vars F := ⟨A.ofInt 1, true, none, false⟩

/-- The body of the loop, lines 75-85; `none`: `usage`. -/
def Vars.take (v : Vars F) : Item → Option (Vars F)
  | .config a => some { v with config := some a }
  | .factor a => if A.le (W.atof a) (A.ofInt 0) then none else some { v with factor := W.atof a }
  | .header => some { v with header := !v.header }
  | .verbose => some { v with verbose := true }
  | .bad => none

/-- The loop, lines 77-88. -/
def Vars.takeAll (v : Vars F) (l : List Item) : Option (Vars F) := l.foldlM (Vars.take A W) v

/-- The configuration handed to `determine_print_stats`, lines 108-115. -/
def settings (c : Machine F) (factor : F) : Machine F :=
  { c with speedFactor := factor, rangeCheck := false, requireHoming := false, homingTrigger := fun _ => .none }

/-- The state while files are looked at: descriptors, calls of `open` and streams read so far.
gcode-print-stats.cc 51-53; determine-print-stats.cc 151. -/
structure Desk where
  tab : Nat → Option Obj
  opened : Nat
  read : Nat

/-- A descriptor is opened or closed. gcode-print-stats.cc 52; `fclose` in `ReadFile`, gcode-parser.cc 1991-2005. -/
def Desk.set (d : Desk) (fd : Nat) (o : Option Obj) : Desk := { d with tab := fun n => if n = fd then o else d.tab n }

/-- Line 52: the descriptor, `none` for −1. gcode-print-stats.cc 52. -/
def openInput (d : Desk) (name : List Byte) : Option Nat × Desk :=
  if name = ascii "-" then (some 0, d)
  else
    let d' := { d with opened := d.opened + 1 }
    match W.file d.opened name with
    | none => (none, d')
    | some s => (some (W.free d.tab), d'.set (W.free d.tab) (some (.input s)))

/-- `HardwareMapping()`, hardware-mapping.cc 38-46. -/
def created : Hw F where
  auxOf := fun _ => 0
  pwmOf := fun _ => 0
  axisToDriver := fun _ => 0
  driverFlip := fun _ => 0
  minEndstop := fun _ => 0
  maxEndstop := fun _ => 0
  triggerLevel := fun _ => false
  estopInput := 0
  pauseInput := 0
  startInput := 0
  probeInput := 0
  estop := false
  motorsEnabled := false
  auxBits := 0
  initialized := false
  level := fun _ => false
  pwmOn := fun _ => false
  duty := fun _ => A.ofInt 0

/-- `determine_print_stats`, determine-print-stats.cc 127-155: the statistics if the answer is true. `fdopen` gives NULL for a
descriptor that is not open, or not for reading. `ReadFile` (C91) closes the stream and with it the descriptor. Without a machine
control the descriptor stays open. -/
def determine (c : Machine F) (fd : Option Nat) (d : Desk) : Option (Stats F) × Desk :=
  match Setup.init A c (created A) with
  | none => (none, d)
  | some r =>
    match fd with
    | none => (none, d)
    | some n =>
      match d.tab n with
      | some (.input s) =>
        let a := W.look d.read r s
        (if a.1 = 0 then some a.2 else none, { d.set n none with read := d.read + 1 })
      | _ => (none, d)

/-- `%-*s`. gcode-print-stats.cc 55, 123. -/
def padRight (w : Nat) (s : List Byte) : List Byte := s ++ List.replicate (w - s.length) 32

/-- `%*s`. gcode-print-stats.cc 55, 123. -/
def padLeft (w : Nat) (s : List Byte) : List Byte := List.replicate (w - s.length) 32 ++ s

/-- The row of a file that was processed, lines 55-59. -/
def row (w : Nat) (name : List Byte) (s : Stats F) : List Byte :=
  padRight w name ++ 32 :: (W.fmt 10 0 s.time ++
    [s.xMin, s.xMax, s.yMin, s.yMax, s.zMin, s.zMax, s.lastZ, s.filament].flatMap fun v => 32 :: W.fmt 7 1 v)

/-- The row of another file, line 61. -/
def notProcessed (name : List Byte) : List Byte := 35 :: (name ++ ascii " not-processed")

/-- `print_file_stats`, lines 47-63. -/
def fileRow (c : Machine F) (w : Nat) (d : Desk) (name : List Byte) : List Byte × Desk :=
  let o := openInput W d name
  let r := determine A W c o.1 o.2
  (match r.1 with
    | some s => row W w name s
    | none => notProcessed name, r.2)

/-- The second loop, lines 131-133. -/
def fileRows (c : Machine F) (w : Nat) : Desk → List (List Byte) → List (List Byte)
  | _, [] => []
  | d, name :: names => (fileRow A W c w d name).1 :: fileRows c w (fileRow A W c w d name).2 names

/-- `"#[filename]"`. gcode-print-stats.cc 117, 124. -/
def heading : List Byte := ascii "#[filename]"

/-- The first loop, lines 119-123. -/
def width (names : List (List Byte)) : Nat := names.foldl (fun w n => max n.length w) heading.length

/-- The table header, lines 125-129. -/
def header (w : Nat) : List Byte :=
  padRight w heading ++ 32 :: (padLeft 10 (ascii "time") ++
    [ascii "min_x", ascii "max_x", ascii "min_y", ascii "max_y", ascii "min_z", ascii "max_z", ascii "z-last",
     ascii "filament-mm"].flatMap fun v => 32 :: padLeft 7 v)

/-- What is said on `stderr` in the end. gcode-print-stats.cc 36, 90, 99, 103. -/
inductive Complaint where
  | usage | noConfig | cannotRead | parseError
deriving DecidableEq, Repr

/-- How the program ends. gcode-print-stats.cc 79-132. -/
inductive End where
  /-- exit code 1 -/
  | failed (why : Complaint)
  /-- exit code 0, with what was printed -/
  | finished (lines : List (List Byte))
  /-- `fclose(NULL)`, line 134 -/
  | undef
deriving DecidableEq, Repr

/-- `main`, lines 65-132; `desk` are the descriptors from line 98 on. -/
def main (N : Config.Numbers D F) (desk : Desk) (args : List (List Byte)) : End :=
  let s := scan args
  match Vars.takeAll A W (Vars.start A) s.items with
  | none => .failed .usage
  | some v =>
    if s.files = [] then .failed .usage
    else
      match v.config with
      | none => .failed .noConfig
      | some path =>
        match W.text path with
        | none => .failed .cannotRead
        | some content =>
          let c := configureMachine N (Machine.default A) content
          if !c.1 then .failed .parseError
          else
            let w := width s.files
            let rows := fileRows A W (settings c.2 v.factor) w desk s.files
            if W.messages v.verbose then .finished ((if v.header then [header w] else []) ++ rows) else .undef

end

end BeagleG.Stats.Tool
