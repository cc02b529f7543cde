import Verif.Setup.Model
import Verif.Text.Number
/-!
# The program `gcode2ps`: command line and order of the picture

`/repo/src/gcode2ps.cc` lines 78-109 and 1158-1502 (`main`).

Simplifications: `getopt` is that of glibc as its manual describes it, with arguments in any order. `atof`, `atoi`, the files and
the parts of the picture (C82 to C86) are parameters or steps. Hexadecimal numbers and a `nan` with parentheses are left out of
`strtof`. Messages on `stderr` are left out but for the usage.
-/
namespace BeagleG.Visualizer.Options

open BeagleG.Text (Byte toLowerString skipWhite)
open BeagleG.Text.Number (sign mantissa exponent word inf inity)
open BeagleG.Planner (Arith)
open BeagleG.Setup (ascii Machine configureMachine)

/-- An answer of `getopt`: a letter with its argument, or `'?'`. gcode2ps.cc 1254-1256. -/
inductive Item where
  | opt (letter : Byte) (arg : List Byte)
  | bad
deriving DecidableEq

/-- Letters with an argument in `"a:A:c:C:De:g:GilMo:P:qrR:sS:t:T:V:w:Y:h"`, line 1255. -/
def withArg : List Byte := ascii "aAcCegoPRStTVwY"

/-- The others. The letters without `:` at gcode2ps.cc 1255. -/
def without : List Byte := ascii "DGilMqrsh"

/-- How far `getopt` is. `getopt`, gcode2ps.cc 1254. -/
structure Scan where
  items : List Item
  /-- arguments that are not options -/
  files : List (List Byte)
  /-- the option that takes the next argument -/
  pending : Option Byte
  /-- after `--` -/
  ended : Bool

/-- Put behind the answers. `getopt`, gcode2ps.cc 1254. -/
def Scan.add (s : Scan) (i : Item) : Scan := { s with items := s.items ++ [i] }

/-- Letters after `-`. `getopt`, gcode2ps.cc 1254. -/
def Scan.letters (s : Scan) : List Byte → Scan
  | [] => s
  | ch :: rest =>
    if ch ∈ withArg then
      if rest = [] then { s with pending := some ch } else s.add (.opt ch rest)
    else if ch ∈ without then (s.add (.opt ch [])).letters rest
    else (s.add .bad).letters rest

/-- One argument. `getopt`, gcode2ps.cc 1254. -/
def Scan.next (s : Scan) (a : List Byte) : Scan :=
  match s.pending with
  | some ch => { s.add (.opt ch a) with pending := none }
  | none =>
    if s.ended then { s with files := s.files ++ [a] }
    else
      match a with
      | 45 :: 45 :: [] => { s with ended := true }
      | 45 :: ch :: l => s.letters (ch :: l)
      | _ => { s with files := s.files ++ [a] }

/-- All arguments; an option whose argument is missing gives `'?'`. `getopt`, gcode2ps.cc 1254. -/
def scan (args : List (List Byte)) : Scan :=
  let s := args.foldl Scan.next ⟨[], [], none, false⟩
  if s.pending.isSome then s.add .bad else s

/-! ### Rotations -/

/-- `strtof`: what is left of the text; all of it if there is no number. gcode2ps.cc 1198-1208. -/
def strtofRest (s : List Byte) : List Byte :=
  let t := (sign (skipWhite s)).2
  match mantissa t with
  | some (_, r) => match exponent r with
    | some (_, r') => r'
    | none => r
  | none => match word inf t with
    | some r => (word inity r).getD r
    | none => match word [110, 97, 110] t with
      | some r => r
      | none => s

/-- `AppendFloatOp`, lines 1198-1208; `none` is `false`. -/
def appendFloatOp (arg op : List Byte) (result : List (List Byte)) : Option (List (List Byte)) :=
  if strtofRest arg = [] then some (result ++ [arg ++ 32 :: op]) else none

/-- `kNamedViews`, lines 101-109, in the order of the map. -/
def views : List (List Byte × List Byte) :=
  [(ascii "front", ascii "-90 pitch-rotate3d % front view"),
    (ascii "isometric", ascii "-90 pitch-rotate3d  45 yaw-rotate3d  35.264 pitch-rotate3d  % Isometric view"),
    (ascii "left", ascii "-90 pitch-rotate3d 90 yaw-rotate3d % left view"),
    (ascii "right", ascii "-90 yaw-rotate3d -90 roll-rotate3d % right view"),
    (ascii "top", [])]

/-- `<` of `std::string`. The order of `kNamedViews`, gcode2ps.cc 101-110, 1210-1225. -/
def before : List Byte → List Byte → Bool
  | _, [] => false
  | [], _ :: _ => true
  | a :: as, b :: bs => a < b || (a = b && before as bs)

/-- `AppendViewOp`, lines 1210-1225, for the empty list `ClearAndWarnIfNotEmpty` (lines 1223-1227) has left. -/
def viewOp (view : List Byte) : Option (List (List Byte)) :=
  let key := toLowerString view
  match views.find? fun v => !before v.1 key with
  | some v => if key <+: v.1 then some [v.2] else none
  | none => none

/-! ### Variables -/

/-- Is the second text somewhere in the first, `strstr`? gcode2ps.cc 1266, 1279. -/
def contains (s t : List Byte) : Bool :=
  match s with
  | [] => t = []
  | c :: cs => decide (t <+: c :: cs) || contains cs t

/-- The library and the files. Functions called at gcode2ps.cc 1140-1196, 1233-1499. -/
structure Sys (F : Type) where
  atof : List Byte → F
  atoi : List Byte → Int
  /-- can the file be created (`fopen` for writing)? -/
  create : List Byte → Bool
  /-- text of a configuration file -/
  text : List Byte → Option (List Byte)
  /-- does `GCodeMachineControl::Create` give a machine for this configuration? -/
  fits : Machine F → Bool
  /-- can the file be opened for reading? -/
  readable : List Byte → Bool
  /-- `error_count()` after the file was read so many times -/
  errors : List Byte → Nat → Nat

/-- `ParseFile`, lines 1158-1166, so many times with one parser: the errors counted. A file that cannot be opened is only mentioned. -/
def Sys.count (W : Sys F) (name : List Byte) (times : Nat) : Nat := if W.readable name then W.errors name times else 0

/-- The variables of `main`, lines 1235-1252, with the first members of `VisualizationOptions`, lines 80-83. -/
structure Vars (F : Type) where
  config : Option (List Byte)
  /-- `out_filename` -/
  out : List Byte
  /-- `output_file` is not NULL -/
  writable : Bool
  /-- files emptied by `-o` -/
  emptied : List (List Byte)
  tool : F
  dimensions : Bool
  machinePath : Bool
  gcodePath : Bool
  threshold : F
  tune : F
  rangeCheck : Bool
  scale : F
  width : F
  rotations : List (List Byte)
  eye : F
  frames : Int
  quiet : Bool
  grid : F
  ijk : Bool
  speeds : Bool
  laser : Bool
  title : List Byte

section
variable {D F : Type} (A : Arith F) (W : Sys F)

/-- 25.4 gcode2ps.cc 1266. -/
def inch : F := A.div (A.ofInt 127) (A.ofInt 5)

/-- Their values before the loop. gcode2ps.cc 79-92, 1233-1252. -/
def Vars.start : Vars F where
  config := none
  out := []
  writable := true
  emptied := []
  tool := A.ofInt (-1)
  dimensions := true
  machinePath := true
  gcodePath := true
  threshold := A.ofInt 10
  tune := A.ofInt 60
  rangeCheck := false
  scale := A.ofInt 1
  width := A.ofInt (-1)
  rotations := []
  eye := A.ofInt (-1)
  frames := -1
  quiet := false
  grid := A.ofInt (-1)
  ijk := true
  speeds := false
  laser := false
  title := ascii "BeagleG ~ gcode2ps"

/-- `-g`, lines 1266-1269. -/
def gridOf (arg : List Byte) : F := if contains arg (ascii "in") then A.mul (W.atof arg) (inch A) else W.atof arg

/-- `-w`, lines 1279-1284. -/
def widthOf (arg : List Byte) : F :=
  if contains arg (ascii "mm") then W.atof arg else A.mul (A.div (W.atof arg) (A.ofInt 72)) (inch A)

/-- The operations of a letter, lines 1289-1307; `none`: usage. -/
def rotate (result : List (List Byte)) (letter : Byte) (arg : List Byte) : Option (List (List Byte)) :=
  if letter = 82 then appendFloatOp arg (ascii "roll-rotate3d % -R option") result
  else if letter = 80 then appendFloatOp arg (ascii "pitch-rotate3d % -P option") result
  else if letter = 89 then appendFloatOp arg (ascii "yaw-rotate3d % -Y option") result
  else viewOp arg

/-- The `switch`, lines 1256-1311; `none`: `usage`. -/
def Vars.take (v : Vars F) : Item → Option (Vars F)
  | .bad => none
  | .opt ch arg =>
    if ch = 111 then some { v with
      out := arg, writable := W.create arg, emptied := if W.create arg then v.emptied ++ [arg] else v.emptied }
    else if ch = 113 then some { v with quiet := true }
    else if ch = 116 then some { v with threshold := W.atof arg }
    else if ch = 65 then some { v with tune := W.atof arg }
    else if ch = 103 then some { v with grid := gridOf A W arg }
    else if ch = 108 then some { v with laser := true }
    else if ch = 67 then some { v with title := arg }
    else if ch = 99 then some { v with config := some arg }
    else if ch = 68 then some { v with dimensions := false }
    else if ch = 77 then some { v with machinePath := false }
    else if ch = 71 then some { v with gcodePath := false }
    else if ch = 84 then some { v with tool := W.atof arg }
    else if ch = 115 then some { v with speeds := true }
    else if ch = 83 then some { v with scale := W.atof arg }
    else if ch = 119 then some { v with width := widthOf A W arg }
    else if ch = 101 then some { v with eye := W.atof arg }
    else if ch = 105 then some { v with ijk := !v.ijk }
    else if ch = 114 then some { v with rangeCheck := true }
    else if ch = 97 then some { v with frames := W.atoi arg }
    else if ch = 82 ∨ ch = 80 ∨ ch = 89 ∨ ch = 86 then
      (rotate v.rotations ch arg).map fun r => { v with rotations := r }
    else none

/-- The loop: the variables when it ends, and whether it returned from inside with `usage`. gcode2ps.cc 1254-1312. -/
def Vars.takeAll (v : Vars F) : List Item → Vars F × Bool
  | [] => (v, false)
  | i :: is =>
    match v.take A W i with
    | none => (v, true)
    | some v' => v'.takeAll is

/-- After the loop, lines 1321-1345. -/
def Vars.settle (v : Vars F) : Vars F :=
  let v := { v with speeds := v.speeds && v.machinePath && v.config.isSome }
  let v := { v with laser := v.laser && v.gcodePath }
  { v with tool := if A.lt v.tool A.zero then A.ofInt 2 else v.tool }

/-- `ParseConfigIfAvailable`, lines 1168-1195: the machine and the origin; `none`: `false`. -/
def parseConfig (N : Config.Numbers D F) (config : Option (List Byte)) : Option (Machine F × (Planner.Axis → F)) :=
  let machine : Option (Machine F) := match config with
    | none => some (Machine.default A)
    | some name => (W.text name).bind fun t =>
      let r := configureMachine N (Machine.default A) t
      if r.1 then some r.2 else none
  machine.map fun m =>
    ({ m with requireHoming := false }, fun a => if m.homingTrigger a = .max ∨ m.homingTrigger a = .any then m.moveRange a else A.zero)

/-- The parts of the output, in lines 1367-1474. -/
inductive Step (F : Type) where
  | boundingBox (marginX marginY scale width : F)
  | header (margin eye : F) (frames : Int)
  /-- `/show-stuff {` or `per-page-setup` -/
  | opening (animation : Bool)
  | rotation (op : List Byte)
  | frame
  | grid (d : F)
  | dimensions
  /-- the machine that is simulated -/
  | machine (m : Machine F)
  | legend
  | home (origin : Planner.Axis → F)
  | gcode
  /-- the loop over the frames or `showpage` -/
  | closing (animation : Bool)

/-- The settings of the machine that is simulated, lines 1404-1407. -/
def Vars.machine (v : Vars F) (m : Machine F) : Machine F :=
  { m with thresholdAngle := v.threshold, speedTuneAngle := v.tune, rangeCheck := v.rangeCheck }

/-- Lines 1345 and 1365-1474: the picture. -/
def Vars.steps (v : Vars F) (m : Machine F) (origin : Planner.Axis → F) : List (Step F) :=
  let margin := A.add (A.ofInt 2) (A.div v.tool (A.ofInt 2))
  [.boundingBox margin (A.add margin (if v.speeds then A.ofInt 15 else A.zero)) v.scale v.width, .header margin v.eye v.frames,
    .opening (decide (0 < v.frames))] ++
  v.rotations.map .rotation ++ [.frame] ++
  (if A.lt A.zero v.grid then [.grid v.grid] else []) ++
  (if v.dimensions then [.dimensions] else []) ++
  (if v.config.isSome && v.machinePath && W.fits (v.machine m) then
    .machine (v.machine m) :: (if v.speeds then [.legend] else []) else []) ++
  [.home origin] ++
  (if v.gcodePath then [.gcode] else []) ++
  [.closing (decide (0 < v.frames))]

/-- How the program ends: the answer of `main` and what was written. gcode2ps.cc 1233-1499. -/
structure End (F : Type) where
  code : Nat
  usage : Bool
  steps : List (Step F)
  emptied : List (List Byte)

/-- `main`, lines 1233-1499. -/
def main (N : Config.Numbers D F) (args : List (List Byte)) : End F :=
  let s := scan args
  let r := (Vars.start A).takeAll A W s.items
  if r.2 then ⟨1, true, [], r.1.emptied⟩
  else match s.files with
  | [] => ⟨1, true, [], r.1.emptied⟩
  | name :: _ =>
    if !r.1.writable then ⟨1, false, [], r.1.emptied⟩
    else
    let v := r.1.settle A
    match parseConfig A W N v.config with
    | none => ⟨1, false, [], v.emptied⟩
    | some (m, origin) =>
      ⟨if W.count name (if v.gcodePath then 2 else 1) = 0 then 0 else 1, false, v.steps A W m origin, v.emptied⟩

end
end BeagleG.Visualizer.Options
