import Verif.Parser.Model
/-!
# Model of `/repo/src/gcode-parser/gcode-parser-config.cc`

Printing and reading a floating point value (`%f`) is a parameter. Parameters are a `std::map`: for `SaveParams`,
which goes through it in order, a list sorted by key; for `LoadParams`, which only stores, a function. Keys that start
with a digit are converted with `atoi`; that this overflows for more than ten digits is left out.
-/
namespace BeagleG.ParamFile
open Text Expr BeagleG.Parser

/-- `printf("%f")`, `sscanf("%f")` and comparison with zero. gcode-parser-config.cc 54, 108-109, 120, 124. -/
structure Codec (V : Type) where
  isZero : V → Bool
  one : V
  print : V → List Byte
  /-- reads a number at the start of a text -/
  scan : List Byte → Option V

variable {V : Type} (cd : Codec V)

/-! ### SaveParams -/

/-- `printf("%i")` of a number that is not negative; the first argument bounds the number of digits.
gcode-parser-config.cc 109. -/
def printGo : Nat → Nat → List Byte
  | 0, n => [UInt8.ofNat (48 + n % 10)]
  | f + 1, n => if n < 10 then [UInt8.ofNat (48 + n)] else printGo f (n / 10) ++ [UInt8.ofNat (48 + n % 10)]

/-- `printf("%i")` of a number that is not negative. gcode-parser-config.cc 109. -/
def printNat (n : Nat) : List Byte := printGo n n

/-- `atoi` of a text that starts with a digit. gcode-parser-config.cc 102. -/
def atoi (s : List Byte) : Nat := digitsValue (takeDigits s)

/-- Does the key start with a digit? gcode-parser-config.cc 101, 118. -/
def startsDigit (k : List Byte) : Bool :=
  match k with
  | [] => false
  | c :: _ => isDigit c

/-- `numeric_params[k] = v`: a `std::map<int, float>` as a sorted list. gcode-parser-config.cc 98, 102. -/
def insertNum (k : Nat) (v : V) : List (Nat × V) → List (Nat × V)
  | [] => [(k, v)]
  | (j, w) :: l => if k < j then (k, v) :: (j, w) :: l else if k = j then (k, v) :: l else (j, w) :: insertNum k v l

/-- Lines 98-103: stops at the first key that does not start with a digit. -/
def collectNumeric : List (List Byte × V) → List (Nat × V) → List (Nat × V)
  | [], acc => acc
  | (k, v) :: l, acc =>
    if k = [] then collectNumeric l acc
    else if !startsDigit k then acc
    else collectNumeric l (insertNum (atoi k) v acc)

/-- `fprintf(fp, "%s\t%f\n", …)`. gcode-parser-config.cc 109, 124. -/
def entry (name : List Byte) (v : V) : List Byte := name ++ [9] ++ cd.print v ++ [10]

/-- Lines 105-112: the entries for numbers. -/
def numericEntries : List (Nat × V) → List (List Byte)
  | [] => []
  | (k, v) :: l =>
    if k = 0 then numericEntries l
    else if cd.isZero v then numericEntries l
    else entry cd (printNat k) v :: numericEntries l

/-- Line 122: `"\n# Alphanumeric global parameters\n"`. gcode-parser-config.cc 121-123. -/
def heading : List Byte :=
  [10, 35, 32, 65, 108, 112, 104, 97, 110, 117, 109, 101, 114, 105, 99, 32, 103, 108, 111, 98, 97, 108, 32,
   112, 97, 114, 97, 109, 101, 116, 101, 114, 115, 10]

/-- Lines 116-126: the entries for names. -/
def nameEntries : List (List Byte × V) → List (List Byte)
  | [] => []
  | (k, v) :: l =>
    if k = [] then nameEntries l
    else if startsDigit k then nameEntries l
    else if k.head? ≠ some 95 then nameEntries l
    else if cd.isZero v then nameEntries l
    else entry cd k v :: nameEntries l

/-- What `SaveParams` writes, lines 90-126. -/
def saveText (ps : List (List Byte × V)) : List Byte :=
  (numericEntries cd (collectNumeric ps [])).flatten ++
    (if nameEntries cd ps = [] then [] else heading ++ (nameEntries cd ps).flatten)

/-! ### LoadParams -/

/-- `fgets` for at most so many characters: the characters read and what is left. gcode-parser-config.cc 51. -/
def fgets : Nat → List Byte → List Byte × List Byte
  | 0, l => ([], l)
  | _ + 1, [] => ([], [])
  | n + 1, c :: cs =>
    if c = 10 then ([10], cs)
    else (c :: (fgets n cs).1, (fgets n cs).2)

/-- The lines that the loop of line 51 sees; the first argument bounds their number. -/
def fileLines : Nat → List Byte → List (List Byte)
  | 0, _ => []
  | _ + 1, [] => []
  | n + 1, c :: cs => (fgets 255 (c :: cs)).1 :: fileLines n (fgets 255 (c :: cs)).2

/-- `sscanf(line, "%s %f", …) == 2`, line 54: name and value. -/
def scanLine (line : List Byte) : Option (List Byte × V) :=
  let l := skipWhite (line.takeWhile (· ≠ 0))
  let name := l.takeWhile (fun c => !isSpace c)
  if name = [] then none
  else (cd.scan (skipWhite (l.dropWhile (fun c => !isSpace c)))).map fun v => (name, v)

/-- `(*parameters)[name] = value`. gcode-parser-config.cc 40, 58. -/
def put (p : List Byte → Option V) (name : List Byte) (v : V) : List Byte → Option V :=
  fun k => if k = name then some v else p k

/-- Lines 51-61. -/
def loadLines : List (List Byte) → (List Byte → Option V) → (List Byte → Option V)
  | [], p => p
  | l :: ls, p =>
    match scanLine cd l with
    | none => loadLines ls p
    | some (name, v) => loadLines ls (put p name v)

/-- The key 5220. gcode-parser-config.cc 40. -/
def selected : List Byte := [53, 50, 50, 48]

/-- `LoadParams`, lines 32-65, with the content of the file, if there is one. -/
def load (file : Option (List Byte)) (p : List Byte → Option V) : List Byte → Option V :=
  match file with
  | none => put p selected cd.one
  | some text => loadLines cd (fileLines (text.length + 1) text) (put p selected cd.one)

/-! ### The file system while saving -/

/-- The three file names. gcode-parser-config.cc 74, 133-134. -/
inductive Name where
  | param | tmp | bak
  deriving DecidableEq, Repr

/-- Contents of files. gcode-parser-config.cc 76, 130-134. -/
abbrev Disk := Name → Option (List Byte)

/-- System calls of `SaveParams` that change the file system. gcode-parser-config.cc 76, 130-134. -/
inductive Op where
  /-- `fopen(tmp_name, "w")` -/
  | create
  /-- some bytes are appended to the temporary file: `write` by `fprintf`, `fflush` or `fclose` -/
  | append (bytes : List Byte)
  /-- `rename`, and whether the operating system is willing to do it -/
  | rename (source target : Name) (works : Bool)

/-- The effect of a system call. `rename` of a file that does not exist fails. gcode-parser-config.cc 76, 130-134. -/
def Disk.step (d : Disk) : Op → Disk
  | .create => fun n => if n = .tmp then some [] else d n
  | .append bytes => fun n => if n = .tmp then (d .tmp).map (· ++ bytes) else d n
  | .rename source target works =>
    match d source with
    | some content =>
      if works then fun n => if n = target then some content else if n = source then none else d n else d
    | none => d

/-- System calls in turn. gcode-parser-config.cc 76, 130-134. -/
def Disk.run (d : Disk) : List Op → Disk
  | [] => d
  | op :: ops => (d.step op).run ops

/-- Did the `rename` at the end succeed? gcode-parser-config.cc 134. -/
def renamed (d : Disk) (source : Name) (works : Bool) : Bool := works && (d source).isSome

/-- The system calls of one `SaveParams` that writes `content`, lines 74-139, and its result. The content gets to the
file in arbitrary portions. If not all of it could be written, `fclose` reports this (line 131). -/
inductive SaveRun (content : List Byte) (d : Disk) : List Op → Bool → Prop
  /-- the temporary file cannot be opened -/
  | noFile : SaveRun content d [] false
  /-- not everything could be written -/
  | full (chunks : List (List Byte)) : SaveRun content d (.create :: chunks.map .append) false
  | written (chunks : List (List Byte)) (w1 w2 : Bool) : chunks.flatten = content →
      SaveRun content d (.create :: chunks.map .append ++ [.rename .param .bak w1, .rename .tmp .param w2])
        (renamed (d.run (.create :: chunks.map .append ++ [.rename .param .bak w1])) .tmp w2)

end BeagleG.ParamFile
