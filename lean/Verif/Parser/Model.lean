import Verif.Expr.Model
/-!
# Model of `GCodeParser` in `/repo/src/gcode-parser/gcode-parser.cc`

The whole parser: parameters, assignments, IF, WHILE, words, and all commands of `ParseBlock`. Text is modelled
as in `Verif.Expr.Model`. Floating point values are a type with operations that satisfy no laws.

Simplifications: message texts, line numbers, the error counter and the debug level are left out; an error
message is the event `error`. Messages from inside the evaluation of an expression are recorded as one event at
the caller; so there may be fewer events than messages, but there is one whenever there is a message. The message
for an unknown function prints a null pointer with `%s` (line 717), which glibc does as `(null)`.

The receiver of the events is arbitrary: what it answers may depend on everything it was told before. `arc_move`
and `spline_move` are the default implementations of arc-gen.cc, as in `GCodeMachineControl`.
-/
namespace BeagleG.Parser
open Text Expr

/-! ### Axes -/

/-- `enum GCodeParserAxis`, gcode-parser.h 45-57. -/
inductive Axis where
  | X | Y | Z | A | B | C | U | V | W | E
  deriving DecidableEq, Repr

/-- Position of an axis in the enumeration. gcode-parser.h 45-57. -/
def Axis.index : Axis → Nat
  | .X => 0 | .Y => 1 | .Z => 2 | .A => 3 | .B => 4 | .C => 5 | .U => 6 | .V => 7 | .W => 8 | .E => 9

/-- `AllAxes`. gcode-parser.h 58. -/
def allAxes : List Axis := [.X, .Y, .Z, .A, .B, .C, .U, .V, .W, .E]

/-- `gcodep_letter2axis`, lines 68-82. -/
def letterAxis (letter : Byte) : Option Axis :=
  let c := toUpper letter
  if c = 88 then some .X else if c = 89 then some .Y else if c = 90 then some .Z
  else if c = 65 then some .A else if c = 66 then some .B else if c = 67 then some .C
  else if c = 85 then some .U else if c = 86 then some .V else if c = 87 then some .W
  else if c = 69 then some .E else none

/-- `AxesRegister`, gcode-parser.h 61. -/
abbrev Axes (F : Type) := Axis → F

/-- `r[a] = v`. `FixedArray::operator[]`, common/container.h 33-60. -/
def setAxis {F : Type} (r : Axes F) (a : Axis) (v : F) : Axes F := fun b => if b = a then v else r b

/-- `is_rotational_axis`, gcode-parser.h 78-80. -/
def isRotational : Axis → Bool
  | .A => true | .B => true | .C => true | _ => false

/-- `is_linear_axis`, gcode-parser.h 74-76. -/
def isLinear : Axis → Bool
  | .X => true | .Y => true | .Z => true | _ => false

/-! ### Floating point -/

/-- The operations used in addition to those of expressions; nothing is assumed about them.
Operators and libm functions, e.g. gcode-parser.cc 1430-1432, 1483-1522. -/
structure Num (F : Type) extends Float_ F where
  /-- the float constant `n / 10` -/
  tenth : Int → F
  /-- the float constant `0.01f` -/
  hundredth : F
  /-- conversion to `int` -/
  toInt : F → Int
  /-- conversion from `int` -/
  ofInt : Int → F
  neg : F → F
  hypot : F → F → F
  /-- trigonometric functions in radians -/
  atan2 : F → F → F
  cos : F → F
  sin : F → F
  asin : F → F
  /-- `2 * M_PI` and `M_PI / 2` -/
  twoPi : F
  halfPi : F
  /-- `1 + 1e-6` and `1 - 1e-6`, line 1495 and 1497 -/
  onePlus : F
  oneMinus : F
  /-- `0.00001`, arc-gen.cc 114 -/
  tiny : F

/-! ### What happens -/

/-- The names given to `inform_origin_offset`: those of the coordinate systems (`kCoordinateSystemNames`, lines 84-85), `"G92"`,
`"G30"`, `""` and `"H"`. -/
inductive FrameName where
  | system (i : Fin 9)
  | g92
  | g30
  | empty
  | home
  deriving DecidableEq, Repr

/-- Calls of the event receiver, and error messages. The methods of `GCodeParser::EventReceiver`, gcode-parser.h 181-318. -/
inductive Event (F : Type) where
  | error
  | start
  | finished (endOfStream : Bool)
  | originOffset (origin : Axes F) (name : FrameName)
  | commandDone (letter : Byte) (value : F)
  | blockDone
  | goHome (axes : Axis → Bool)
  | probeAxis (feed : F)
  | spindleSpeed (value : F)
  | speedFactor (value : F)
  | fanSpeed (value : F)
  | temperature (value : F)
  | waitTemperature
  | dwell (value : F)
  | motorsEnable (on : Bool)
  | waitForStart
  | clampToRange (affected : Axis → Bool) (pos : Axes F)
  | coordinatedMove (feed : F) (pos : Axes F)
  | rapidMove (feed : F) (pos : Axes F)
  /-- a call of `arc_move` that returns true without a move, arc-gen.cc 114-115 -/
  | arcIgnored (target : Axes F)
  | unprocessed (letter : Byte) (value : F)
  /-- the receiver has read a word with `ParsePair` -/
  | word (letter : Byte) (value : F)
  | saveParams
  | loadParams

/-- Undefined behaviour by what is wrong. Found in gcode-parser.cc, e.g. 582, 717, 1160. -/
inductive Fault where
  /-- reads behind the terminating NUL -/
  | pastEnd
  /-- evaluation of an expression leaves its stack -/
  | stack
  /-- `printf` with arguments that do not fit the format -/
  | printf
  /-- use of a string view after the string was changed -/
  | dangling
  deriving DecidableEq, Repr

/-- Result of a run. `outOfFuel` is no behaviour of the program: the bound on the number of loop iterations
given to the model was too small. The methods of `GCodeParser::Impl`, gcode-parser.cc 90-427, have results of this type. -/
inductive Out (α : Type) where
  | ok (a : α)
  | fault (f : Fault)
  | outOfFuel

/-- Go on with a result. Sequencing of statements; no code of its own. -/
def Out.bind {α β : Type} (r : Out α) (f : α → Out β) : Out β :=
  match r with
  | .ok a => f a
  | .fault f => .fault f
  | .outOfFuel => .outOfFuel

/-- The event receiver: its answers, given all events so far (the newest first; it is the one answered).
gcode-parser.h 181-318. -/
structure Receiver (F : Type) where
  /-- `coordinated_move`, `rapid_move`: has the move been made? -/
  accepts : List (Event F) → Bool
  /-- `clamp_to_range` -/
  clamp : List (Event F) → Axes F → Axes F
  /-- `probe_axis`: the position, if found -/
  probe : List (Event F) → Option F
  /-- `unprocessed`: does the receiver want to read (another) word with `ParsePair`? -/
  reads : List (Event F) → Bool
  /-- `unprocessed`: does it use up the word it has read? -/
  takes : List (Event F) → Bool
  /-- `unprocessed`: does it return null? -/
  discards : List (Event F) → Bool
  /-- `Config::LoadParams`; see `Verif.ParamFile` -/
  load : List (Event F) → (List Byte → Option F) → (List Byte → Option F)
  /-- `Config::allow_m111` -/
  allowM111 : Bool

/-- What `current_origin_` points to. gcode-parser.cc 402-405. -/
inductive Origin where
  | machine
  | system (i : Fin 9)
  deriving DecidableEq

/-- What `current_global_offset_` points to. gcode-parser.cc 407-408. -/
inductive Offset where
  | zero
  | g92
  deriving DecidableEq

/-- The members of `GCodeParser::Impl`, lines 348-427. -/
structure State (F : Type) where
  /-- `config_.parameters`; `none` is the null pointer -/
  params : Option (List Byte → Option F)
  /-- `axes_pos_` -/
  pos : Axes F
  /-- `scale_` -/
  scale : Axes F
  /-- `machine_origin_` -/
  machineOrigin : Axes F
  /-- `coord_system_` -/
  system : Fin 9 → Axes F
  /-- `global_offset_g92_` -/
  g92 : Axes F
  /-- `current_origin_` -/
  origin : Origin
  /-- `current_global_offset_` -/
  offset : Offset
  /-- `xyz_unit_to_mm_factor_` -/
  unit : F
  /-- `rotation_unit_to_degree_factor_` -/
  rotUnit : F
  /-- `axis_is_absolute_` -/
  absolute : Axis → Bool
  /-- `ijk_is_absolute_` -/
  ijkAbsolute : Bool
  /-- `modal_absolute_g90_` -/
  modalAbsolute : Bool
  /-- `modal_g0_g1_` is 1 -/
  modalG1 : Bool
  /-- `arc_normal_` -/
  arcNormal : Axis
  /-- `last_spline_cp2_` -/
  lastCp2 : Axes F
  /-- `have_first_spline_` -/
  haveSpline : Bool
  /-- `do_while_` -/
  doWhile : Bool
  /-- `while_condition_` -/
  whileCond : List Byte
  /-- `while_loop_` -/
  whileBody : List Byte
  /-- number of changes of `while_loop_`; string views taken before are invalid -/
  whileGen : Nat
  /-- `program_in_progress_` -/
  inProgress : Bool
  /-- what happened so far, the newest first -/
  log : List (Event F)

variable {F : Type} (fl : Num F) (rc : Receiver F)

/-- An event. A call of a method of `callbacks_` (gcode-parser.cc 348), or of `gprintf` (510-532) with an error. -/
def State.say (st : State F) (e : Event F) : State F := { st with log := e :: st.log }

/-! ### Parameters -/

/-- The digits at the start of a text.
Part of `std::from_chars`, used in common/string-util.cc (`ParseInt64`), called at gcode-parser.cc 324. -/
def takeDigits : List Byte → List Byte
  | [] => []
  | c :: cs => if isDigit c then c :: takeDigits cs else []

/-- Value of a text of decimal digits.
Part of `std::from_chars`, used in common/string-util.cc (`ParseInt64`), called at gcode-parser.cc 324. -/
def digitsValue (ds : List Byte) : Nat := ds.foldl (fun n c => 10 * n + (c.toNat - 48)) 0

/-- `std::from_chars` for a 64 bit integer; `none` is an error.
Used in common/string-util.cc (`ParseInt64`), called at gcode-parser.cc 324. -/
def fromChars64 : List Byte → Option Int
  | [] => none
  | c :: cs =>
    if c = 45 then
      if takeDigits cs = [] then none
      else if digitsValue (takeDigits cs) ≤ 2 ^ 63 then some (-(digitsValue (takeDigits cs) : Int)) else none
    else if takeDigits (c :: cs) = [] then none
    else if digitsValue (takeDigits (c :: cs)) < 2 ^ 63 then some (digitsValue (takeDigits (c :: cs)) : Int)
    else none

/-- `ParseInt64`, string-util.cc 187-190, with `convert_strto_num`, lines 103-112 (C++17). -/
def parseInt64 (s : List Byte) (fallback : Int) : Int :=
  let s := skipWhite s
  (fromChars64 (if s.head? = some 43 then s.tail else s)).getD fallback

/-- `read_parameter`, lines 297-317: value and success. -/
def readParameter (st : State F) (name : List Byte) : F × Bool :=
  match st.params with
  | none => (fl.zero, false)
  | some p =>
    match p (toLowerString (trimWhitespace name)) with
    | some v => (v, true)
    | none =>
      match trimWhitespace name with
      | [c] =>
        match letterAxis c with
        | some a => (st.pos a, true)
        | none => (fl.zero, false)
      | _ => (fl.zero, false)

/-- `read_parameter` as used in expressions. gcode-parser.cc 297-317, called at 615. -/
def lookup (st : State F) (name : List Byte) : F := (readParameter fl st name).1

/-- The test of line 324. -/
def unsupported (name : List Byte) : Bool := name = [48] || 5400 ≤ parseInt64 name 0

/-- `store_parameter`, lines 320-331. -/
def storeParameter (st : State F) (name : List Byte) (v : F) : State F :=
  match st.params with
  | none => st
  | some p =>
    if unsupported (trimWhitespace name) then st.say .error
    else { st with
      params := some fun n => if n = toLowerString (trimWhitespace name) then some v else p n }

/-! ### Assignments -/

/-- The text after two given characters. Used for `++`, `--`, `+=` and the like at gcode-parser.cc 906-1020. -/
def after2 (a b : Byte) : List Byte → Option (List Byte)
  | x :: y :: l => if x = a ∧ y = b then some l else none
  | _ => none

/-- The text after one given character. Used for `=`, `#` and brackets at gcode-parser.cc 906-1020. -/
def after1 (a : Byte) : List Byte → Option (List Byte)
  | x :: l => if x = a then some l else none
  | [] => none

/-- Lines 928-945: operator and text after it. -/
def assignOp (line : List Byte) : Option (Nat × List Byte) :=
  match after2 43 61 line with
  | some l => some (PLUS, l)
  | none =>
  match after2 45 61 line with
  | some l => some (MINUS, l)
  | none =>
  match after2 42 61 line with
  | some l => some (TIMES, l)
  | none =>
  match after2 47 61 line with
  | some l => some (DIVIDED_BY, l)
  | none =>
  match after1 61 line with
  | some l => some (NO_OPERATION, l)
  | none => none

/-- Use the result of evaluating something: null pointers are handled by `onNull`.
The pattern `endptr = …; if (endptr == NULL) …`, e.g. gcode-parser.cc 575-580, 1030-1031, 1094-1098, 1195-1201. -/
def fromRes {α β : Type} (r : Res α) (onNull : Out β) (f : α → List Byte → Out β) : Out β :=
  match r with
  | .ok v rest => f v rest
  | .null => onNull
  | .undef => .fault .stack
  | .outOfFuel => .outOfFuel

/-- Lines 1012-1019. -/
def assign (st : State F) (name : List Byte) (v : F) (line : List Byte) :
    Out (State F × Option (List Byte)) :=
  .ok ((storeParameter st name v).say (.commandDone 35 v), some line)

/-- The ternary operator after `?`, lines 975-1009. Its error messages have the arguments in the wrong order. -/
def ternary (st : State F) (name : List Byte) (condition : Bool) (line : List Byte) :
    Out (State F × Option (List Byte)) :=
  fromRes (valueOf fl.toFloat_ (lookup fl st) (skipWhite line)) (.fault .printf) fun yes line =>
    match after1 58 line with
    | none => .fault .printf
    | some line =>
      fromRes (valueOf fl.toFloat_ (lookup fl st) (skipWhite line)) (.fault .printf) fun no line =>
        assign st name (if condition then yes else no) line

/-- Lines 964-1012: the value on the right has been read. -/
def assignValue (st : State F) (name : List Byte) (op : Nat) (v : F) (line : List Byte) :
    Out (State F × Option (List Byte)) :=
  if op ≠ NO_OPERATION then
    match executeBinary fl.toFloat_ (lookup fl st name) op v with
    | none => .ok (st.say .error, none)
    | some w => assign st name w line
  else
    match after1 63 line with
    | some line => ternary fl st name (!fl.eq v fl.zero) line
    | none => assign st name v line

/-- Lines 912-1012: the name has been read. -/
def assignName (st : State F) (name : List Byte) (line : List Byte) : Out (State F × Option (List Byte)) :=
  match after2 43 43 line with
  | some l => .ok (storeParameter st name (fl.add (lookup fl st name) fl.one), some (skipWhite l))
  | none =>
  match after2 45 45 line with
  | some l => .ok (storeParameter st name (fl.sub (lookup fl st name) fl.one), some (skipWhite l))
  | none =>
  match assignOp line with
  | none => .ok (if line = [] then st else st.say .error, none)
  | some (op, l) =>
    fromRes (valueOf fl.toFloat_ (lookup fl st) (skipWhite l)) (.ok (st.say .error, none)) fun v line =>
      assignValue fl st name op v line

/-- No name where `read_param_name` wants one, line 606: null without a message. -/
def nameless (line : List Byte) : Bool :=
  match skipWhite line with
  | [] => false
  | c :: cs =>
    if c = 60 then !startsNumeric cs && (scanName true cs).1.isEmpty && (scanName true cs).2.head? == some 62
    else !startsNumeric (c :: cs) && (scanName false (c :: cs)).1.isEmpty

/-- `read_param_name` has returned null, after a message unless there is no name. gcode-parser.cc 555-606. -/
def nameFails (st : State F) (line : List Byte) : State F := if nameless line then st else st.say .error

/-- `gcodep_set_parameter`, lines 906-1020; the result is the text after the assignment, or null. -/
def setParameter (st : State F) (line : List Byte) : Out (State F × Option (List Byte)) :=
  fromRes (readParamName fl.toFloat_ (valueOf fl.toFloat_ (lookup fl st)) line)
    (.ok (nameFails st line, none)) fun name line => assignName fl st name line

/-! ### IF -/

/-- `CK_IF` of `enum ControlKeyword`, gcode-parser.cc 353-362. -/
abbrev CK_IF : Nat := 1
/-- `CK_THEN` of `enum ControlKeyword`, gcode-parser.cc 353-362. -/
abbrev CK_THEN : Nat := 2
/-- `CK_ELSE` of `enum ControlKeyword`, gcode-parser.cc 353-362. -/
abbrev CK_ELSE : Nat := 3
/-- `CK_ELSEIF` of `enum ControlKeyword`, gcode-parser.cc 353-362. -/
abbrev CK_ELSEIF : Nat := 4
/-- `CK_WHILE` of `enum ControlKeyword`, gcode-parser.cc 353-362. -/
abbrev CK_WHILE : Nat := 5
/-- `CK_DO` of `enum ControlKeyword`, gcode-parser.cc 353-362. -/
abbrev CK_DO : Nat := 6
/-- `CK_END` of `enum ControlKeyword`, gcode-parser.cc 353-362. -/
abbrev CK_END : Nat := 7

/-- The keywords of `control_parse_`, lines 493-499. -/
def controlTable : List (List Byte × Nat) :=
  [([105, 102], CK_IF), ([116, 104, 101, 110], CK_THEN), ([101, 108, 115, 101], CK_ELSE),
   ([101, 108, 115, 101, 105, 102], CK_ELSEIF), ([119, 104, 105, 108, 101], CK_WHILE), ([100, 111], CK_DO),
   ([101, 110, 100], CK_END)]

/-- `control_parse_` after the constructor. gcode-parser.cc 363 and 431-500. -/
def controlTrie : Trie := (build controlTable Trie.empty).getD Trie.empty

/-- `control_parse_.ExpectNext`, with what to do with the text behind the keyword or otherwise.
simple-lexer.h (`ExpectNext`), called at gcode-parser.cc 1036, 1102, 1118, 1164, 1169. -/
def expect {β : Type} (line : List Byte) (keyword : Nat) (yes : List Byte → Out β) (no : Out β) : Out β :=
  match controlTrie.expectNext line keyword with
  | none => .fault .pastEnd
  | some (true, rest) => yes rest
  | some (false, _) => no

/-- Does the text start with ELSE in any case? The text behind it. gcode-parser.cc 1056-1058. -/
def afterElse : List Byte → Option (List Byte)
  | a :: b :: c :: d :: l =>
    if toUpper a = 69 ∧ toUpper b = 76 ∧ toUpper c = 83 ∧ toUpper d = 69 then some l else none
  | _ => none

/-- The loop of lines 1055-1065. -/
def findElse : List Byte → Option (List Byte)
  | [] => none
  | c :: cs =>
    match afterElse (c :: cs) with
    | some l => some (skipWhite l)
    | none => findElse cs

/-- Line 1067: does the text start with IF? -/
def afterIf : List Byte → Option (List Byte)
  | a :: b :: l => if toUpper a = 73 ∧ toUpper b = 70 then some l else none
  | _ => none

/-- Lines 1045-1050, 1075-1083: an assignment has to follow. -/
def branch (st : State F) (line : List Byte) : Out (State F) :=
  match after1 35 line with
  | some l => (setParameter fl st l).bind fun r => .ok r.1
  | none => .ok (st.say .error)

/-- `gcodep_conditional`, lines 1022-1085. The first argument bounds the number of ELSEIFs. -/
def conditional : Nat → State F → List Byte → Out (State F)
  | 0, _, _ => .outOfFuel
  | n + 1, st, line =>
    match after1 91 line with
    | none => .ok (st.say .error)
    | some l =>
      fromRes (expression fl.toFloat_ (lookup fl st) l) (.ok (st.say .error)) fun v rest =>
        expect (skipWhite rest) CK_THEN
          (fun rest =>
            if fl.eq v fl.one then branch fl st (skipWhite rest)
            else
              match findElse (skipWhite rest) with
              | none => .ok st
              | some l =>
                match afterIf l with
                | some l => conditional n st (skipWhite l)
                | none => branch fl st l)
          (.ok (st.say .error))

/-! ### Words -/

/-- `gcodep_while_do`, lines 1117-1125. `endLoop` is `gcodep_while_end`. -/
def whileDo (endLoop : State F → Out (State F)) (st : State F) (line : List Byte) : Out (State F) :=
  expect line CK_END (fun _ => endLoop { st with doWhile := false })
    (.ok { st with whileBody := st.whileBody ++ line, whileGen := st.whileGen + 1 })

/-- `gcodep_while_start`, lines 1130-1140. -/
def whileStart (st : State F) (line : List Byte) : State F :=
  match after1 91 line with
  | none => st.say .error
  | some l => { st with
      whileCond := skipWhite l, whileBody := [], whileGen := st.whileGen + 1, doWhile := true }

/-- The text behind a comment, line 1161; `none`: the comment is not closed and the next byte read is the one
behind the NUL. -/
def afterComment : List Byte → Option (List Byte)
  | [] => none
  | c :: cs => if c = 41 then some cs else afterComment cs

/-- A word: letter and value, and the text behind it.
The results of `gcodep_parse_pair_with_linenumber`, gcode-parser.cc 1144-1205. -/
structure Word (F : Type) where
  letter : Byte
  value : F
  rest : List Byte

/-- Lines 1187-1204: letter and value. -/
def letterValue (st : State F) (line : List Byte) : Out (State F × Option (Word F)) :=
  match line with
  | [] => .ok (st.say .error, none)
  | c :: cs =>
    if cs = [] then .ok (st.say .error, none)
    else if toUpper c = 42 then .ok (st, none)
    else
      fromRes (valueOf fl.toFloat_ (lookup fl st) (skipWhite cs)) (.ok (st.say .error, none)) fun v rest =>
        .ok (st, some ⟨toUpper c, v, rest⟩)

/-- Lines 1166-1204: after a comment. `again` is the recursive call. -/
def pairBody (again : State F → List Byte → Out (State F × Option (Word F))) (st : State F) (line : List Byte) :
    Out (State F × Option (Word F)) :=
  expect line CK_IF
    (fun rest => (conditional fl (rest.length + 1) st (skipWhite rest)).bind fun st => .ok (st, none))
    (expect line CK_WHILE
      (fun rest => .ok (whileStart st (skipWhite rest), none))
      (match after1 35 line with
        | some l =>
          (setParameter fl st l).bind fun r =>
            match r.2 with
            | none => .ok (r.1, none)
            | some l => again r.1 l
        | none => letterValue fl st line))

/-- `gcodep_parse_pair_with_linenumber` for text that starts with something else than white space, lines
1150-1204. -/
def pairStart (endLoop : State F → Out (State F)) (again : State F → List Byte → Out (State F × Option (Word F)))
    (st : State F) : List Byte → Out (State F × Option (Word F))
  | [] => .ok (st, none)
  | c :: cs =>
    if c = 59 ∨ c = 37 then .ok (st, none)
    else if st.doWhile then (whileDo endLoop st (c :: cs)).bind fun st => .ok (st, none)
    else if c = 40 then
      match afterComment (c :: cs) with
      | none => .fault .pastEnd
      | some l => if skipWhite l = [] then .ok (st, none) else pairBody fl again st (skipWhite l)
    else pairBody fl again st (c :: cs)

/-- `gcodep_parse_pair_with_linenumber`, lines 1144-1205. The first argument bounds the number of assignments. -/
def pairLoop (endLoop : State F → Out (State F)) : Nat → State F → List Byte → Out (State F × Option (Word F))
  | 0, _, _ => .outOfFuel
  | n + 1, st, line => pairStart fl endLoop (pairLoop endLoop n) st (skipWhite line)

/-- The same with a bound that is always enough. gcode-parser.cc 1144-1205. -/
def parsePair (endLoop : State F → Out (State F)) (st : State F) (line : List Byte) :
    Out (State F × Option (Word F)) :=
  pairLoop fl endLoop (line.length + 1) st line

/-- The loops over the words of a command: `while ((remaining_line = gparse_pair(line, &letter, &value)))`.
`step` does something with a word, or leaves the loop without using it up. Result: what was collected, the text
that is left, and whether a word was left over. -/
def words {A : Type} (pair : State F → List Byte → Out (State F × Option (Word F)))
    (step : State F → A → Byte → F → Option (State F × A)) : Nat → State F → A → List Byte →
    Out (State F × A × List Byte × Bool)
  | 0, _, _, _ => .outOfFuel
  | n + 1, st, a, line =>
    (pair st line).bind fun r =>
      match r.2 with
      | none => .ok (r.1, a, line, false)
      | some w =>
        match step r.1 a w.letter w.value with
        | none => .ok (r.1, a, line, true)
        | some (st, a) => words pair step n st a w.rest

/-! ### Coordinates -/

/-- `current_origin()`. gcode-parser.cc 333. -/
def State.currentOrigin (st : State F) : Axes F :=
  match st.origin with
  | .machine => st.machineOrigin
  | .system i => st.system i

/-- `current_global_offset()`. gcode-parser.cc 334-336. -/
def State.currentOffset (st : State F) : Axes F :=
  match st.offset with
  | .zero => fun _ => fl.zero
  | .g92 => st.g92

/-- The sum of both, lines 187-190 and 267. -/
def State.frame (st : State F) : Axes F := fun a => fl.add (st.currentOrigin a) (st.currentOffset fl a)

/-- `abs_axis_pos`, lines 261-270. -/
def absAxisPos (st : State F) (a : Axis) (value : F) : F :=
  let unitValue := fl.mul value (if isRotational a then st.rotUnit else st.unit)
  let relativeTo := if st.absolute a then st.frame fl a else st.pos a
  fl.add relativeTo (fl.mul unitValue (st.scale a))

/-- `inform_origin_offset_change`, lines 187-193. -/
def informOrigin (st : State F) (name : FrameName) : State F := st.say (.originOffset (st.frame fl) name)

/-- `set_current_offset`, lines 181-184. -/
def setCurrentOffset (st : State F) (o : Offset) (name : FrameName) : State F := informOrigin fl { st with offset := o } name

/-- `set_ijk_absolute`, lines 145-150. -/
def setIjkAbsolute (st : State F) (b : Bool) : State F :=
  { (if b then st.say .error else st) with ijkAbsolute := b }

/-- `InitProgramDefaults`, lines 114-134. -/
def initProgramDefaults (st : State F) : State F :=
  let st := { st with
    unit := fl.one, rotUnit := fl.one, absolute := fun _ => true, modalAbsolute := true,
    ijkAbsolute := false, scale := fun _ => fl.one, g92 := fun _ => fl.zero }
  let st := setCurrentOffset fl st .g92 .home
  let st := { st with arcNormal := .Z, lastCp2 := fun _ => fl.zero, haveSpline := false, doWhile := false }
  ((st.say (.speedFactor fl.one)).say (.fanSpeed fl.zero)).say (.temperature fl.zero)

/-- `finish_program_and_reset`, lines 195-200. -/
def finishProgram (st : State F) : State F :=
  { initProgramDefaults fl (st.say (.finished false)) with inProgress := false }

/-- Decimal digits: `StringPrintf("%d", n)` for `n ≥ 0`.
Used at gcode-parser.cc 582 and for the names of the parameters of the coordinate systems, 1232-1267. -/
def decNat (n : Nat) : List Byte := (Nat.toDigits 10 n).map fun c => UInt8.ofNat c.toNat

/-- The parameter that holds an axis of a coordinate system, lines 1240 and 1327. -/
def systemParam (cs : Fin 9) (a : Axis) : List Byte := decNat (5221 + 20 * cs.val + a.index)

/-! ### Commands that take words -/

/-- Bound for the loops over words: every word has a character.
The loops `while ((remaining = gparse_pair(…)))`, e.g. gcode-parser.cc 1207-1230; the bound has no code of its own. -/
def wordFuel (line : List Byte) : Nat := line.length + 1

/-- `handle_home`, lines 1207-1229. -/
def handleHome (pair : State F → List Byte → Out (State F × Option (Word F))) (st : State F) (line : List Byte) :
    Out (State F × Option (List Byte)) :=
  (words pair (fun st (flags : Axis → Bool) l _ =>
      match letterAxis l with
      | none => none
      | some a => some (st, fun b => b = a || flags b)) (wordFuel line) st (fun _ => false) line).bind
    fun (st, flags, rest, _) =>
      let flags := if allAxes.all (fun a => !flags a) then fun _ => true else flags
      let st := st.say (.goHome flags)
      .ok ({ st with pos := fun a => if flags a then st.machineOrigin a else st.pos a }, some rest)

/-- What `handle_G10` collects. gcode-parser.cc 1270-1294. -/
structure G10 (F : Type) where
  l : Int
  p : Int
  coords : Axis → Option F

/-- The word loop of `handle_G10`, lines 1281-1294. -/
def g10Step (st : State F) (g : G10 F) (l : Byte) (v : F) : Option (State F × G10 F) :=
  if l = 76 then some (st, { g with l := fl.toInt v })
  else if l = 80 then some (st, { g with p := fl.toInt v })
  else
    match letterAxis l with
    | none => none
    | some a => some (st, { g with coords := fun b => if b = a then some (fl.mul v st.unit) else g.coords b })

/-- Lines 1316-1321: the new values of a coordinate system. -/
def g10System (st : State F) (cs : Fin 9) (coords : Axis → Option F) : Axes F := fun a =>
  match coords a with
  | none => st.system cs a
  | some v => if st.modalAbsolute then fl.add (st.machineOrigin a) v else fl.add (st.system cs a) v

/-- Lines 1324-1330: store the parameters of a coordinate system. -/
def g10Store (st : State F) (cs : Fin 9) (coords : Axis → Option F) : List Axis → State F
  | [] => st
  | a :: as =>
    match coords a with
    | none => g10Store st cs coords as
    | some _ =>
      g10Store (storeParameter st (systemParam cs a) (fl.sub (st.system cs a) (st.machineOrigin a))) cs coords as

/-- Lines 1314-1330: change a coordinate system and its parameters. -/
def g10Set (st : State F) (cs : Fin 9) (coords : Axis → Option F) : State F :=
  g10Store fl { st with system := fun i => if i = cs then g10System fl st cs coords else st.system i } cs coords
    allAxes

/-- `handle_G10` after the words, lines 1299-1336. -/
def g10Apply (st : State F) (g : G10 F) : State F :=
  if g.l ≠ 2 then st.say .error
  else if h : g.p < 1 ∨ g.p > 9 then st.say .error
  else
    let cs : Fin 9 := ⟨(g.p - 1).toNat, by omega⟩
    if st.origin = .system cs then informOrigin fl (g10Set fl st cs g.coords) (.system cs) else g10Set fl st cs g.coords

/-- `handle_G10`, lines 1269-1337. -/
def handleG10 (pair : State F → List Byte → Out (State F × Option (Word F))) (st : State F) (line : List Byte) :
    Out (State F × Option (List Byte)) :=
  (words pair (g10Step fl) (wordFuel line) st ⟨-1, -1, fun _ => none⟩ line).bind fun (st, g, rest, _) =>
    .ok (g10Apply fl st g, some rest)

/-- `set_xyz_scale`, lines 159-175. -/
def handleG51 (pair : State F → List Byte → Out (State F × Option (Word F))) (st : State F) (line : List Byte) :
    Out (State F × Option (List Byte)) :=
  (words pair (fun st (_ : Unit) l v =>
      match letterAxis l with
      | none => none
      | some a => some (if isLinear a then { st with scale := setAxis st.scale a v } else st, ()))
    (wordFuel line) st () line).bind fun (st, _, rest, _) => .ok (st, some rest)

/-- `handle_G90_G91`, lines 1339-1348. -/
def handleG90 (st : State F) (value : F) : State F :=
  if fl.eq value (fl.tenth 900) then { st with absolute := fun _ => true, modalAbsolute := true }
  else if fl.eq value (fl.tenth 910) then { st with absolute := fun _ => false, modalAbsolute := false }
  else if fl.eq value (fl.tenth 901) then setIjkAbsolute st true
  else if fl.eq value (fl.tenth 911) then setIjkAbsolute st false
  else st

/-- The `switch` of `change_coord_system`, lines 1352-1379. -/
def coordSystemOf (sub : F) : Option (Fin 9) :=
  if fl.toInt sub = 54 then some 0
  else if fl.toInt sub = 55 then some 1
  else if fl.toInt sub = 56 then some 2
  else if fl.toInt sub = 57 then some 3
  else if fl.toInt sub = 58 then some 4
  else if fl.toInt sub = 59 then
    if fl.eq sub (fl.tenth 590) then some 5
    else if fl.eq sub (fl.tenth 591) then some 6
    else if fl.eq sub (fl.tenth 592) then some 7
    else if fl.eq sub (fl.tenth 593) then some 8
    else none
  else none

/-- The name `5220`. gcode-parser.cc 1232-1267, 1350-1384. -/
def selectedParam : List Byte := [53, 50, 50, 48]

/-- `change_coord_system`, lines 1350-1383. -/
def changeCoordSystem (st : State F) (sub : F) : State F :=
  match coordSystemOf fl sub with
  | none => st.say .error
  | some i =>
    informOrigin fl { storeParameter st selectedParam (fl.ofInt (i.val + 1)) with origin := .system i } (.system i)

/-- The word loop of G92, lines 1393-1402. -/
def g92Step (st : State F) (_ : Unit) (l : Byte) (v : F) : Option (State F × Unit) :=
  match letterAxis l with
  | none => none
  | some a =>
    some ({ st with
      g92 := setAxis st.g92 a (fl.sub (fl.sub (st.pos a) (fl.mul v st.unit)) (st.currentOrigin a)) }, ())

/-- `handle_G92`, lines 1386-1414. -/
def handleG92 (pair : State F → List Byte → Out (State F × Option (Word F))) (st : State F) (sub : F)
    (line : List Byte) : Out (State F × Option (List Byte)) :=
  if fl.eq sub (fl.tenth 920) then
    (words pair (g92Step fl) (wordFuel line) st () line).bind fun (st, _, rest, _) =>
      .ok (setCurrentOffset fl st .g92 .g92, some rest)
  else if fl.eq sub (fl.tenth 921) then
    .ok (setCurrentOffset fl { st with g92 := fun _ => fl.zero } .g92 .empty, some line)
  else if fl.eq sub (fl.tenth 922) then .ok (setCurrentOffset fl st .zero .empty, some line)
  else if fl.eq sub (fl.tenth 923) then .ok (setCurrentOffset fl st .g92 .g92, some line)
  else .ok (st, some line)

/-- `set_param`, lines 1417-1428. `setter` is the callback. -/
def setParam (pair : State F → List Byte → Out (State F × Option (Word F))) (letter : Byte)
    (setter : F → Event F) (factor : F) (st : State F) (line : List Byte) :
    Out (State F × Option (List Byte)) :=
  (pair st line).bind fun r =>
    match r.2 with
    | some w =>
      if w.letter = letter then .ok (r.1.say (setter (fl.mul factor w.value)), some w.rest)
      else .ok (r.1, some line)
    | none => .ok (r.1, some line)

/-- `f_param_to_feedrate`, lines 1430-1432. -/
def feedOf (v : F) : F := fl.div v (fl.tenth 600)

/-- What `handle_move` collects. gcode-parser.cc 1436-1459. -/
structure MoveWords (F : Type) where
  change : Bool
  feed : F
  pos : Axes F
  affected : Axis → Bool

/-- The word loop of `handle_move`, lines 1444-1460. -/
def moveStep (st : State F) (m : MoveWords F) (l : Byte) (v : F) : Option (State F × MoveWords F) :=
  if l = 70 then some (st, { m with feed := feedOf fl (fl.mul v st.unit), change := true })
  else if l = 83 then some (st.say (.spindleSpeed v), m)
  else
    match letterAxis l with
    | none => none
    | some a => some (st, { m with
        pos := setAxis m.pos a (absAxisPos fl st a v), change := true, affected := fun b => b = a || m.affected b })

/-- A call of `coordinated_move` or `rapid_move`: answer and state. E.g. gcode-parser.cc 1464-1468. -/
def ask (st : State F) (e : Event F) : State F × Bool := (st.say e, rc.accepts (e :: st.log))

/-- The position is changed if a move was made, lines 1470-1472, 1637-1639, 1805-1807. -/
def reached (r : State F × Bool) (target : Axes F) : State F :=
  match r.2 with
  | true => { r.1 with pos := target }
  | false => r.1

/-- `handle_move` after the words, lines 1462-1473. -/
def moveApply (st : State F) (m : MoveWords F) : State F :=
  if m.change then
    let st1 := st.say (.clampToRange m.affected m.pos)
    let target := rc.clamp st1.log m.pos
    reached (ask rc st1 (if st1.modalG1 then .coordinatedMove m.feed target else .rapidMove m.feed target)) target
  else st

/-- `handle_move`, lines 1434-1474. -/
def handleMove (pair : State F → List Byte → Out (State F × Option (Word F))) (force : Bool) (st : State F)
    (line : List Byte) : Out (State F × Option (List Byte)) :=
  (words pair (moveStep fl) (wordFuel line) st ⟨force, fl.minusOne, st.pos, fun _ => false⟩ line).bind
    fun (st, m, rest, _) => .ok (moveApply rc st m, some rest)

/-! ### Arcs -/

/-- A series of `coordinated_move`s that stops at the first one refused: state, and whether all were
accepted. gcode-parser.cc 1524-1809 and the default methods at gcode-parser.h 282-320. -/
def moves (feed : F) : State F → List (Axes F) → State F × Bool
  | st, [] => (st, true)
  | st, p :: ps =>
    if (ask rc st (.coordinatedMove feed p)).2 then moves feed (ask rc st (.coordinatedMove feed p)).1 ps
    else ((ask rc st (.coordinatedMove feed p)).1, false)

/-- `plane`, arc-gen.cc 54-73. -/
def plane : Axis → Option (Axis × Axis × Axis)
  | .Z => some (.X, .Y, .Z)
  | .X => some (.Y, .Z, .X)
  | .Y => some (.X, .Z, .Y)
  | _ => none

/-- `AllAxesFromA`, arc-gen.cc 43. -/
def fromA : List Axis := [.A, .B, .C, .U, .V, .W, .E]

/-- The positions of the loop of arc-gen.cc 127-146: `i` is the loop counter, `n` the iterations left. -/
def arcPoints (offset0 offset1 center0 center1 theta linear : F) (p0 p1 p2 : Axis) (other : Axes F) :
    Nat → Int → Axes F → List (Axes F)
  | 0, _, _ => []
  | n + 1, i, position =>
    let c := fl.cos (fl.mul (fl.ofInt i) theta)
    let s := fl.sin (fl.mul (fl.ofInt i) theta)
    let r0 := fl.add (fl.mul (fl.neg offset0) c) (fl.mul offset1 s)
    let r1 := fl.sub (fl.mul (fl.neg offset0) s) (fl.mul offset1 c)
    let q := setAxis (setAxis position p0 (fl.add center0 r0)) p1 (fl.add center1 r1)
    let q := setAxis q p2 (fl.add (q p2) linear)
    let q : Axes F := fun a => if a ∈ fromA then fl.add (q a) (other a) else q a
    q :: arcPoints offset0 offset1 center0 center1 theta linear p0 p1 p2 other n (i + 1) q

/-- `angular_travel`, arc-gen.cc 101-108. -/
def angularTravel (cw : Bool) (r0 r1 rt0 rt1 : F) : F :=
  let a := fl.atan2 (fl.sub (fl.mul r0 rt1) (fl.mul r1 rt0)) (fl.add (fl.mul r0 rt0) (fl.mul r1 rt1))
  if cw then if fl.lt fl.zero a || fl.eq a fl.zero then fl.sub a fl.twoPi else a
  else if fl.lt a fl.zero || fl.eq a fl.zero then fl.add a fl.twoPi else a

/-- `arc_gen`, arc-gen.cc 46-150: the points to go to; `none` if the move is ignored. -/
def arcGen (normal : Axis) (cw : Bool) (position center target : Axes F) : Option (List (Axes F)) :=
  match plane normal with
  | none => none
  | some (p0, p1, p2) =>
    let offset : Axes F := fun a => fl.sub (center a) (position a)
    let radius := fl.sqrt (fl.add (fl.mul (offset p0) (offset p0)) (fl.mul (offset p1) (offset p1)))
    let center0 := fl.add (position p0) (offset p0)
    let center1 := fl.add (position p1) (offset p1)
    let linear := fl.sub (target p2) (position p2)
    let rt0 := fl.sub (target p0) center0
    let rt1 := fl.sub (target p1) center1
    let angular := angularTravel fl cw (fl.neg (offset p0)) (fl.neg (offset p1)) rt0 rt1
    let travel := fl.hypot (fl.mul angular radius) (fl.abs linear)
    if fl.lt travel fl.tiny then none
    else
      let segments := fl.toInt (fl.floor (fl.div travel (fl.tenth 1)))
      let other : Axes F := fun a => fl.div (fl.sub (target a) (position a)) (fl.ofInt segments)
      some (arcPoints fl (offset p0) (offset p1) center0 center1 (fl.div angular (fl.ofInt segments))
        (fl.div linear (fl.ofInt segments)) p0 p1 p2 other (segments - 1).toNat 1 position ++ [target])

/-- `arc_move`, arc-gen.cc 196-207. -/
def arcMove (st : State F) (feed : F) (normal : Axis) (cw : Bool) (start center target : Axes F) :
    State F × Bool :=
  match arcGen fl normal cw start center target with
  | none => (st.say (.arcIgnored target), true)
  | some ps => moves rc feed st ps

/-- `arc_radius_to_center`, lines 1483-1513. -/
def arcRadiusToCenter (start1 start2 end1 end2 radius : F) (cw : Bool) : Option (F × F) :=
  if fl.eq end1 start1 && fl.eq end2 start2 then none
  else
    let absRadius := fl.abs radius
    let mid1 := fl.div (fl.add end1 start1) (fl.tenth 20)
    let mid2 := fl.div (fl.add end2 start2) (fl.tenth 20)
    let half := fl.hypot (fl.sub mid1 end1) (fl.sub mid2 end2)
    if fl.lt fl.onePlus (fl.div half absRadius) then none
    else
      let half := if fl.lt fl.oneMinus (fl.div half absRadius) then absRadius else half
      let direction := fl.atan2 (fl.sub end2 start2) (fl.sub end1 start1)
      let theta :=
        if (cw && fl.lt fl.zero radius) || (!cw && fl.lt radius fl.zero) then fl.sub direction fl.halfPi
        else fl.add direction fl.halfPi
      let turn := fl.asin (fl.div half absRadius)
      let offset := fl.mul absRadius (fl.cos turn)
      some (fl.sub (fl.add mid1 (fl.mul offset (fl.cos theta))) start1,
        fl.sub (fl.add mid2 (fl.mul offset (fl.sin theta))) start2)

/-- What `handle_arc` collects. gcode-parser.cc 1524-1580. -/
structure ArcWords (F : Type) where
  target : Axes F
  offset : Axes F
  feed : F
  radius : F
  haveIjk : Bool
  haveR : Bool
  turns : Int

/-- The word loop of `handle_arc`, lines 1537-1572. -/
def arcStep (st : State F) (m : ArcWords F) (l : Byte) (v : F) : Option (State F × ArcWords F) :=
  let d := fl.mul v st.unit
  if l = 73 then some (st, { m with offset := setAxis m.offset .X (fl.mul d (st.scale .X)), haveIjk := true })
  else if l = 74 then some (st, { m with offset := setAxis m.offset .Y (fl.mul d (st.scale .Y)), haveIjk := true })
  else if l = 75 then some (st, { m with offset := setAxis m.offset .Z (fl.mul d (st.scale .Z)), haveIjk := true })
  else if l = 82 then some (st, { m with radius := d, haveR := true })
  else if l = 80 then some (st, { m with turns := fl.toInt v })
  else if l = 70 then some (st, { m with feed := feedOf fl d })
  else
    match letterAxis l with
    | none => none
    | some a => some (st, { m with target := setAxis m.target a (absAxisPos fl st a v) })

/-- Lines 1588-1627: the offset to the center, or an error. -/
def arcOffset (st : State F) (cw : Bool) (m : ArcWords F) : Option (Axes F) :=
  match plane st.arcNormal with
  | none => none
  | some (p0, p1, p2) =>
    if m.haveIjk then if !fl.eq (m.offset p2) fl.zero then none else some m.offset
    else
      match arcRadiusToCenter fl (st.pos p0) (st.pos p1) (m.target p0) (m.target p1) m.radius cw with
      | none => none
      | some (c0, c1) => some (setAxis (setAxis m.offset p0 c0) p1 c1)

/-- `handle_arc` after the words, lines 1574-1640. (An invalid plane gives no message, here an `error`; it
cannot be selected.) -/
def arcApply (st : State F) (cw : Bool) (m : ArcWords F) : State F :=
  if m.haveIjk = m.haveR then st.say .error
  else if m.turns ≠ 1 then st.say .error
  else
    match arcOffset fl st cw m with
    | none => st.say .error
    | some offset =>
      let center : Axes F := fun a => if isLinear a then fl.add (st.pos a) (offset a) else st.pos a
      reached (arcMove fl rc st m.feed st.arcNormal cw st.pos center m.target) m.target

/-- `handle_arc`, lines 1524-1641. -/
def handleArc (pair : State F → List Byte → Out (State F × Option (Word F))) (cw : Bool) (st : State F)
    (line : List Byte) : Out (State F × Option (List Byte)) :=
  (words pair (arcStep fl) (wordFuel line) st
      ⟨st.pos, fun _ => fl.zero, fl.minusOne, fl.zero, false, false, 1⟩ line).bind
    fun (st, m, rest, _) => .ok (arcApply fl rc st cw m, some rest)

/-! ### Splines -/

/-- `calc_bezier_point`, arc-gen.cc 152-175. -/
def bezierPoint (t : F) (p0 p1 p2 p3 : Axes F) : Axes F :=
  let u := fl.sub fl.one t
  let uu := fl.mul u u
  let tt := fl.mul t t
  let coord (a : Axis) : F :=
    fl.add (fl.add (fl.add (fl.mul (fl.mul uu u) (p0 a)) (fl.mul (fl.mul (fl.mul (fl.tenth 30) uu) t) (p1 a)))
      (fl.mul (fl.mul (fl.mul (fl.tenth 30) u) tt) (p2 a))) (fl.mul (fl.mul tt t) (p3 a))
  fun a => if a = .X ∨ a = .Y then coord a else p0 a

/-- The values of `t` in the loop of arc-gen.cc 189; the first argument bounds their number (there are about
100). -/
def splineTimes : Nat → F → Option (List F)
  | 0, _ => none
  | n + 1, t =>
    if fl.lt t fl.one then
      match splineTimes n (fl.add t fl.hundredth) with
      | none => none
      | some ts => some (t :: ts)
    else some []

/-- `spline_move` and `spline_gen`, arc-gen.cc 177-194, 209-218. -/
def splineMove (st : State F) (feed : F) (start cp1 cp2 target : Axes F) : Out (State F × Bool) :=
  match splineTimes fl 200 fl.zero with
  | none => .outOfFuel
  | some ts => .ok (moves rc feed st (ts.map (fun t => bezierPoint fl t start cp1 cp2 target) ++ [target]))

/-- What `handle_spline` collects. -/
structure SplineWords (F : Type) where
  target : Axes F
  cp1 : Axes F
  cp2 : Axes F
  feed : F
  i : Bool
  j : Bool
  p : Bool
  q : Bool

/-- The word loop of `handle_spline`, lines 1729-1758. -/
def splineStep (st : State F) (m : SplineWords F) (l : Byte) (v : F) : Option (State F × SplineWords F) :=
  let d := fl.mul v st.unit
  if l = 73 then some (st, { m with cp1 := setAxis m.cp1 .X (fl.mul d (st.scale .X)), i := true })
  else if l = 74 then some (st, { m with cp1 := setAxis m.cp1 .Y (fl.mul d (st.scale .Y)), j := true })
  else if l = 80 then some (st, { m with cp2 := setAxis m.cp2 .X (fl.mul d (st.scale .X)), p := true })
  else if l = 81 then some (st, { m with cp2 := setAxis m.cp2 .Y (fl.mul d (st.scale .Y)), q := true })
  else if l = 70 then some (st, { m with feed := feedOf fl d })
  else
    match letterAxis l with
    | none => none
    | some a => some (st, { m with target := setAxis m.target a (absAxisPos fl st a v) })

/-- Lines 1805-1808. -/
def splineGo (st : State F) (feed : F) (cp1 cp2 target : Axes F) (rest : List Byte) :
    Out (State F × Option (List Byte)) :=
  (splineMove fl rc st feed st.pos cp1 cp2 target).bind fun r => .ok (reached r target, some rest)

/-- G5 after the words, lines 1760-1785. -/
def cubicApply (st : State F) (m : SplineWords F) (rest : List Byte) : Out (State F × Option (List Byte)) :=
  if !m.p && !m.q then .ok (st.say .error, none)
  else if m.i ≠ m.j then .ok (st.say .error, none)
  else if !m.i && !st.haveSpline then .ok (st.say .error, none)
  else
    let cp1 := if m.i then m.cp1 else setAxis (setAxis m.cp1 .X (fl.neg (st.lastCp2 .X))) .Y (fl.neg (st.lastCp2 .Y))
    let st := { st with lastCp2 := m.cp2, haveSpline := true }
    splineGo fl rc st m.feed
      (fun a => if a = .X ∨ a = .Y then fl.add (cp1 a) (st.pos a) else cp1 a)
      (fun a => if a = .X ∨ a = .Y then fl.add (m.cp2 a) (m.target a) else m.cp2 a) m.target rest

/-- G5.1 after the words, lines 1786-1803. -/
def quadraticApply (st : State F) (m : SplineWords F) (rest : List Byte) : Out (State F × Option (List Byte)) :=
  if !m.i && !m.j then .ok (st.say .error, none)
  else if fl.eq (m.cp1 .X) fl.zero && fl.eq (m.cp1 .Y) fl.zero then .ok (st.say .error, none)
  else
    let cp1 : Axes F := fun a =>
      if a = .X ∨ a = .Y then fl.add (st.pos a) (fl.div (fl.mul (m.cp1 a) (fl.tenth 20)) (fl.tenth 30)) else fl.zero
    let cp2 : Axes F := fun a =>
      if a = .X ∨ a = .Y then fl.add (cp1 a) (fl.div (fl.mul (m.cp1 a) fl.one) (fl.tenth 30)) else fl.zero
    splineGo fl rc { st with haveSpline := false } m.feed cp1 cp2 m.target rest

/-- `handle_spline`, lines 1698-1809. -/
def handleSpline (pair : State F → List Byte → Out (State F × Option (Word F))) (sub : F) (st : State F)
    (line : List Byte) : Out (State F × Option (List Byte)) :=
  if st.arcNormal ≠ .Z then .ok (st.say .error, none)
  else if !fl.eq sub (fl.tenth 50) && !fl.eq sub (fl.tenth 51) then .ok (st.say .error, none)
  else
    (words pair (splineStep fl) (wordFuel line) st
        ⟨st.pos, fun _ => fl.zero, fun _ => fl.zero, fl.minusOne, false, false, false, false⟩ line).bind
      fun (st, m, rest, broken) =>
        if broken then .ok (st.say .error, none)
        else if fl.eq sub (fl.tenth 50) then cubicApply fl rc st m rest
        else quadraticApply fl rc st m rest

/-- `handle_z_probe`, lines 1811-1838. -/
def handleProbe (pair : State F → List Byte → Out (State F × Option (Word F))) (st : State F) (line : List Byte) :
    Out (State F × Option (List Byte)) :=
  (words pair (fun st (m : F × F) l v =>
      if l = 70 then some (st, (feedOf fl (fl.mul v st.unit), m.2))
      else if l = 90 then some (st, (m.1, fl.mul v st.unit))
      else none) (wordFuel line) st (fl.minusOne, fl.zero) line).bind
    fun (st, m, rest, _) =>
      let st := st.say (.probeAxis m.1)
      match rc.probe st.log with
      | none => .ok (st, some rest)
      | some z =>
        let st := { st with pos := setAxis st.pos .Z z }
        let st := { st with g92 := setAxis st.g92 .Z (fl.sub (fl.sub (st.pos .Z) m.2) (st.currentOrigin .Z)) }
        .ok (setCurrentOffset fl st .g92 .g30, some rest)

/-- `handle_M111`, lines 1840-1857 (the debug level is left out). -/
def handleM111 (pair : State F → List Byte → Out (State F × Option (Word F))) (st : State F) (line : List Byte) :
    Out (State F × Option (List Byte)) :=
  if rc.allowM111 then
    (words pair (fun st (_ : Unit) l _ => if l = 83 then some (st, ()) else none) (wordFuel line) st () line).bind
      fun (st, _, rest, _) => .ok (st, some rest)
  else .ok (st, none)

/-- The receiver reads words in `unprocessed`.
gcode-parser.h (`unprocessed`); called at the end of `ParseBlock`, gcode-parser.cc 1860-1982. -/
def receiverReads (pair : State F → List Byte → Out (State F × Option (Word F))) :
    Nat → State F → List Byte → Out (State F × Option (List Byte))
  | 0, _, _ => .outOfFuel
  | n + 1, st, line =>
    if rc.reads st.log then
      (pair st line).bind fun r =>
        match r.2 with
        | none => .ok (r.1, if rc.discards r.1.log then none else some line)
        | some w =>
          let st := r.1.say (.word w.letter w.value)
          if rc.takes st.log then receiverReads pair n st w.rest
          else .ok (st, if rc.discards st.log then none else some line)
    else .ok (st, if rc.discards st.log then none else some line)

/-- `unprocessed`: in `GCodeMachineControl` (gcode-machine-control.cc 529-656) the receiver reads some words
and returns the text that is left, or null. -/
def unprocessed (pair : State F → List Byte → Out (State F × Option (Word F))) (st : State F) (letter : Byte)
    (value : F) (line : List Byte) : Out (State F × Option (List Byte)) :=
  receiverReads rc pair (wordFuel line) (st.say (.unprocessed letter value)) line

/-! ### ParseBlock -/

/-- `config_.LoadParams()`. gcode-parser-config.cc 32-65 (`LoadParams`); called at gcode-parser.cc 1951 and in the constructor, 431-500. -/
def loadParams (st : State F) : State F :=
  let st := st.say .loadParams
  { st with params := st.params.map (rc.load st.log) }

/-- The commands with letter G, lines 1881-1922. `wasSpline` is `last_spline`. -/
def commandG (pair : State F → List Byte → Out (State F × Option (Word F))) (wasSpline : Bool) (st : State F)
    (value : F) (line : List Byte) : Out (State F × Option (List Byte)) :=
  let code := fl.toInt value
  if code = 0 then handleMove fl rc pair false { st with modalG1 := false } line
  else if code = 1 then handleMove fl rc pair false { st with modalG1 := true } line
  else if code = 2 then handleArc fl rc pair true st line
  else if code = 3 then handleArc fl rc pair false st line
  else if code = 4 then setParam fl pair 80 .dwell fl.one st line
  else if code = 5 then handleSpline fl rc pair value { st with haveSpline := wasSpline } line
  else if code = 10 then handleG10 fl pair st line
  else if code = 17 then .ok ({ st with arcNormal := .Z }, some line)
  else if code = 18 then .ok ({ st with arcNormal := .Y }, some line)
  else if code = 19 then .ok ({ st with arcNormal := .X }, some line)
  else if code = 20 ∨ code = 70 then .ok ({ st with unit := fl.tenth 254 }, some line)
  else if code = 21 ∨ code = 71 then .ok ({ st with unit := fl.one }, some line)
  else if code = 28 then handleHome pair st line
  else if code = 30 then handleProbe fl rc pair st line
  else if code = 50 then .ok ({ st with scale := fun _ => fl.one }, some line)
  else if code = 51 then handleG51 pair st line
  else if 54 ≤ code ∧ code ≤ 59 then .ok (changeCoordSystem fl st value, some line)
  else if code = 90 ∨ code = 91 then .ok (handleG90 fl st value, some line)
  else if code = 92 then handleG92 fl pair st value line
  else unprocessed rc pair st 71 value line

/-- The commands with letter M, lines 1924-1954. -/
def commandM (pair : State F → List Byte → Out (State F × Option (Word F))) (st : State F) (value : F)
    (line : List Byte) : Out (State F × Option (List Byte)) :=
  let code := fl.toInt value
  if code = 2 ∨ code = 30 then .ok (finishProgram fl st, some line)
  else if code = 17 then .ok (st.say (.motorsEnable true), some line)
  else if code = 18 ∨ code = 84 then .ok (st.say (.motorsEnable false), some line)
  else if code = 24 then .ok (st.say .waitForStart, some line)
  else if code = 82 then .ok ({ st with absolute := fun a => a = .E || st.absolute a }, some line)
  else if code = 83 then .ok ({ st with absolute := fun a => a ≠ .E && st.absolute a }, some line)
  else if code = 104 then setParam fl pair 83 .temperature fl.one st line
  else if code = 106 then setParam fl pair 83 .fanSpeed fl.one st line
  else if code = 107 then .ok (st.say (.fanSpeed fl.zero), some line)
  else if code = 109 then
    (setParam fl pair 83 .temperature fl.one st line).bind fun r => .ok (r.1.say .waitTemperature, r.2)
  else if code = 116 then .ok (st.say .waitTemperature, some line)
  else if code = 111 then handleM111 rc pair st line
  else if code = 220 then setParam fl pair 83 .speedFactor fl.hundredth st line
  else if code = 500 then .ok (st.say .saveParams, some line)
  else if code = 501 then .ok (loadParams rc st, some line)
  else unprocessed rc pair st 77 value line

/-- Any word at the start of a command, lines 1880-1975, including `gcode_command_done`. -/
def command (pair : State F → List Byte → Out (State F × Option (Word F))) (st : State F) (letter : Byte)
    (value : F) (line : List Byte) : Out (State F × Option (List Byte)) :=
  let wasSpline := st.haveSpline
  let st := { st with haveSpline := false }
  let done (l : Byte) (v : F) (r : State F × Option (List Byte)) : Out (State F × Option (List Byte)) :=
    .ok (r.1.say (.commandDone l v), r.2)
  if letter = 71 then (commandG fl rc pair wasSpline st value line).bind (done letter value)
  else if letter = 77 then (commandM fl rc pair st value line).bind (done letter value)
  else if letter = 70 then
    done letter value ((ask rc st (.coordinatedMove (feedOf fl (fl.mul value st.unit)) st.pos)).1, some line)
  else if letter = 78 then .ok (st, some line)
  else
    match letterAxis letter with
    | none => (unprocessed rc pair st letter value line).bind (done letter value)
    | some a =>
      (handleMove fl rc pair true { st with pos := setAxis st.pos a (absAxisPos fl st a value) } line).bind
        (done 71 (if st.modalG1 then fl.one else fl.zero))

/-- Lines 1875-1878. -/
def startProgram (st : State F) : State F :=
  if st.inProgress then st else { st.say .start with inProgress := true }

/-- The loop of `ParseBlock`, lines 1874-1979. -/
def blockLoop (pair : State F → List Byte → Out (State F × Option (Word F))) :
    Nat → State F → List Byte → Out (State F)
  | 0, _, _ => .outOfFuel
  | n + 1, st, line =>
    (pair st line).bind fun r =>
      match r.2 with
      | none => .ok r.1
      | some w =>
        (command fl rc pair (startProgram r.1) w.letter w.value w.rest).bind fun r =>
          match r.2 with
          | none => .ok r.1
          | some line => blockLoop pair n r.1 line

/-- `ParseBlock`, lines 1860-1982. -/
def blockWith (endLoop : State F → Out (State F)) (st : State F) (line : List Byte) : Out (State F) :=
  (blockLoop fl rc (parsePair fl endLoop) (wordFuel line) st line).bind fun st => .ok (st.say .blockDone)

/-- Lines 1102-1106: run the lines of the body. The string views are only valid as long as `while_loop_` is
not changed. -/
def runPieces (block : State F → List Byte → Out (State F)) (gen : Nat) :
    List (List Byte) → State F → Out (State F)
  | [], st => .ok st
  | p :: ps, st =>
    if st.whileGen ≠ gen then .fault .dangling
    else (block st p).bind fun st => runPieces block gen ps st

/-- `gcodep_while_end`, lines 1087-1115. The first argument bounds the number of iterations (of all nested
loops together). -/
def whileEnd : Nat → State F → Out (State F)
  | 0, _ => .outOfFuel
  | n + 1, st =>
    fromRes (expression fl.toFloat_ (lookup fl st) st.whileCond) (.ok (st.say .error)) fun v rest =>
      if fl.eq v fl.zero then .ok st
      else
        expect (skipWhite rest) CK_DO
          (fun _ =>
            (runPieces (blockWith fl rc (whileEnd n)) st.whileGen (splitString st.whileBody [10]) st).bind
              (whileEnd n))
          (.ok (st.say .error))

/-- `ParseBlock`. The first argument bounds the number of loop iterations. gcode-parser.cc 1860-1982. -/
def parseBlock (n : Nat) : State F → List Byte → Out (State F) := blockWith fl rc (whileEnd fl rc n)

/-- A program: lines one after the other. -/
def runLines (n : Nat) : State F → List (List Byte) → Out (State F)
  | st, [] => .ok st
  | st, l :: ls => (parseBlock fl rc n st l).bind fun st => runLines n st ls

/-! ### Start -/

/-- The coordinate systems from the parameters, lines 1234-1251. -/
def loadSystems (st : State F) : Fin 9 → Axes F := fun i a =>
  fl.add (st.machineOrigin a) (lookup fl st (systemParam i a))

/-- The number of the coordinate system to start with, lines 1253-1259 (`assert` holds for a conversion to
`int` that keeps the range). -/
def startSystem (v : F) : Fin 9 :=
  ⟨(fl.toInt v - 1).toNat % 9, Nat.mod_lt _ (by omega)⟩

/-- `InitCoordSystems`, lines 1232-1266. -/
def initCoordSystems (st : State F) : State F :=
  let st := { st with system := loadSystems fl st }
  let r := readParameter fl st selectedParam
  if !r.2 || fl.lt r.1 fl.one || fl.lt (fl.ofInt 9) r.1 then
    informOrigin fl { storeParameter st selectedParam fl.one with origin := .system (startSystem fl fl.one) }
      (.system (startSystem fl fl.one))
  else informOrigin fl { st with origin := .system (startSystem fl r.1) } (.system (startSystem fl r.1))

/-- The constructor, lines 431-500. -/
def initial (params : Option (List Byte → Option F)) (machineOrigin : Axes F) : State F :=
  initCoordSystems fl (initProgramDefaults fl {
    params := params, pos := machineOrigin, scale := fun _ => fl.one, machineOrigin := machineOrigin,
    system := fun _ _ => fl.zero, g92 := fun _ => fl.zero, origin := .machine, offset := .zero,
    unit := fl.one, rotUnit := fl.one, absolute := fun _ => true, ijkAbsolute := false, modalAbsolute := true,
    modalG1 := false, arcNormal := .Z, lastCp2 := fun _ => fl.zero, haveSpline := false, doWhile := false,
    whileCond := [], whileBody := [], whileGen := 0, inProgress := false, log := [] })

end BeagleG.Parser
