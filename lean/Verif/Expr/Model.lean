import Verif.Text.Model
/-!
# Model of expression evaluation in `/repo/src/gcode-parser/gcode-parser.cc`

Text is the list of bytes before the terminating NUL (no byte of it is 0). A returned `const char *` is the
rest of the text. Log output is left out (`gcodep_unary` prints a null pointer with `%s` for an unknown
function name; glibc prints "(null)").

Floating point is a type `F` with operations that satisfy no laws. `convert_strtof` is a parameter: value and
rest of the text, or failure.
-/
namespace BeagleG.Expr
open Text

/-- What a parsing function does: value and rest of the text; a null pointer (with an error message); use of
memory that is not there or not initialised. `outOfFuel` is no behaviour of the program: it only marks that
the bound on the recursion given to the model was too small.
The functions of gcode-parser.cc 542-904 have results of this type. -/
inductive Res (α : Type) where
  | ok (value : α) (rest : List Byte)
  | null
  | undef
  | outOfFuel
  deriving DecidableEq, Repr

/-- Go on with a result. The pattern `line = …; if (line == NULL) return NULL;`, e.g. gcode-parser.cc 612-613. -/
def Res.bind {α β : Type} (r : Res α) (f : α → List Byte → Res β) : Res β :=
  match r with
  | .ok v rest => f v rest
  | .null => .null
  | .undef => .undef
  | .outOfFuel => .outOfFuel

/-! ### Operations: `enum Operation`, lines 203-217 -/

/-- `NO_OPERATION` of `enum Operation`, gcode-parser.cc 203-217. -/
abbrev NO_OPERATION : Nat := 0
/-- `POWER` of `enum Operation`, gcode-parser.cc 203-217. -/
abbrev POWER : Nat := 2
/-- `DIVIDED_BY` of `enum Operation`, gcode-parser.cc 203-217. -/
abbrev DIVIDED_BY : Nat := 3
/-- `MODULO` of `enum Operation`, gcode-parser.cc 203-217. -/
abbrev MODULO : Nat := 4
/-- `TIMES` of `enum Operation`, gcode-parser.cc 203-217. -/
abbrev TIMES : Nat := 5
/-- `AND2` of `enum Operation`, gcode-parser.cc 203-217. -/
abbrev AND2 : Nat := 6
/-- `EXCLUSIVE_OR` of `enum Operation`, gcode-parser.cc 203-217. -/
abbrev EXCLUSIVE_OR : Nat := 7
/-- `MINUS` of `enum Operation`, gcode-parser.cc 203-217. -/
abbrev MINUS : Nat := 8
/-- `NON_EXCLUSIVE_OR` of `enum Operation`, gcode-parser.cc 203-217. -/
abbrev NON_EXCLUSIVE_OR : Nat := 9
/-- `PLUS` of `enum Operation`, gcode-parser.cc 203-217. -/
abbrev PLUS : Nat := 10
/-- `EQ` of `enum Operation`, gcode-parser.cc 203-217. -/
abbrev EQ : Nat := 11
/-- `NE` of `enum Operation`, gcode-parser.cc 203-217. -/
abbrev NE : Nat := 12
/-- `GT` of `enum Operation`, gcode-parser.cc 203-217. -/
abbrev GT : Nat := 13
/-- `GE` of `enum Operation`, gcode-parser.cc 203-217. -/
abbrev GE : Nat := 14
/-- `LT` of `enum Operation`, gcode-parser.cc 203-217. -/
abbrev LT : Nat := 15
/-- `LE` of `enum Operation`, gcode-parser.cc 203-217. -/
abbrev LE : Nat := 16
/-- `RIGHT_BRACKET` of `enum Operation`, gcode-parser.cc 203-217. -/
abbrev RIGHT_BRACKET : Nat := 17
/-- `UNARY_OP_START` of `enum Operation`, gcode-parser.cc 203-217. -/
abbrev UNARY_OP_START : Nat := 18
/-- `ABS` of `enum Operation`, gcode-parser.cc 203-217. -/
abbrev ABS : Nat := 19
/-- `ACOS` of `enum Operation`, gcode-parser.cc 203-217. -/
abbrev ACOS : Nat := 20
/-- `ASIN` of `enum Operation`, gcode-parser.cc 203-217. -/
abbrev ASIN : Nat := 21
/-- `ATAN` of `enum Operation`, gcode-parser.cc 203-217. -/
abbrev ATAN : Nat := 22
/-- `COS` of `enum Operation`, gcode-parser.cc 203-217. -/
abbrev COS : Nat := 23
/-- `EXP` of `enum Operation`, gcode-parser.cc 203-217. -/
abbrev EXP : Nat := 24
/-- `FIX` of `enum Operation`, gcode-parser.cc 203-217. -/
abbrev FIX : Nat := 25
/-- `FUP` of `enum Operation`, gcode-parser.cc 203-217. -/
abbrev FUP : Nat := 26
/-- `LN` of `enum Operation`, gcode-parser.cc 203-217. -/
abbrev LN : Nat := 27
/-- `ROUND` of `enum Operation`, gcode-parser.cc 203-217. -/
abbrev ROUND : Nat := 28
/-- `SIN` of `enum Operation`, gcode-parser.cc 203-217. -/
abbrev SIN : Nat := 29
/-- `SQRT` of `enum Operation`, gcode-parser.cc 203-217. -/
abbrev SQRT : Nat := 30
/-- `TAN` of `enum Operation`, gcode-parser.cc 203-217. -/
abbrev TAN : Nat := 31

/-- `precedence`, lines 220-226. -/
def precedence (op : Nat) : Nat :=
  if op = RIGHT_BRACKET then 1
  else if op = POWER then 5
  else if op ≥ EQ then 2
  else if op ≥ AND2 then 3
  else 4

/-- The keywords of `op_parse_`, lines 454-491. -/
def opTable : List (List Byte × Nat) :=
  [([43], PLUS), ([45], MINUS), ([47], DIVIDED_BY), ([77, 79, 68], MODULO), ([42], TIMES), ([42, 42], POWER),
   ([61, 61], EQ), ([69, 81], EQ), ([33, 61], NE), ([78, 69], NE), ([62], GT), ([71, 84], GT),
   ([62, 61], GE), ([71, 69], GE), ([60], LT), ([76, 84], LT), ([60, 61], LE), ([76, 69], LE),
   ([65, 78, 68], AND2), ([38, 38], AND2), ([79, 82], NON_EXCLUSIVE_OR), ([124, 124], NON_EXCLUSIVE_OR),
   ([88, 79, 82], EXCLUSIVE_OR), ([93], RIGHT_BRACKET),
   ([97, 98, 115], ABS), ([116, 97, 110], TAN), ([97, 116, 97, 110], ATAN), ([115, 105, 110], SIN),
   ([97, 115, 105, 110], ASIN), ([99, 111, 115], COS), ([97, 99, 111, 115], ACOS), ([101, 120, 112], EXP),
   ([108, 110], LN), ([102, 105, 120], FIX), ([102, 117, 112], FUP), ([114, 111, 117, 110, 100], ROUND),
   ([115, 113, 114, 116], SQRT)]

/-- `op_parse_` after the constructor, lines 454-491. (`OpTrie_built` shows that no assertion fails while it is
built.) -/
def opTrie : Trie := (build opTable Trie.empty).getD Trie.empty

/-! ### Floating point -/

/-- The floating point operations used; nothing is assumed about them. gcode-parser.cc 620-669, 693, 751-802. -/
structure Float_ (F : Type) where
  zero : F
  one : F
  minusOne : F
  half : F
  minusHalf : F
  lt : F → F → Bool
  eq : F → F → Bool
  add : F → F → F
  sub : F → F → F
  mul : F → F → F
  div : F → F → F
  fmod : F → F → F
  pow : F → F → F
  abs : F → F
  floor : F → F
  ceil : F → F
  /-- conversion to `int` and back -/
  trunc : F → F
  exp : F → F
  log : F → F
  sqrt : F → F
  /-- sine, cosine, tangent of an angle in degrees, i.e. including the conversion -/
  sinDeg : F → F
  cosDeg : F → F
  tanDeg : F → F
  /-- inverse functions with the result in degrees, i.e. including the conversion -/
  asinDeg : F → F
  acosDeg : F → F
  atan2Deg : F → F → F
  /-- `StringPrintf("%d", (int)x)`, line 583 -/
  decimal : F → List Byte
  /-- `convert_strtof`, string-util.cc 178-180: value and rest of the text -/
  strtof : List Byte → Option (F × List Byte)

variable {F : Type} (fl : Float_ F)

/-- `execute_binary`, lines 751-802; `none` is `false`. -/
def executeBinary (left : F) (op : Nat) (right : F) : Option F :=
  let truth (b : Bool) : F := if b then fl.one else fl.zero
  if op = POWER then
    if fl.lt left fl.zero && !fl.eq (fl.floor right) right then none else some (fl.pow left right)
  else if op = DIVIDED_BY then
    if fl.eq right fl.zero then none else some (fl.div left right)
  else if op = MODULO then
    let val := fl.fmod left right
    some (if fl.lt val fl.zero then fl.add val (fl.abs right) else val)
  else if op = TIMES then some (fl.mul left right)
  else if op = AND2 then some (if fl.eq left fl.zero || fl.eq right fl.zero then fl.zero else fl.one)
  else if op = EXCLUSIVE_OR then
    some (truth ((fl.eq left fl.zero && !fl.eq right fl.zero) || (!fl.eq left fl.zero && fl.eq right fl.zero)))
  else if op = MINUS then some (fl.sub left right)
  else if op = NON_EXCLUSIVE_OR then some (truth (!fl.eq left fl.zero || !fl.eq right fl.zero))
  else if op = PLUS then some (fl.add left right)
  else if op = EQ then some (truth (fl.eq left right))
  else if op = NE then some (truth (!fl.eq left right))
  else if op = GT then some (truth (fl.lt right left))
  else if op = GE then some (truth (fl.lt right left || fl.eq left right))
  else if op = LT then some (truth (fl.lt left right))
  else if op = LE then some (truth (fl.lt left right || fl.eq left right))
  else none

/-- `execute_unary`, lines 620-669; `none` is `false`. -/
def executeUnary (value : F) (op : Nat) : Option F :=
  let one := fl.one
  if op = ABS then some (fl.abs value)
  else if op = ACOS then
    if fl.lt value fl.minusOne || fl.lt one value then none else some (fl.acosDeg value)
  else if op = ASIN then
    if fl.lt value fl.minusOne || fl.lt one value then none else some (fl.asinDeg value)
  else if op = COS then some (fl.cosDeg value)
  else if op = EXP then some (fl.exp value)
  else if op = FIX then some (fl.floor value)
  else if op = FUP then some (fl.ceil value)
  else if op = LN then
    if fl.lt value fl.zero || fl.eq value fl.zero then none else some (fl.log value)
  else if op = ROUND then
    some (fl.trunc (fl.add value (if fl.lt value fl.zero then fl.minusHalf else fl.half)))
  else if op = SIN then some (fl.sinDeg value)
  else if op = SQRT then if fl.lt value fl.zero then none else some (fl.sqrt value)
  else if op = TAN then some (fl.tanDeg value)
  else none

/-! ### Characters -/

/-- `isdigit`. gcode-parser.cc 563, 587. -/
def isDigit (c : Byte) : Bool := 48 ≤ c && c ≤ 57

/-- `isalpha` in the C locale. gcode-parser.cc 587-588. -/
def isAlpha (c : Byte) : Bool := (65 ≤ c && c ≤ 90) || (97 ≤ c && c ≤ 122)

/-- The characters of a parameter name, lines 589-592. -/
def isNameChar (bracketed : Bool) (c : Byte) : Bool :=
  (48 ≤ c && c ≤ 57) || (65 ≤ c && c ≤ 90) || (97 ≤ c && c ≤ 122) || c = 95 || (bracketed && isSpace c)

/-! ### Functions without recursion -/

/-- `gcodep_operation`, lines 804-813. -/
def operation (line : List Byte) : Res Nat :=
  match opTrie.matchNext line with
  | none => .undef
  | some (op, rest) => if op > NO_OPERATION ∧ op < UNARY_OP_START then .ok op rest else .null

/-- `gcodep_operation_unary`, lines 700-709. -/
def operationUnary (line : List Byte) : Res Nat :=
  match opTrie.matchNext line with
  | none => .undef
  | some (op, rest) => if op > UNARY_OP_START then .ok op rest else .null

/-- `ParseGcodeNumber`, lines 542-546, as used in `gcodep_value`, lines 899-902: a failure gives back the
position after white space; if that has moved, `gcodep_value` does not notice the failure and hands on a value
that nobody has set. -/
def number (line : List Byte) : Res F :=
  match fl.strtof (skipWhite line) with
  | some (v, rest) => .ok v rest
  | none => if skipWhite line = line then .null else .undef

/-- The loop over the characters of a name, lines 588-597: name and rest of the text. -/
def scanName (bracketed : Bool) : List Byte → List Byte × List Byte
  | [] => ([], [])
  | c :: cs =>
    if isNameChar bracketed c then
      let r := scanName bracketed cs
      (if isSpace c then r.1 else c :: r.1, r.2)
    else ([], c :: cs)

/-- Line 563: `#` or a digit comes next. -/
def startsNumeric : List Byte → Bool
  | [] => false
  | c :: _ => c = 35 || isDigit c

/-- `read_param_name`, lines 552-607, with `gcodep_value` as parameter. -/
def readParamName (value : List Byte → Res F) (line : List Byte) : Res (List Byte) :=
  match skipWhite line with
  | [] => .null
  | c :: cs =>
    if c = 60 then
      if startsNumeric cs then .null
      else
        match (scanName true cs).2 with
        | [] => .null
        | d :: rest =>
          if d ≠ 62 then .null
          else if (scanName true cs).1 = [] then .null
          else .ok (scanName true cs).1 (skipWhite rest)
    else if startsNumeric (c :: cs) then
      (value (c :: cs)).bind fun index rest =>
        if fl.decimal index = [] then .null else .ok (fl.decimal index) (skipWhite rest)
    else if (scanName false (c :: cs)).1 = [] then .null
    else .ok (scanName false (c :: cs)).1 (skipWhite (scanName false (c :: cs)).2)

/-- `gcodep_parameter`, lines 609-618. `lookup` is `read_parameter`. -/
def parameter (lookup : List Byte → F) (value : List Byte → Res F) (line : List Byte) : Res F :=
  (readParamName fl value line).bind fun name rest => .ok (lookup name) rest

/-- `gcodep_atan`, lines 671-698, with `gcodep_expression` as parameter. -/
def atan (expression : List Byte → Res F) (line : List Byte) (y : F) : Res F :=
  match line with
  | a :: b :: line =>
    if a = 47 ∧ b = 91 then (expression line).bind fun x rest => .ok (fl.atan2Deg y x) rest else .null
  | _ => .null

/-- `gcodep_unary` after the opening bracket, lines 724-748. -/
def unaryArgument (expression : List Byte → Res F) (op : Nat) (line : List Byte) : Res F :=
  (expression (skipWhite line)).bind fun value rest =>
    if op = ATAN then (atan fl expression (skipWhite rest) value).bind fun v rest => .ok v (skipWhite rest)
    else
      match executeUnary fl value op with
      | some v => .ok v (skipWhite rest)
      | none => .null

/-- `gcodep_unary`, lines 711-749, with `gcodep_expression` as parameter. -/
def unary (expression : List Byte → Res F) (line : List Byte) : Res F :=
  (operationUnary line).bind fun op line =>
    match line with
    | [] => .null
    | c :: line => if c = 91 then unaryArgument fl expression op line else .null

/-- The `switch` of `gcodep_value`, lines 892-901, with `gcodep_expression` and `gcodep_value` as parameters. -/
def valueSwitch (lookup : List Byte → F) (expression value : List Byte → Res F) : List Byte → Res F
  | [] => .null
  | c :: cs =>
    if isAlpha (toUpper c) then unary fl expression (c :: cs)
    else if c = 91 then expression cs
    else if c = 35 then parameter fl lookup value cs
    else number fl (c :: cs)

/-! ### The evaluation stack

`vals[0..stack-1]`, `ops[0..stack-1]` are kept as a list of pairs, the top first; `stack` is its length. -/

/-- `MAX_STACK`, line 816. -/
def MAX_STACK : Nat := 6

/-- The loop of lines 868-878: execute all pending operators that bind at least as tight as the one just
read. `none`: an operation failed. -/
def collapse : List (F × Nat) → F → Nat → Option (List (F × Nat))
  | [], v, o => some [(v, o)]
  | (u, p) :: S, v, o =>
    if precedence o ≤ precedence p then
      match executeBinary fl u p v with
      | none => none
      | some w => collapse S w o
    else some ((v, o) :: (u, p) :: S)

/-- Lines 852-879: a value and an operator have been read; the new stack, or a failure. -/
def push (S : List (F × Nat)) (v : F) (o : Nat) : Option (List (F × Nat)) :=
  match S with
  | [] => some [(v, o)]
  | (u, p) :: S' =>
    if precedence o > precedence p then
      if S.length + 1 ≥ MAX_STACK then none else some ((v, o) :: S)
    else collapse fl ((u, p) :: S') v o

/-- The loop condition of line 826 and the `break` of line 854: `ops[0]` is the right bracket; then `vals[0]` is
the result. -/
def finished : List (F × Nat) → Option F
  | [(v, o)] => if o = RIGHT_BRACKET then some v else none
  | _ => none

/-- The rest of the loop body from line 844: operator, stack. `continue_` is the next round. -/
def afterValue (continue_ : List (F × Nat) → List Byte → Res F) (S : List (F × Nat)) (v : F)
    (line : List Byte) : Res F :=
  (operation line).bind fun o rest =>
    match push fl S v o with
    | none => .null
    | some S' =>
      match finished S' with
      | some w => .ok w (skipWhite rest)
      | none => continue_ S' (skipWhite rest)

/-- Lines 828-843: no value was found; a minus sign counts as `-1 *`. -/
def afterNull (continue_ : List (F × Nat) → List Byte → Res F) (S : List (F × Nat)) : List Byte → Res F
  | [] => .null
  | c :: cs =>
    if c = 45 then
      if (skipWhite cs).head? = some 45 then .null else continue_ ((fl.minusOne, TIMES) :: S) (skipWhite cs)
    else .null

mutual
/-- `gcodep_value`, lines 888-904. The first argument bounds the depth of the recursion. -/
def value (lookup : List Byte → F) : Nat → List Byte → Res F
  | 0, _ => .outOfFuel
  | n + 1, line =>
    (valueSwitch fl lookup (fun l => loop lookup n [] (skipWhite l)) (fun l => value lookup n l) line).bind
      fun v rest => .ok v (skipWhite rest)

/-- The loop of `gcodep_expression`, lines 826-880. With all slots in use the loop body would hand out the
address of a slot outside the arrays (it writes there as soon as it finds a value or a minus sign). -/
def loop (lookup : List Byte → F) : Nat → List (F × Nat) → List Byte → Res F
  | 0, _, _ => .outOfFuel
  | n + 1, S, line =>
    if S.length ≥ MAX_STACK then .undef
    else
      match value lookup n line with
      | .null => afterNull fl (fun S' l => loop lookup n S' l) S line
      | .ok v rest => afterValue fl (fun S' l => loop lookup n S' l) S v rest
      | .undef => .undef
      | .outOfFuel => .outOfFuel
end

/-- A bound on the recursion that is always enough (`fuel_enough`).
The bound has no code of its own; the recursion is that of gcode-parser.cc 552-904. -/
def fuel (line : List Byte) : Nat := 2 * line.length + 2

/-- `gcodep_expression`, lines 818-883. -/
def expression (lookup : List Byte → F) (line : List Byte) : Res F :=
  loop fl lookup (fuel line) [] (skipWhite line)

/-- `gcodep_value`, lines 888-904. -/
def valueOf (lookup : List Byte → F) (line : List Byte) : Res F := value fl lookup (fuel line) line

end BeagleG.Expr
