import Verif.Text.Model
/-!
# Model of `/repo/src/config-parser.{h,cc}`

The configuration text is a list of bytes. The reader is a parameter: any state machine that answers
`SeenSection` and `SeenNameValue` and is told of errors. Error messages are reduced to what they are made
of. Line numbers are unbounded (in the source an `int`). `strtod` and the arithmetic on `double` and
`float` are parameters.
-/
namespace BeagleG.Config

open Text

/-- What `ReportError` is called with by the parser: the literal messages of lines 173 and 187, and the
parts of the message of lines 200-203. -/
inductive Message where
  | sectionUnclosed
  | pairExpected
  | notHandled (section_ name value : List Byte)
  deriving DecidableEq, Repr

/-- `ConfigParser::Reader`, config-parser.h 44-70, as a state machine. The first number is the line. -/
structure Reader (ρ : Type) where
  seenSection : ρ → Nat → List Byte → Bool × ρ
  seenNameValue : ρ → Nat → List Byte → List Byte → Bool × ρ
  reportError : ρ → Nat → Message → ρ

/-- The loop of `NextLine`, lines 136-147, and lines 149-151. `pre` are the bytes from `start` up to
`endline`, `result` is `none` as long as `result.data()` is null. -/
def nextLineLoop (pre : List Byte) (result : Option (List Byte)) : List Byte → List Byte × List Byte
  | [] => (pre, [])
  | c :: rest =>
    let result := if result.isNone ∧ (c = 35 ∨ c = 13 ∨ c = 10) then some pre else result
    if c = 10 then (result.getD [], rest) else nextLineLoop (pre ++ [c]) result rest

/-- `NextLine`, lines 131-152: `none` is the view with null data, otherwise the line and what is left of
the source. -/
def nextLine (source : List Byte) : Option (List Byte × List Byte) :=
  match source with
  | [] => none
  | c :: s => some (nextLineLoop [] none (c :: s))

/-- `CanonicalizeName`, lines 154-156. -/
def canonicalizeName (s : List Byte) : List Byte := toLowerString (trimWhitespace s)

/-- The variables of `EmitConfigValues`, lines 159-162, and the reader. -/
structure Emit (ρ : Type) where
  success : Bool
  interested : Bool
  current : List Byte
  lineNo : Nat
  reader : ρ

/-- The body of the loop of `EmitConfigValues`, lines 166-207. -/
def emitLine {ρ : Type} (R : Reader ρ) (e : Emit ρ) (line : List Byte) : Emit ρ :=
  let n := e.lineNo + 1
  let line := trimWhitespace line
  match line with
  | [] => { e with lineNo := n }
  | c :: tl =>
    if c = 91 then
      if line.getLast? ≠ some 93 then
        { e with lineNo := n, reader := R.reportError e.reader n .sectionUnclosed, success := false, interested := false }
      else
        let name := canonicalizeName (tl.take (line.length - 2))
        let a := R.seenSection e.reader n name
        { e with lineNo := n, current := name, interested := a.1, reader := a.2 }
    else
      let before := line.takeWhile (· ≠ 61)
      if before.length = line.length then
        { e with lineNo := n, reader := R.reportError e.reader n .pairExpected, success := false }
      else if e.interested then
        let name := canonicalizeName before
        let value := trimWhitespace (line.drop (before.length + 1))
        let a := R.seenNameValue e.reader n name value
        let r := if a.1 then a.2 else R.reportError a.2 n (.notHandled e.current name value)
        { e with lineNo := n, reader := r, success := e.success && a.1 }
      else { e with lineNo := n }

/-- The loop of `EmitConfigValues`, lines 164-208; every line takes at least one byte off the source, the
last argument bounds the lines. -/
def emitLoop {ρ : Type} (R : Reader ρ) : Nat → Emit ρ → List Byte → Emit ρ
  | 0, e, _ => e
  | n + 1, e, source =>
    match nextLine source with
    | none => e
    | some (line, rest) => emitLoop R n (emitLine R e line) rest

/-- `EmitConfigValues`, lines 158-210: the returned value and the reader afterwards. -/
def emitConfigValues {ρ : Type} (R : Reader ρ) (r : ρ) (content : List Byte) : Bool × ρ :=
  let e := emitLoop R content.length { success := true, interested := false, current := [], lineNo := 0, reader := r } content
  (e.success, e.reader)

/-! ### The values -/

/-- `strtod` and the arithmetic used by the expressions. `strtod s` is `none` if nothing could be read,
else the number and what follows it. `toFloat` is the conversion of line 103. -/
structure Numbers (D F : Type) where
  strtod : List Byte → Option (D × List Byte)
  one : D
  mul : D → D → D
  div : D → D → D
  toFloat : D → F
  negative : F → Bool

/-- `while (isspace(**end)) ++*end`. config-parser.cc 38-71. -/
def skipSpace : List Byte → List Byte
  | [] => []
  | c :: s => if isSpace c then skipSpace s else c :: s

section Expressions
variable {D F : Type} (N : Numbers D F)

mutual
/-- `ParseDoubleExpression`, lines 38-42. The text is the C string from `input` on; the result is the value
and the text at `*end`. `none` means that the bound on the depth of calls and rounds was too small. -/
def parseExpression : Nat → List Byte → D → Option (D × List Byte)
  | 0, _, _ => none
  | n + 1, input, fallback =>
    match N.strtod input with
    | none => some (fallback, input)
    | some (value, rest) => parseLoop n value rest fallback

/-- The loop of `ParseDoubleExpression`, lines 43-70. -/
def parseLoop : Nat → D → List Byte → D → Option (D × List Byte)
  | 0, _, _, _ => none
  | n + 1, value, rest, fallback =>
    match skipSpace rest with
    | [] => some (value, [])
    | op :: tl =>
      if op ≠ 47 ∧ op ≠ 42 then some (value, op :: tl)
      else
        let input := skipSpace tl
        let apply := fun operand => if op = 47 then N.div value operand else N.mul value operand
        match input with
        | [] =>
          match N.strtod [] with
          | none => some (fallback, [])
          | some (operand, rest) => parseLoop n (apply operand) rest fallback
        | c :: inner =>
          if c = 40 then
            match parseExpression n inner N.one with
            | none => none
            | some (operand, rest) =>
              match rest with
              | [] => some (fallback, [])
              | d :: after => if d ≠ 41 then some (fallback, d :: after) else parseLoop n (apply operand) after fallback
          else
            match N.strtod (c :: inner) with
            | none => some (fallback, c :: inner)
            | some (operand, rest) => parseLoop n (apply operand) rest fallback
end

/-- `value.c_str()`: the bytes before the first NUL. config-parser.cc 97-110. -/
def cString (s : List Byte) : List Byte := s.takeWhile (· ≠ 0)

/-- `ParseFloatExpr`, lines 98-111: the answer and what has been written to `*result`. -/
def parseFloatExpr (value : List Byte) : Option (Bool × Option F) :=
  let text := cString value
  match parseExpression N (2 * text.length + 2) text N.one with
  | none => none
  | some (eval, rest) =>
    match rest with
    | [] => if N.negative (N.toFloat eval) then some (false, some (N.toFloat eval)) else some (true, some (N.toFloat eval))
    | _ :: _ => some (false, none)

end Expressions

/-- `ParseBool`, lines 85-95: `some b` is the answer true with `b` stored. -/
def parseBool (value : List Byte) : Option Bool :=
  if value = [49] ∨ value = [121, 101, 115] ∨ value = [116, 114, 117, 101] then some true
  else if value = [48] ∨ value = [110, 111] ∨ value = [102, 97, 108, 115, 101] then some false
  else none

end BeagleG.Config
