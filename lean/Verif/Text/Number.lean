import Mathlib.Algebra.Order.Field.Basic
import Mathlib.Algebra.Ring.Rat
import Mathlib.Data.Rat.Floor
import Verif.Text.Model

/-!
# Reading numbers (model)

Model of the conversions of text to numbers, /repo/src/common/string-util.cc lines 79-190.  There are two
implementations of each, and the compiler decides which one is used: with `std::from_chars` (C++17; for
floating point only if the library has it), or with `strtoll`, `strtof` and `strtod` on a copy in a buffer.

Simplifications: numbers are exact (ℚ), so neither rounded nor too large; what `std::from_chars` takes behind
`nan` (parentheses) is left out.  A pointer into the text is the rest of the text; `none` is `nullptr`.
-/
namespace BeagleG.Text.Number

/-- `isdigit`. common/string-util.cc 87. -/
def isDigit (c : Byte) : Bool := 48 ≤ c && c ≤ 57

/-- Value of decimal digits. `std::from_chars`, `strtof`, `strtoll`: common/string-util.cc 109, 118, 171. -/
def digitsValue (ds : List Byte) : Nat := ds.foldl (fun n c => 10 * n + (c.toNat - 48)) 0

/-- What is read: a number, or one of the special values. common/string-util.cc 109, 171. -/
inductive Value where
  | num (q : ℚ)
  | infinity (negative : Bool)
  | nan
  deriving DecidableEq, Repr

/-- Behind the sign: digits, with a point or not (as both `strtod` and `std::from_chars` have it): the value, and the
rest. `std::from_chars`, `strtof`: common/string-util.cc 109, 171. -/
def mantissa (s : List Byte) : Option (ℚ × List Byte) :=
  let whole := s.takeWhile isDigit
  match s.dropWhile isDigit with
  | 46 :: r =>
    let part := r.takeWhile isDigit
    if whole ++ part = [] then none
    else some (digitsValue (whole ++ part) / 10 ^ part.length, r.dropWhile isDigit)
  | r => if whole = [] then none else some (digitsValue whole, r)

/-- An exponent: its value, and the rest. `std::from_chars`, `strtof`: common/string-util.cc 109, 171. -/
def exponent (s : List Byte) : Option (Int × List Byte) :=
  let number (neg : Bool) (r : List Byte) : Option (Int × List Byte) :=
    if r.takeWhile isDigit = [] then none
    else
      let v : Int := digitsValue (r.takeWhile isDigit)
      some (if neg then -v else v, r.dropWhile isDigit)
  match s with
  | c :: r =>
    if c = 101 || c = 69 then
      match r with
      | 43 :: r => number false r
      | 45 :: r => number true r
      | r => number false r
    else none
  | [] => none

/-! ## With a buffer -/

/-- The loop of `CopyNumberTo`, lines 86-99: what is copied.  `room` is `out_end - dst`, `first` is
`dst == out_begin`.  `strchr` finds the zero byte as well. -/
def copyLoop : (room : Nat) → (first havePoint : Bool) → List Byte → List Byte
  | 0, _, _, _ => []
  | _, _, _, [] => []
  | room + 1, first, havePoint, c :: cs =>
    if isDigit c || c = 43 || c = 45 || c = 46 || c = 0 then
      if (c = 43 || c = 45) && !first then []
      else if c = 46 && havePoint then []
      else c :: copyLoop room false (havePoint || c = 46) cs
    else []

/-- `CopyNumberTo`, lines 80-101, for a buffer of 32 bytes: the string in it, which ends with the first zero. -/
def copyNumber (s : List Byte) : List Byte := (copyLoop 31 true false s).takeWhile (· ≠ 0)

/-- The sign of a number for `strtof` and its like. `strtof`, `strtoll`: common/string-util.cc 118, 171. -/
def sign (s : List Byte) : Bool × List Byte :=
  match s with
  | 43 :: r => (false, r)
  | 45 :: r => (true, r)
  | r => (false, r)

/-- `strtof`, `strtod` for the strings that there are in the buffer: digits, a sign, a point.
common/string-util.cc 171, 178-184. -/
def strtod (s : List Byte) : Option (ℚ × List Byte) :=
  (mantissa (sign s).2).map fun r => (if (sign s).1 then -r.1 else r.1, r.2)

/-- `convert_strto_ieee` without `std::from_chars`, lines 160-175. -/
def floatBuffer (s : List Byte) : Option (Value × List Byte) :=
  let n := skipWhite s
  let buffer := copyNumber n
  (strtod buffer).map fun r => (.num r.1, n.drop (buffer.length - r.2.length))

/-- `strtoll`: digits behind an optional sign; too large values become the largest. common/string-util.cc 118. -/
def strtoll (s : List Byte) : Option (Int × List Byte) :=
  let ds := (sign s).2.takeWhile isDigit
  if ds = [] then none
  else
    let v : Int := if (sign s).1 then -(digitsValue ds : Int) else digitsValue ds
    some (max (-2 ^ 63) (min v (2 ^ 63 - 1)), (sign s).2.dropWhile isDigit)

/-- Conversion of `long long` to a signed type of `bits` bits. The assignment to `*result`, common/string-util.cc 118. -/
def wrap (bits : Nat) (v : Int) : Int :=
  let r := v % 2 ^ bits
  if r < 2 ^ (bits - 1) then r else r - 2 ^ bits

/-- One `+` is left out, line 107. -/
def dropPlus (s : List Byte) : List Byte :=
  match s with
  | 43 :: r => r
  | r => r

/-- Lines 106-107: white space, and one `+`. -/
def prepare (s : List Byte) : List Byte := dropPlus (skipWhite s)

/-- `convert_strto_num` before C++17, lines 103-107 and 111-120. -/
def intBuffer (bits : Nat) (s : List Byte) : Option (Int × List Byte) :=
  let n := skipWhite (prepare s)
  let buffer := copyNumber n
  (strtoll buffer).map fun r => (wrap bits r.1, n.drop (buffer.length - r.2.length))

/-! ## With `std::from_chars` -/

/-- Is this word, in lower case, at the beginning? `std::from_chars`, common/string-util.cc 109. -/
def word (w s : List Byte) : Option (List Byte) :=
  if (s.take w.length).map toLower = w then some (s.drop w.length) else none

/-- `inf`. `std::from_chars`, common/string-util.cc 109. -/
def inf : List Byte := [105, 110, 102]
/-- `inity`. `std::from_chars`, common/string-util.cc 109. -/
def inity : List Byte := [105, 110, 105, 116, 121]
/-- `nan`. `std::from_chars`, common/string-util.cc 109. -/
def nan : List Byte := [110, 97, 110]

/-- The sign for `std::from_chars`: only a `-`. common/string-util.cc 109. -/
def minus (s : List Byte) : Bool × List Byte :=
  match s with
  | 45 :: r => (true, r)
  | r => (false, r)

/-- `std::from_chars` for floating point, behind the sign. common/string-util.cc 109. -/
def unsignedFloat (neg : Bool) (s : List Byte) : Option (Value × List Byte) :=
  match mantissa s with
  | some (m, r) =>
    let m := if neg then -m else m
    match exponent r with
    | some (e, r) => some (.num (m * 10 ^ e), r)
    | none => some (.num m, r)
  | none =>
    match word inf s with
    | some r => some (.infinity neg, (word inity r).getD r)
    | none => (word nan s).map fun r => (.nan, r)

/-- `std::from_chars` for floating point. common/string-util.cc 109. -/
def fromCharsFloat (s : List Byte) : Option (Value × List Byte) := unsignedFloat (minus s).1 (minus s).2

/-- `convert_strto_ieee` with `std::from_chars`, lines 103-110 and 155-159. -/
def floatChars (s : List Byte) : Option (Value × List Byte) := fromCharsFloat (prepare s)

/-- `std::from_chars` for an integer of `bits` bits: values out of range are errors. common/string-util.cc 109. -/
def fromCharsInt (bits : Nat) (s : List Byte) : Option (Int × List Byte) :=
  let ds := (minus s).2.takeWhile isDigit
  if ds = [] then none
  else
    let v : Int := if (minus s).1 then -(digitsValue ds : Int) else digitsValue ds
    if -2 ^ (bits - 1) ≤ v ∧ v < 2 ^ (bits - 1) then some (v, (minus s).2.dropWhile isDigit) else none

/-- `convert_strto_num` with C++17, lines 103-110. -/
def intChars (bits : Nat) (s : List Byte) : Option (Int × List Byte) := fromCharsInt bits (prepare s)

/-- `ParseInt64`, lines 187-190. -/
def parseInt64 (convert : List Byte → Option (Int × List Byte)) (s : List Byte) (fallback : Int) : Int :=
  ((convert s).map (·.1)).getD fallback

end BeagleG.Text.Number
