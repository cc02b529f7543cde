/-!
# Model of `/repo/src/common/string-util.cc` (splitting, trimming, prefixes) and
# `/repo/src/gcode-parser/simple-lexer.{h,cc}`

Characters are bytes; `char` is unsigned as on the target (ARM), the C locale is in force. A C string is
the list of its bytes before the terminating NUL.
-/
namespace BeagleG.Text

/-- `char`, as unsigned byte. common/string-util.h 49-56. -/
abbrev Byte := UInt8

/-- `isspace` in the C locale. Used at common/string-util.cc 43-45, 106; gcode-parser.cc 534-540. -/
def isSpace (c : Byte) : Bool := (9 ≤ c && c ≤ 13) || c = 32

/-- `toupper` in the C locale. Used at gcode-parser.cc 68-88, 1056, 1186; simple-lexer.cc 64-92. -/
def toUpper (c : Byte) : Byte := if 97 ≤ c ∧ c ≤ 122 then c - 32 else c

/-- `tolower` in the C locale. Used at common/string-util.cc 51. -/
def toLower (c : Byte) : Byte := if 65 ≤ c ∧ c ≤ 90 then c + 32 else c

/-! ### string-util.cc -/

/-- The first loop of `TrimWhitespace`, line 43: `start` as an index; the last argument bounds the
iterations. -/
def trimStart (s : List Byte) (start : Nat) : Nat → Nat
  | 0 => start
  | n + 1 =>
    match s[start]? with
    | some c => if isSpace c then trimStart s (start + 1) n else start
    | none => start

/-- The second loop, line 45. `end` is one less than `e`, so that it may lie in front of the string. -/
def trimEnd (s : List Byte) (start : Nat) : Nat → Nat
  | 0 => 0
  | e + 1 =>
    if e > start then
      match s[e]? with
      | some c => if isSpace c then trimEnd s start e else e + 1
      | none => e + 1
    else e + 1

/-- `TrimWhitespace`, lines 41-47. -/
def trimWhitespace (s : List Byte) : List Byte :=
  let start := trimStart s 0 s.length
  let e := trimEnd s start s.length
  (s.drop start).take (e - start)

/-- `ToLower`, lines 49-53. -/
def toLowerString (s : List Byte) : List Byte := s.map toLower

/-- `strncmp(a, b, n) == 0`; a string view that ends is followed by an unknown byte, so reading there
gives `none`. common/string-util.cc 57; common/string-util.h 72. -/
def strncmpEq (a b : List Byte) : Nat → Option Bool
  | 0 => some true
  | n + 1 =>
    match a, b with
    | x :: a, y :: b => if x ≠ y then some false else if x = 0 then some true else strncmpEq a b n
    | _, _ => none

/-- `HasPrefix`, lines 55-58. -/
def hasPrefix (s prefix_ : List Byte) : Option Bool :=
  if s.length < prefix_.length then some false else strncmpEq s prefix_ prefix_.length

/-- The loop of `SplitString`, lines 69-74, and line 75: `i` and `start` as indices. -/
def splitLoop (s separators : List Byte) (start i : Nat) : Nat → List (List Byte)
  | 0 => [(s.drop start).take (i - start)]
  | n + 1 =>
    match s[i]? with
    | none => [(s.drop start).take (i - start)]
    | some c =>
      if separators.contains c then (s.drop start).take (i - start) :: splitLoop s separators (i + 1) (i + 1) n
      else splitLoop s separators start (i + 1) n

/-- `SplitString`, lines 64-77. -/
def splitString (s separators : List Byte) : List (List Byte) := splitLoop s separators 0 0 s.length

/-! ### simple-lexer -/

/-- `skip_white`, simple-lexer.cc 27-30. -/
def skipWhite : List Byte → List Byte
  | [] => []
  | c :: cs => if isSpace c then skipWhite cs else c :: cs

/-- `SimpleLexerBase::Node`, lines 32-38. -/
inductive Trie where
  | mk (value : Nat) (next : Byte → Option Trie)

/-- A node without value and successors. simple-lexer.cc 32-40. -/
def Trie.empty : Trie := .mk 0 fun _ => none

/-- `AddKeywordAtNode`, lines 64-78; `none` is a failed assertion. -/
def Trie.add : Trie → List Byte → Nat → Option Trie
  | .mk v next, [], value => if v = 0 then some (.mk value next) else none
  | .mk v next, c :: cs, value =>
    if isSpace c then none
    else
      match ((next (toUpper c)).getD Trie.empty).add cs value with
      | none => none
      | some child => some (.mk v fun b => if b = toUpper c then some child else next b)

/-- `AddKeywordIntValue`, lines 49-55 (the map back to strings is left out). -/
def Trie.addKeyword (t : Trie) (keyword : List Byte) (value : Nat) : Option Trie :=
  if value > 0 then t.add keyword value else none

/-- A table of keywords registered one after the other.
simple-lexer.cc 49-78, called for each keyword at gcode-parser.cc 431-500. -/
def build : List (List Byte × Nat) → Trie → Option Trie
  | [], t => some t
  | (k, v) :: tbl, t =>
    match t.addKeyword k v with
    | none => none
    | some t => build tbl t

/-- The loop of `ConsumeKeyword`, lines 84-90. `none`: reading behind the terminating NUL. -/
def walk : Trie → List Byte → Nat × List Byte → Option (Nat × List Byte)
  | .mk v next, [], best =>
    match next (toUpper 0) with
    | none => some (if v > 0 then (v, skipWhite []) else best)
    | some _ => none
  | .mk v next, c :: cs, best =>
    match next (toUpper c) with
    | none => some (if v > 0 then (v, skipWhite (c :: cs)) else best)
    | some t => walk t cs (if v > 0 then (v, skipWhite (c :: cs)) else best)

/-- `ConsumeKeyword`, lines 80-92, and `MatchNext`, simple-lexer.h 70-72: value and new input. -/
def Trie.matchNext (t : Trie) (input : List Byte) : Option (Nat × List Byte) :=
  walk t (skipWhite input) (0, input)

/-- `ExpectNext`, simple-lexer.h 75-82: result and new input. -/
def Trie.expectNext (t : Trie) (input : List Byte) (e : Nat) : Option (Bool × List Byte) :=
  match t.matchNext input with
  | none => none
  | some (v, rest) => some (if v = e then (true, rest) else (false, input))

end BeagleG.Text
