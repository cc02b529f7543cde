import Verif.Expr.Model
import Verif.Text.LexerProps
/-!
# Specification of expressions: trees, their values and how they are written

The binding strength of the operators is that of the comments in `enum Operation`, gcode-parser.cc 207-211:
`**` binds tightest, then `/ MOD *`, then `AND XOR - OR +`, then the comparisons. All are left-associative. A
minus sign in front of an operand that is not a number stands for `-1 *`, line 836; it covers the operand and
all powers that follow.
-/
namespace BeagleG.Expr
open Text

/-- The operators with two operands, G-code.md and gcode-parser.cc 204-214. -/
inductive BinOp where
  | pow | div | mod | mul | and | xor | sub | or | add | eq | ne | gt | ge | lt | le
  deriving DecidableEq, Repr

/-- Binding strength. -/
def BinOp.level : BinOp → Nat
  | .pow => 5
  | .div | .mod | .mul => 4
  | .and | .xor | .sub | .or | .add => 3
  | .eq | .ne | .gt | .ge | .lt | .le => 2

/-- The value that `op_parse_` gives for the operator. -/
def BinOp.code : BinOp → Nat
  | .pow => POWER | .div => DIVIDED_BY | .mod => MODULO | .mul => TIMES | .and => AND2
  | .xor => EXCLUSIVE_OR | .sub => MINUS | .or => NON_EXCLUSIVE_OR | .add => PLUS | .eq => EQ
  | .ne => NE | .gt => GT | .ge => GE | .lt => LT | .le => LE

/-- Functions of one argument. -/
inductive Fun where
  | abs | acos | asin | cos | exp | fix | fup | ln | round | sin | sqrt | tan
  deriving DecidableEq, Repr

/-- The code of a function in `enum Operation`, gcode-parser.cc 215-216. -/
def Fun.code : Fun → Nat
  | .abs => ABS | .acos => ACOS | .asin => ASIN | .cos => COS | .exp => EXP | .fix => FIX | .fup => FUP
  | .ln => LN | .round => ROUND | .sin => SIN | .sqrt => SQRT | .tan => TAN

/-- An expression. -/
inductive Tree (F : Type) where
  /-- a literal number -/
  | num (v : F)
  /-- `#name` or `#<name>` -/
  | named (name : List Byte)
  /-- `#5`, `##5`, … : the parameter whose number is the value of the tree -/
  | numbered (index : Tree F)
  /-- `[…]` -/
  | bracket (e : Tree F)
  /-- `sin[…]` etc. -/
  | fn (f : Fun) (e : Tree F)
  /-- `atan[…]/[…]` -/
  | atan (y x : Tree F)
  /-- `-…` -/
  | neg (e : Tree F)
  | bin (op : BinOp) (l r : Tree F)

variable {F : Type} (fl : Float_ F)

/-! ### Values -/

/-- The value of a binary operation; `none` is an error. -/
def BinOp.apply (op : BinOp) (l r : F) : Option F :=
  let truth (b : Bool) : Option F := some (if b then fl.one else fl.zero)
  let isTrue (x : F) : Bool := !fl.eq x fl.zero
  match op with
  | .pow => if fl.lt l fl.zero && !fl.eq (fl.floor r) r then none else some (fl.pow l r)
  | .div => if fl.eq r fl.zero then none else some (fl.div l r)
  | .mod => some (if fl.lt (fl.fmod l r) fl.zero then fl.add (fl.fmod l r) (fl.abs r) else fl.fmod l r)
  | .mul => some (fl.mul l r)
  | .sub => some (fl.sub l r)
  | .add => some (fl.add l r)
  | .and => truth (isTrue l && isTrue r)
  | .or => truth (isTrue l || isTrue r)
  | .xor => truth (isTrue l != isTrue r)
  | .eq => truth (fl.eq l r)
  | .ne => truth (!fl.eq l r)
  | .gt => truth (fl.lt r l)
  | .ge => truth (fl.lt r l || fl.eq l r)
  | .lt => truth (fl.lt l r)
  | .le => truth (fl.lt l r || fl.eq l r)

/-- The value of a function; `none` is an error. -/
def Fun.apply (f : Fun) (x : F) : Option F :=
  match f with
  | .abs => some (fl.abs x)
  | .acos => if fl.lt x fl.minusOne || fl.lt fl.one x then none else some (fl.acosDeg x)
  | .asin => if fl.lt x fl.minusOne || fl.lt fl.one x then none else some (fl.asinDeg x)
  | .cos => some (fl.cosDeg x)
  | .exp => some (fl.exp x)
  | .fix => some (fl.floor x)
  | .fup => some (fl.ceil x)
  | .ln => if fl.lt x fl.zero || fl.eq x fl.zero then none else some (fl.log x)
  | .round => some (fl.trunc (fl.add x (if fl.lt x fl.zero then fl.minusHalf else fl.half)))
  | .sin => some (fl.sinDeg x)
  | .sqrt => if fl.lt x fl.zero then none else some (fl.sqrt x)
  | .tan => some (fl.tanDeg x)

/-- The value of an expression, given the parameters; `none` is an error. -/
def Tree.eval (lookup : List Byte → F) : Tree F → Option F
  | .num v => some v
  | .named name => some (lookup name)
  | .numbered e => do
    let v ← e.eval lookup
    if fl.decimal v = [] then none else some (lookup (fl.decimal v))
  | .bracket e => e.eval lookup
  | .fn f e => do f.apply fl (← e.eval lookup)
  | .atan y x => do
    let a ← y.eval lookup
    let b ← x.eval lookup
    some (fl.atan2Deg a b)
  | .neg e => do BinOp.mul.apply fl fl.minusOne (← e.eval lookup)
  | .bin op l r => do
    let a ← l.eval lookup
    let b ← r.eval lookup
    op.apply fl a b

/-! ### Binding -/

/-- How tight a tree is bound at its root. -/
def Tree.level : Tree F → Nat
  | .bin op _ _ => op.level
  | .neg _ => 4
  | _ => 6

/-- Does the tree begin with a minus sign at its root? -/
def Tree.isNeg : Tree F → Bool
  | .neg _ => true
  | _ => false

/-- A minus sign is still open at the right end: powers that follow belong to it. -/
def Tree.endsNeg : Tree F → Bool
  | .neg _ => true
  | .bin _ _ r => r.endsNeg
  | _ => false

/-- The tree is the one that binding strength and left-associativity give for its sequence of operators. -/
def Tree.Proper : Tree F → Prop
  | .num _ => True
  | .named _ => True
  | .numbered e => e.Proper
  | .bracket e => e.Proper
  | .fn _ e => e.Proper
  | .atan y x => y.Proper ∧ x.Proper
  | .neg e => e.Proper ∧ 4 < e.level
  | .bin op l r =>
    l.Proper ∧ r.Proper ∧ op.level ≤ l.level ∧ (r.isNeg = true ∨ op.level < r.level) ∧
      (op = .pow → l.endsNeg = false)

/-! ### Writing

`Derives t line rest`: `line` begins with a way to write `t`, and `rest` is what follows, without white space
in front. Keywords are found by the rule of C07: the longest one counts, upper and lower case are the same. -/

/-- The keyword with this value stands here. -/
def Keyword (code : Nat) (line rest : List Byte) : Prop := MatchSpec opTable line (code, rest)

/-- The text starts with something that is neither letter, `[`, `#` nor white space: a number, if anything. -/
def StartsNumber (line : List Byte) : Prop :=
  ∃ c cs, line = c :: cs ∧ isAlpha c = false ∧ c ≠ 91 ∧ c ≠ 35 ∧ isSpace c = false

/-- The first text begins with a way to write the tree; the second is what follows. -/
inductive Derives : Tree F → List Byte → List Byte → Prop
  | num {v : F} {line rest : List Byte} : StartsNumber line → fl.strtof line = some (v, rest) →
      Derives (.num v) line (skipWhite rest)
  /-- `#name`: the longest sequence of letters, digits and `_`; it does not start with a digit -/
  | named {name cs ws rest : List Byte} {c : Byte} : skipWhite cs = c :: ws → isDigit c = false →
      name ≠ [] → c :: ws = name ++ rest → (∀ d ∈ name, isNameChar false d = true) →
      (∀ d, rest.head? = some d → isNameChar false d = false) →
      Derives (.named name) (35 :: cs) (skipWhite rest)
  /-- `#<name>`: letters, digits, `_` and white space, which does not count -/
  | angled {body cs ws rest : List Byte} : skipWhite cs = 60 :: ws → ws = body ++ 62 :: rest →
      (∀ d ∈ body, isNameChar true d = true) → (∀ d, body.head? = some d → isDigit d = false) →
      body.filter (fun d => !isSpace d) ≠ [] →
      Derives (.named (body.filter fun d => !isSpace d)) (35 :: cs) (skipWhite rest)
  | numbered {e : Tree F} {cs ws rest : List Byte} {c : Byte} : skipWhite cs = c :: ws →
      c = 35 ∨ isDigit c = true → 6 ≤ e.level → Derives e (c :: ws) rest →
      Derives (.numbered e) (35 :: cs) rest
  | bracket {e : Tree F} {cs r1 rest : List Byte} : Derives e (skipWhite cs) r1 →
      Keyword RIGHT_BRACKET r1 rest → Derives (.bracket e) (91 :: cs) rest
  | fn {f : Fun} {e : Tree F} {c : Byte} {cs r1 r2 rest : List Byte} : isAlpha c = true →
      Keyword f.code (c :: cs) (91 :: r1) → Derives e (skipWhite r1) r2 → Keyword RIGHT_BRACKET r2 rest →
      Derives (.fn f e) (c :: cs) rest
  | atan {y x : Tree F} {c : Byte} {cs r1 r2 r3 r4 rest : List Byte} : isAlpha c = true →
      Keyword ATAN (c :: cs) (91 :: r1) → Derives y (skipWhite r1) r2 →
      Keyword RIGHT_BRACKET r2 (47 :: 91 :: r3) → Derives x (skipWhite r3) r4 →
      Keyword RIGHT_BRACKET r4 rest → Derives (.atan y x) (c :: cs) rest
  | neg {e : Tree F} {cs rest : List Byte} : fl.strtof (45 :: cs) = none →
      (skipWhite cs).head? ≠ some 45 → Derives e (skipWhite cs) rest → Derives (.neg e) (45 :: cs) rest
  | bin {op : BinOp} {l r : Tree F} {line r1 r2 rest : List Byte} : Derives l line r1 →
      Keyword op.code r1 r2 → Derives r r2 rest → Derives (.bin op l r) line rest

/-- What `convert_strtof` must do: the rest it returns is shorter than the text (and it consists of the end of
the text). -/
structure Float_.Ok : Prop where
  suffix : ∀ l v r, fl.strtof l = some (v, r) → r <:+ l ∧ r.length < l.length

/-! ### Room on the stack -/

/-- How many operators wait for their right operand at the same time, at one bracket level. -/
def Tree.depth : Tree F → Nat
  | .neg e => e.depth + 1
  | .bin _ l r => max l.depth (r.depth + 1)
  | _ => 0

/-- At every bracket level at most 5 operators are waiting at a time. -/
def Tree.Fits : Tree F → Prop
  | .num _ => True
  | .named _ => True
  | .numbered e => e.Fits
  | .bracket e => e.depth ≤ 5 ∧ e.Fits
  | .fn _ e => e.depth ≤ 5 ∧ e.Fits
  | .atan y x => (y.depth ≤ 5 ∧ y.Fits) ∧ x.depth ≤ 5 ∧ x.Fits
  | .neg e => e.Fits
  | .bin _ l r => l.Fits ∧ r.Fits

/-- At most `k` minus signs are open at the same time at one bracket level. -/
def Tree.negs : Tree F → Nat
  | .neg e => e.negs + 1
  | .bin _ l r => max l.negs r.negs
  | _ => 0

end BeagleG.Expr
