import Verif.Parser.Lemmas
import Verif.Expr.Props
/-!
# The parser: an arithmetic for examples

Integers, and texts of decimal digits as numbers.
-/
namespace BeagleG.Parser
open Text Expr

/-- Integers as numbers. -/
def exNum : Num Int where
  toFloat_ := { exampleFloat with
    strtof := fun l => if takeDigits l = [] then none
      else some ((digitsValue (takeDigits l) : Int), l.drop (takeDigits l).length)
    decimal := fun n => (Nat.toDigits 10 n.toNat).map fun c => UInt8.ofNat c.toNat }
  tenth n := n / 10
  hundredth := 1
  toInt n := n
  ofInt n := n
  neg n := -n
  hypot a b := a + b
  atan2 a _ := a
  cos _ := 1
  sin _ := 0
  asin _ := 0
  twoPi := 6
  halfPi := 2
  onePlus := 1
  oneMinus := 1
  tiny := 1

theorem exNum_ok : exNum.toFloat_.Ok where
  suffix := by
    intro l v r h
    simp only [exNum] at h
    split at h
    · cases h
    · rename_i hne
      injection h with h
      injection h with _ h
      subst h
      have hpos : 0 < (takeDigits l).length := List.length_pos_iff.2 hne
      refine ⟨List.drop_suffix _ _, ?_⟩
      rw [List.length_drop]
      have : l ≠ [] := by rintro rfl; simp [takeDigits] at hne
      have := List.length_pos_iff.2 this
      omega

/-- A receiver that accepts all moves or none. -/
def exReceiver (accept : Bool) : Receiver Int where
  accepts _ := accept
  clamp _ p := p
  probe _ := none
  reads _ := false
  takes _ := false
  discards _ := false
  load _ p := p
  allowM111 := false

/-- A parser at position 0 with empty parameters. -/
def exState : State Int := initial exNum (some fun _ => none) fun _ => 0

/-- ASCII text. -/
def text (s : String) : List Byte := s.toList.map fun c => UInt8.ofNat c.toNat

/-- A run that ends in a state with a property. -/
def Out.ends {A : Type} (r : Out A) (p : A → Bool) : Bool :=
  match r with
  | .ok a => p a
  | _ => false

theorem Out.ends_ok {A : Type} {r : Out A} {p : A → Bool} (h : r.ends p = true) : ∃ a, r = .ok a ∧ p a = true := by
  cases r with
  | ok a => exact ⟨a, rfl, h⟩
  | fault f => cases h
  | outOfFuel => cases h

/-! ### Fractions -/

/-- A number with at most one decimal point, without sign. -/
def readDecimal (l : List Byte) : Option (Rat × List Byte) :=
  let a := takeDigits l
  if a = [] then none
  else
    let r := l.drop a.length
    match after1 46 r with
    | none => some ((digitsValue a : Rat), r)
    | some r => some ((digitsValue (a ++ takeDigits r) : Rat) / 10 ^ (takeDigits r).length, r.drop (takeDigits r).length)

/-- Rational numbers; arithmetic is exact, the other functions are placeholders. -/
def ratNum : Num Rat where
  zero := 0
  one := 1
  minusOne := -1
  half := 1 / 2
  minusHalf := -1 / 2
  lt a b := a < b
  eq a b := a = b
  add a b := a + b
  sub a b := a - b
  mul a b := a * b
  div a b := a / b
  fmod a _ := a
  pow a _ := a
  abs a := if a < 0 then -a else a
  floor a := a.num / a.den
  ceil a := a
  trunc a := (a.num.tdiv a.den : Int)
  exp a := a
  log a := a
  sqrt a := a
  sinDeg a := a
  cosDeg a := a
  tanDeg a := a
  asinDeg a := a
  acosDeg a := a
  atan2Deg a b := a - b
  decimal a := decNat (a.num.tdiv a.den).toNat
  strtof := readDecimal
  tenth n := n / 10
  hundredth := 1 / 100
  toInt a := a.num.tdiv a.den
  ofInt n := n
  neg a := -a
  hypot a b := a + b
  atan2 a _ := a
  cos _ := 1
  sin _ := 0
  asin _ := 0
  twoPi := 44 / 7
  halfPi := 11 / 7
  onePlus := 1000001 / 1000000
  oneMinus := 999999 / 1000000
  tiny := 1 / 100000

theorem ratNum_ok : ratNum.toFloat_.Ok where
  suffix := by
    intro l v r h
    have h : readDecimal l = some (v, r) := h
    unfold readDecimal at h
    simp only at h
    split at h
    · cases h
    · rename_i hne
      have hpos : 0 < (takeDigits l).length := List.length_pos_iff.2 hne
      have hl : l ≠ [] := by rintro rfl; simp [takeDigits] at hne
      have hl := List.length_pos_iff.2 hl
      split at h
      · injection h with h
        injection h with _ h
        subst h
        refine ⟨List.drop_suffix _ _, ?_⟩
        rw [List.length_drop]
        omega
      · rename_i r' h46
        injection h with h
        injection h with _ h
        subst h
        have hs : r' <:+ l.drop (takeDigits l).length := (after1_suffix h46) ▸ List.suffix_cons _ _
        refine ⟨(List.drop_suffix _ _).trans (hs.trans (List.drop_suffix _ _)), ?_⟩
        have := hs.length_le
        rw [List.length_drop] at this ⊢
        omega

/-- A receiver of rational positions that accepts all moves or none. -/
def ratReceiver (accept : Bool) : Receiver Rat where
  accepts _ := accept
  clamp _ p := p
  probe _ := none
  reads _ := false
  takes _ := false
  discards _ := false
  load _ p := p
  allowM111 := false

/-- A parser at position 0 with empty parameters. -/
def ratState : State Rat := initial ratNum (some fun _ => none) fun _ => 0

end BeagleG.Parser
