import Verif.Text.NumberProps
import Verif.Parser.Example
import Verif.Setup.Model

/-!
# Who reads numbers (C87)

The parser, the expressions and the machine configuration have models of their own of these conversions, or get them
as a parameter. Here they are connected with `Verif/Text/Number.lean`.
-/
namespace BeagleG.Text.Number

/-! ## Integers -/

theorem takeDigits_eq (s : List Byte) : Parser.takeDigits s = s.takeWhile isDigit := by
  induction s with
  | nil => rfl
  | cons c s ih =>
    have e : Expr.isDigit c = isDigit c := rfl
    simp only [Parser.takeDigits, List.takeWhile_cons, ih, e]

theorem dropPlus_eq (s : List Byte) : dropPlus s = if s.head? = some 43 then s.tail else s := by
  unfold dropPlus
  split
  · simp
  · rename_i h
    split
    · rename_i e
      cases s with
      | nil => simp at e
      | cons c s =>
        have : c = 43 := by simpa using e
        subst this
        exact absurd rfl (h s)
    · rfl

theorem fromChars64_eq (s : List Byte) : Parser.fromChars64 s = (fromCharsInt 64 s).map (·.1) := by
  cases s with
  | nil => rfl
  | cons c s =>
    have value : ∀ ds, Parser.digitsValue ds = digitsValue ds := fun _ => rfl
    simp only [Parser.fromChars64, takeDigits_eq, value]
    unfold fromCharsInt
    by_cases hc : c = 45
    · subst hc
      have e : minus (45 :: s) = (true, s) := rfl
      simp only [e, if_true]
      split
      · rfl
      · generalize digitsValue (s.takeWhile isDigit) = n
        by_cases h : n ≤ 2 ^ 63
        · rw [if_pos h, if_pos (by norm_num; omega)]; rfl
        · rw [if_neg h, if_neg (by norm_num; omega)]; rfl
    · have e : minus (c :: s) = (false, c :: s) := by
        unfold minus
        split
        · rename_i e; injection e with e _; exact absurd e hc
        · rfl
      simp only [e, hc, if_false]
      split
      · rfl
      · generalize digitsValue ((c :: s).takeWhile isDigit) = n
        by_cases h : n < 2 ^ 63
        · simp only [Bool.false_eq_true, if_false]
          rw [if_pos h, if_pos (by norm_num; omega)]; rfl
        · simp only [Bool.false_eq_true, if_false]
          rw [if_neg h, if_neg (by norm_num; omega)]; rfl

/-- The parser's numbers of parameters are read with this conversion. -/
theorem C87_parameters (s : List Byte) (fallback : Int) :
    Parser.parseInt64 s fallback = parseInt64 (intChars 64) s fallback := by
  unfold Parser.parseInt64 parseInt64 intChars prepare
  dsimp only
  rw [← dropPlus_eq, fromChars64_eq]

theorem skipWhite_eq (s : List Byte) : s.dropWhile isSpace = skipWhite s := by
  induction s with
  | nil => rfl
  | cons c s ih => simp only [List.dropWhile_cons, skipWhite, ih]

/-- And the integers in the machine configuration. -/
theorem C87_configuration (s : List Byte) : Setup.parseInt s = (intChars 32 s).map (·.1) := by
  have value : ∀ ds, Setup.digitsValue ds = digitsValue ds := fun _ => rfl
  have digit : Setup.isDigit = isDigit := rfl
  have key : ∀ t, (let (neg, s) : Bool × List Byte := match t with
      | 45 :: s => (true, s)
      | s => (false, s)
    let ds := s.takeWhile isDigit
    if ds = [] then none
    else
      let v : Int := if neg then -(digitsValue ds : Int) else digitsValue ds
      if -2 ^ 31 ≤ v ∧ v < 2 ^ 31 then some v else none) = (fromCharsInt 32 t).map (·.1) := by
    intro t
    have e : (match t with
      | 45 :: s => (true, s)
      | s => (false, s) : Bool × List Byte) = minus t := by
      unfold minus
      split
      · rfl
      · rename_i h
        split
        · rename_i r; exact absurd rfl (h r)
        · rfl
    rw [e]
    unfold fromCharsInt
    dsimp only
    split
    · rfl
    · generalize (if (minus t).1 = true then -(digitsValue ((minus t).2.takeWhile isDigit) : Int)
        else digitsValue ((minus t).2.takeWhile isDigit)) = v
      by_cases h : -2 ^ 31 ≤ v ∧ v < 2 ^ 31
      · rw [if_pos h, if_pos h]; rfl
      · rw [if_neg h, if_neg h]; rfl
  unfold Setup.parseInt intChars prepare
  rw [digit, skipWhite_eq]
  have e : (match skipWhite s with
      | 43 :: s => s
      | s => s) = dropPlus (skipWhite s) := by
    unfold dropPlus
    split
    · rename_i h; simp only [h]
    · rename_i h
      split
      · rename_i r e; exact absurd e (h r)
      · rfl
  dsimp only
  simp only [value]
  rw [← key, ← e]
  rfl

/-! ## Floating point -/

/-- Rational numbers as the parser gets them from a conversion; the special values are not among them. -/
def finite (convert : List Byte → Option (Value × List Byte)) (s : List Byte) : Option (ℚ × List Byte) :=
  match convert s with
  | some (.num v, r) => some (v, r)
  | _ => none

/-- The parser with one of the conversions. -/
def numWith (convert : List Byte → Option (Value × List Byte)) : Parser.Num ℚ :=
  { Parser.ratNum with strtof := finite convert }

/-- What is assumed about the conversion in the properties of expressions and of the parser holds for both. -/
theorem C87_assumption : (numWith floatBuffer).toFloat_.Ok ∧ (numWith floatChars).toFloat_.Ok := by
  have key : ∀ convert, (∀ s v r, convert s = some (v, r) → r <:+ s ∧ r.length < s.length) →
      (numWith convert).toFloat_.Ok := by
    intro convert h
    refine ⟨fun l v r e => ?_⟩
    have e : finite convert l = some (v, r) := e
    unfold finite at e
    split at e
    · rename_i w t ht
      injection e with e
      injection e with _ e
      subst e
      exact h _ _ _ ht
    · cases e
  exact ⟨key _ fun s v r => (C87_progress s r v).1, key _ fun s v r => (C87_progress s r v).2⟩

open _root_.BeagleG.Parser (text runLines ratReceiver ratState)

/-- **An extruder behind another axis**: `G1 X10E5` moves X to 10 and E to 5 with the buffer, and X to a million
with `std::from_chars`. -/
theorem C87_extruder :
    (∃ st, runLines (numWith floatBuffer) (ratReceiver true) 0 ratState [text "G1 X10E5 F60"] = .ok st ∧
      st.pos .X = 10 ∧ st.pos .E = 5) ∧
    (∃ st, runLines (numWith floatChars) (ratReceiver true) 0 ratState [text "G1 X10E5 F60"] = .ok st ∧
      st.pos .X = 1000000 ∧ st.pos .E = 0) := by
  have h1 : (runLines (numWith floatBuffer) (ratReceiver true) 0 ratState [text "G1 X10E5 F60"]).ends
      (fun st => decide (st.pos .X = 10 ∧ st.pos .E = 5)) = true := by decide +kernel
  have h2 : (runLines (numWith floatChars) (ratReceiver true) 0 ratState [text "G1 X10E5 F60"]).ends
      (fun st => decide (st.pos .X = 1000000 ∧ st.pos .E = 0)) = true := by decide +kernel
  exact ⟨by simpa using Parser.Out.ends_ok h1, by simpa using Parser.Out.ends_ok h2⟩

/-- With a blank between them both mean the same. -/
example : (runLines (numWith floatChars) (ratReceiver true) 0 ratState [text "G1 X10 E5 F60"]).ends
    (fun st => decide (st.pos .X = 10 ∧ st.pos .E = 5)) = true ∧
    (runLines (numWith floatBuffer) (ratReceiver true) 0 ratState [text "G1 X10 E5 F60"]).ends
    (fun st => decide (st.pos .X = 10 ∧ st.pos .E = 5)) = true := by
  constructor <;> decide +kernel

end BeagleG.Text.Number
