import Verif.ParamFile.Props
import Verif.Parser.Example
import Mathlib.Algebra.Order.Field.Basic
import Mathlib.Algebra.Order.Floor.Ring
import Mathlib.Data.Rat.Floor
import Mathlib.Tactic.Linarith
import Mathlib.Tactic.Ring
import Mathlib.Tactic.FieldSimp
/-!
# Printing and reading numbers with six decimals

`%f` of a number is its sign, and the nearest number of millionths (to even if there are two). Reading takes a sign,
digits, a point and digits. (What the C library does in addition – exponents, hexadecimal numbers, infinity – is left out, and
so is the rounding to single precision.)
-/
namespace BeagleG.ParamFile
open Text Expr BeagleG.Parser

/-- The nearest integer, to even in the middle. -/
def nearest (x : ℚ) : ℤ :=
  if x - ⌊x⌋ < 1 / 2 then ⌊x⌋
  else if 1 / 2 < x - ⌊x⌋ then ⌊x⌋ + 1
  else if ⌊x⌋ % 2 = 0 then ⌊x⌋ else ⌊x⌋ + 1

theorem nearest_close (x : ℚ) : |(nearest x : ℚ) - x| ≤ 1 / 2 := by
  have h1 := Int.floor_le x
  have h2 := Int.lt_floor_add_one x
  unfold nearest
  rw [abs_le]
  split_ifs <;> push_cast <;> constructor <;> linarith

/-- The millionths of the absolute value. -/
def micros (q : ℚ) : ℕ := (nearest (|q| * 1000000)).toNat

/-- Six digits. -/
def sixDigits (n : Nat) : List Byte :=
  [n / 100000 % 10, n / 10000 % 10, n / 1000 % 10, n / 100 % 10, n / 10 % 10, n % 10].map fun d => UInt8.ofNat (48 + d)

/-- `%f`. -/
def printRat (q : ℚ) : List Byte :=
  (if q < 0 then [45] else []) ++ printNat (micros q / 1000000) ++ [46] ++ sixDigits (micros q % 1000000)

/-- A number without sign. -/
def scanUnsigned (l : List Byte) : Option ℚ :=
  if takeDigits l = [] then none
  else
    match l.drop (takeDigits l).length with
    | [] => some (digitsValue (takeDigits l))
    | c :: r =>
      if c = 46 then some (digitsValue (takeDigits l) + (digitsValue (takeDigits r) : ℚ) / 10 ^ (takeDigits r).length)
      else some (digitsValue (takeDigits l))

/-- `strtod` on what `printf("%f")` writes, with a sign. -/
def scanRat : List Byte → Option ℚ
  | [] => none
  | c :: l => if c = 45 then (scanUnsigned l).map (- ·) else scanUnsigned (c :: l)

/-- Values written as decimal numbers, exactly. -/
def decimal : Codec ℚ where
  isZero q := decide (q = 0)
  one := 1
  print := printRat
  scan := scanRat

/-- The number that is printed. -/
def round6 (q : ℚ) : ℚ := if q < 0 then -(micros q : ℚ) / 1000000 else (micros q : ℚ) / 1000000

theorem micros_close (q : ℚ) : |(micros q : ℚ) - |q| * 1000000| ≤ 1 / 2 := by
  have h := nearest_close (|q| * 1000000)
  have h0 : 0 ≤ nearest (|q| * 1000000) := by
    have h1 : (0 : ℤ) ≤ ⌊|q| * 1000000⌋ := Int.floor_nonneg.2 (by positivity)
    unfold nearest
    split_ifs <;> omega
  have e : ((micros q : ℕ) : ℚ) = (nearest (|q| * 1000000) : ℚ) := by
    unfold micros
    have := Int.toNat_of_nonneg h0
    exact_mod_cast congrArg (Int.cast : ℤ → ℚ) this
  rw [e]
  exact h

/-- **The number that comes back is within half a millionth.** -/
theorem round6_close (q : ℚ) : |round6 q - q| ≤ 1 / 2000000 := by
  have h := micros_close q
  rw [abs_le] at h ⊢
  unfold round6
  split
  · rename_i hq
    rw [abs_of_neg hq] at h
    constructor <;> linarith [h.1, h.2]
  · rename_i hq
    rw [abs_of_nonneg (not_lt.1 hq)] at h
    constructor <;> linarith [h.1, h.2]

theorem sixDigits_facts (n : Nat) (h : n < 1000000) : (∀ c ∈ sixDigits n, isDigit c = true) ∧
    digitsValue (sixDigits n) = n ∧ (sixDigits n).length = 6 := by
  refine ⟨?_, ?_, rfl⟩
  · intro c hc
    simp only [sixDigits, List.mem_map] at hc
    obtain ⟨d, hd, rfl⟩ := hc
    refine (digit_byte d ?_).1
    simp only [List.mem_cons, List.not_mem_nil, or_false] at hd
    rcases hd with rfl | rfl | rfl | rfl | rfl | rfl <;> omega
  · simp only [sixDigits, List.map, digitsValue, List.foldl]
    rw [(digit_byte (n / 100000 % 10) (by omega)).2, (digit_byte (n / 10000 % 10) (by omega)).2,
      (digit_byte (n / 1000 % 10) (by omega)).2, (digit_byte (n / 100 % 10) (by omega)).2,
      (digit_byte (n / 10 % 10) (by omega)).2, (digit_byte (n % 10) (by omega)).2]
    omega

theorem scanUnsigned_print (m : Nat) :
    scanUnsigned (printNat (m / 1000000) ++ 46 :: (sixDigits (m % 1000000) ++ [10])) = some ((m : ℚ) / 1000000) := by
  obtain ⟨a1, a2, a3⟩ := printNat_digits (m / 1000000)
  obtain ⟨b1, b2, b3⟩ := sixDigits_facts (m % 1000000) (by omega)
  have h1 := takeDigits_all (printNat (m / 1000000)) (46 :: (sixDigits (m % 1000000) ++ [10])) a2 (by
    intro c hc; injection hc with hc; subst hc; decide)
  have h2 := takeDigits_all (sixDigits (m % 1000000)) [10] b1 (by
    intro c hc; injection hc with hc; subst hc; decide)
  unfold scanUnsigned
  rw [h1, if_neg a1, List.drop_left' rfl]
  simp only [if_true]
  rw [h2, b3, b2, a3]
  congr 1
  have : (m : ℚ) = 1000000 * ((m / 1000000 : ℕ) : ℚ) + ((m % 1000000 : ℕ) : ℚ) := by
    exact_mod_cast (Nat.div_add_mod m 1000000).symm
  rw [this]
  ring

/-- **`%f` is a codec.** -/
theorem decimal_ok : CodecOk decimal round6 where
  word q := by
    obtain ⟨a1, a2, a3⟩ := printNat_digits (micros q / 1000000)
    obtain ⟨b1, b2, b3⟩ := sixDigits_facts (micros q % 1000000) (by omega)
    refine ⟨by simp [decimal, printRat], ?_⟩
    intro c hc
    simp only [decimal, printRat, List.mem_append, List.mem_singleton] at hc
    rcases hc with ((hc | hc) | hc) | hc
    · split at hc
      · rw [List.mem_singleton.1 hc]; decide
      · simp at hc
    · exact isDigit_facts c (a2 c hc)
    · subst hc; decide
    · exact isDigit_facts c (b1 c hc)
  scan q := by
    have h := scanUnsigned_print (micros q)
    simp only [decimal, printRat, round6]
    by_cases hq : q < 0
    · simp only [if_pos hq]
      have e : [45] ++ printNat (micros q / 1000000) ++ [46] ++ sixDigits (micros q % 1000000) ++ [10] =
        45 :: (printNat (micros q / 1000000) ++ 46 :: (sixDigits (micros q % 1000000) ++ [10])) := by simp
      rw [e]
      simp only [scanRat, if_true, h, Option.map_some]
      congr 1
      ring
    · simp only [if_neg hq]
      have e : [] ++ printNat (micros q / 1000000) ++ [46] ++ sixDigits (micros q % 1000000) ++ [10] =
        printNat (micros q / 1000000) ++ 46 :: (sixDigits (micros q % 1000000) ++ [10]) := by simp
      rw [e, ← h]
      obtain ⟨a1, a2, a3⟩ := printNat_digits (micros q / 1000000)
      cases hp : printNat (micros q / 1000000) with
      | nil => exact absurd hp a1
      | cons c cs =>
        simp only [List.cons_append, scanRat]
        rw [if_neg]
        rintro rfl
        have := a2 45 (by rw [hp]; simp)
        exact absurd this (by decide)
  heading := by decide +kernel

/-- **C11 with `%f`**: every saved parameter comes back with an error of at most half a millionth. -/
theorem C11_six_decimals_partial {ps : List (List Byte × ℚ)} (h : Regular decimal ps) (p : List Byte → Option ℚ)
    {k : List Byte} {v : ℚ} (hk : (k, v) ∈ ps) (h0 : v ≠ 0) (hn : (∃ n, 0 < n ∧ k = printNat n) ∨ k.head? = some 95) :
    ∃ w, load decimal (some (saveText decimal ps)) p k = some w ∧ |w - v| ≤ 1 / 2000000 :=
  ⟨round6 v, (C11_roundtrip_partial decimal_ok h p k).1 v ⟨hk, by simpa [decimal] using h0, hn⟩, round6_close v⟩

/-! ### Examples and counterexamples -/

/-- What is read after saving and loading into an empty map. -/
def reread (ps : List (String × ℚ)) (k : String) : Option ℚ :=
  load decimal (some (saveText decimal (ps.map fun p => (text p.1, p.2)))) (fun _ => none) (text k)

/-- Non-vacuity: numbers, a local and a global name. -/
example : let ps := [("10", (5 : ℚ) / 2), ("9", -1 / 3), ("_g", 7), ("x", 1)]
    Regular decimal (ps.map fun p => (text p.1, p.2)) ∧ reread ps "10" = some (5 / 2) ∧
      reread ps "9" = some (-333333 / 1000000) ∧ reread ps "_g" = some 7 ∧ reread ps "x" = none ∧
      reread ps "5220" = some 1 := by
  refine ⟨⟨by decide +kernel, ?_, ?_, by unfold Fits; decide +kernel⟩, by decide +kernel, by decide +kernel,
    by decide +kernel, by decide +kernel, by decide +kernel⟩
  · intro p hp
    simp only [List.map, List.mem_cons, List.not_mem_nil, or_false] at hp
    rcases hp with rfl | rfl | rfl | rfl
    · exact .inl ⟨10, by decide +kernel⟩
    · exact .inl ⟨9, by decide +kernel⟩
    · exact .inr ⟨_, _, rfl, by decide +kernel⟩
    · exact .inr ⟨_, _, rfl, by decide +kernel⟩
  · unfold Word; decide +kernel

/-- **A parameter with a negative number suppresses all numbers**: `#[0-1]=1` after `#7=5`. -/
theorem C11_negative_key : reread [("-1", 1), ("7", 5)] "7" = none ∧ reread [("7", 5)] "7" = some 5 := by
  constructor <;> decide +kernel

/-- **A name that starts with a digit overwrites a number**: `#< 7up>=1` after `#7=5`. -/
theorem C11_digit_name : reread [("7", 5), ("7up", 1)] "7" = some 1 := by decide +kernel

/-- **The selected coordinate system comes back as 1 if it is set to 0.** -/
theorem C11_selected_zero : reread [("5220", 0)] "5220" = some 1 := by decide +kernel

/-- **A long name loses decimals of its value**: the line is longer than the buffer. -/
theorem C11_long_name : load decimal (some (saveText decimal [(95 :: List.replicate 250 97, 13 / 8)]))
    (fun _ => none) (95 :: List.replicate 250 97) = some (8 / 5) := by decide +kernel

/-- C12, non-vacuity: a save killed between the two calls of `rename`. -/
example : ∃ d : Disk, SaveRun [1, 2] d
      ([.create, .append [1], .append [2], .rename .param .bak true] ++ [.rename .tmp .param true]) true ∧
    (d.run [.create, .append [1], .append [2], .rename .param .bak true]) .param = none ∧
    (d.run [.create, .append [1], .append [2], .rename .param .bak true]) .bak = some [9] :=
  ⟨fun n => if n = .param then some [9] else none, SaveRun.written [[1], [2]] true true rfl, rfl, rfl⟩

end BeagleG.ParamFile
