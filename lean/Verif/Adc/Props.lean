import Verif.Adc.Model
import Verif.Text.NumberProps
/-!
# C99: M105 and the analog inputs
-/
namespace BeagleG.Adc

open Text (Byte isSpace skipWhite)
open Text.Number (strtoll isDigit digitsValue Digits Sign Begins)
open Setup (ascii)

theorem digits_ok (n : Nat) : Digits (digits n) ∧ digits n ≠ [] ∧ digitsValue (digits n) = n := by
  induction n using Nat.strongRecOn with
  | ind n ih =>
    have one : ∀ d, d < 10 → isDigit (UInt8.ofNat (48 + d)) = true ∧ (UInt8.ofNat (48 + d)).toNat - 48 = d := by decide
    rw [digits]
    split
    · rename_i h
      obtain ⟨a, b⟩ := one n h
      refine ⟨fun c hc => ?_, by simp, ?_⟩
      · rw [List.mem_singleton] at hc; subst hc; exact a
      · simp only [digitsValue, List.foldl_cons, List.foldl_nil, b]; omega
    · rename_i h
      obtain ⟨i1, i2, i3⟩ := ih (n / 10) (by omega)
      obtain ⟨a, b⟩ := one (n % 10) (Nat.mod_lt _ (by decide))
      refine ⟨fun c hc => ?_, by simp, ?_⟩
      · rcases List.mem_append.1 hc with hc | hc
        · exact i1 c hc
        · rw [List.mem_singleton] at hc; subst hc; exact a
      · unfold digitsValue at i3 ⊢
        rw [List.foldl_append, i3]
        simp only [List.foldl_cons, List.foldl_nil, b]
        omega

theorem digits_length (w n : Nat) (hw : 0 < w) (h : n < 10 ^ w) : (digits n).length ≤ w := by
  induction w generalizing n with
  | zero => omega
  | succ w ih =>
    rw [digits]
    split
    · simp
    · rename_i h10
      rcases Nat.eq_zero_or_pos w with rfl | hw'
      · simp at h; omega
      · have := ih (n / 10) hw' (by rw [Nat.pow_succ] at h; omega)
        simp only [List.length_append, List.length_singleton]
        omega

/-- The sign of a number. -/
def signOf (v : Int) : Sign := if v < 0 then .minus else .none

theorem showInt_eq (v : Int) : showInt v = (signOf v).text ++ digits v.natAbs := by
  unfold showInt signOf
  split <;> rfl

/-- **C99, reading**: any number of 32 bits in decimal, after white space and followed by something that is no digit, is read as it is. -/
theorem C99_number {ws : List Byte} (hws : ∀ c ∈ ws, isSpace c = true) (v : Int) (hv : -2 ^ 31 ≤ v ∧ v < 2 ^ 31) (rest : List Byte)
    (hr : ∀ c r, rest = c :: r → isDigit c = false) : strtol (ws ++ (showInt v ++ rest)) = v := by
  obtain ⟨d1, d2, d3⟩ := digits_ok v.natAbs
  have hbeg : Begins (digits v.natAbs ++ rest) := by
    rcases hd : digits v.natAbs with _ | ⟨c, ds⟩
    · exact absurd hd d2
    · exact ⟨c, ds ++ rest, rfl, .inl (d1 c (by rw [hd]; exact List.mem_cons_self))⟩
  have hskip : skipWhite (ws ++ (showInt v ++ rest)) = (signOf v).text ++ (digits v.natAbs ++ rest) := by
    rw [showInt_eq, List.append_assoc]
    exact Text.Number.skipWhite_blank hws (Text.Number.signed_notSpace hbeg)
  unfold strtol strtoll
  dsimp only
  rw [hskip, Text.Number.sign_text _ hbeg]
  dsimp only
  rw [d1.take hr, if_neg d2, d3]
  dsimp only
  unfold signOf
  by_cases h : v < 0
  · have : (v.natAbs : Int) = -v := by omega
    rw [if_pos h, this]
    simp only [Sign.factor, decide_true, if_true]
    omega
  · have : (v.natAbs : Int) = v := by omega
    rw [if_neg h, this]
    have : decide (Sign.none.factor = -1) = false := by decide
    rw [this]
    simp only [Bool.false_eq_true, if_false]
    omega

theorem showInt_chars (v : Int) : ∀ c ∈ showInt v, c ≠ 10 ∧ c ≠ 0 := by
  intro c hc
  rw [showInt_eq] at hc
  rcases List.mem_append.1 hc with h | h
  · unfold signOf at h
    split at h
    · simp only [Sign.text, List.mem_singleton] at h; subst h; decide
    · cases h
  · have := (digits_ok v.natAbs).1 c h
    constructor <;> exact Text.Number.digit_ne this (by decide)

theorem showInt_length (v : Int) (hv : -2 ^ 31 ≤ v ∧ v < 2 ^ 31) : (showInt v).length ≤ 11 := by
  have := digits_length 10 v.natAbs (by decide) (by omega)
  unfold showInt
  split
  · simp only [List.length_cons]; omega
  · omega

theorem takeWhile_all {p : Byte → Bool} {l : List Byte} (h : ∀ c ∈ l, p c = true) : l.takeWhile p = l := by
  have := List.takeWhile_append_of_pos (l₂ := []) h
  simpa using this

theorem readLine (v : Int) (hv : -2 ^ 31 ≤ v ∧ v < 2 ^ 31) (more : List Byte) :
    (fgets 31 (showInt v ++ 10 :: more)).map atoi = some v ∧ (fgets 31 (showInt v)).map atoi = some v := by
  have hl := showInt_length v hv
  have hc := showInt_chars v
  have hne : showInt v ≠ [] := by
    rw [showInt_eq]
    exact List.append_ne_nil_of_right_ne_nil _ (digits_ok _).2.1
  have ht : ∀ t, (showInt v ++ 10 :: t).takeWhile (· ≠ 10) = showInt v := by
    intro t
    rw [List.takeWhile_append_of_pos (by intro c h; simpa using (hc c h).1)]
    simp
  have ht' : (showInt v).takeWhile (· ≠ 10) = showInt v := by
    apply takeWhile_all
    intro c h
    simpa using (hc c h).1
  have hz : ∀ t : List Byte, (∀ c ∈ t, c ≠ 0) → (showInt v ++ t).takeWhile (· ≠ 0) = showInt v ++ t := by
    intro t htz
    apply takeWhile_all
    intro c h
    rcases List.mem_append.1 h with h | h
    · simpa using (hc c h).2
    · simpa using htz c h
  constructor
  · unfold fgets
    rw [if_neg (by simp), ht, if_pos (by simp)]
    dsimp only
    rw [List.take_of_length_le (by simp; omega), Option.map_some]
    congr 1
    unfold atoi
    rw [hz [10] (by decide)]
    have := C99_number (ws := []) (by simp) v hv [10] (by intro c r e; cases e; decide)
    simpa using this
  · unfold fgets
    have hn : (10 : Byte) ∉ showInt v := fun h => (hc 10 h).1 rfl
    rw [if_neg hne, ht', if_neg hn, List.append_nil]
    dsimp only
    rw [List.take_of_length_le (by omega), Option.map_some]
    congr 1
    unfold atoi
    have h0 := hz [] (by simp)
    rw [List.append_nil] at h0
    rw [h0]
    have := C99_number (ws := []) (by simp) v hv [] (by intro c r e; cases e)
    simpa using this

/-- **C99, channels**: a channel from 0 to 7 has the value its file says, in a line or alone; it is -1 if the file cannot be opened
or has nothing; any other channel is -1 and no file is read. -/
theorem C99_channel (file : List Byte → Option (List Byte)) (chan : Int) :
    (∀ v more, 0 ≤ chan → chan ≤ 7 → -2 ^ 31 ≤ v → v < 2 ^ 31 →
      (file (node chan.toNat) = some (showInt v ++ 10 :: more) ∨ file (node chan.toNat) = some (showInt v)) → readRaw file chan = v) ∧
    (file (node chan.toNat) = none ∨ file (node chan.toNat) = some [] → readRaw file chan = -1) ∧
    (chan < 0 ∨ 7 < chan → readRaw file chan = -1) := by
  refine ⟨?_, ?_, ?_⟩
  · intro v more h0 h7 v1 v2 hf
    obtain ⟨r1, r2⟩ := readLine v ⟨v1, v2⟩ more
    have key : ∀ s, (fgets 31 s).map atoi = some v → atoi ((fgets 31 s).getD (ascii "-1")) = v := by
      intro s hs
      rcases h : fgets 31 s with _ | b
      · rw [h] at hs; cases hs
      · rw [h] at hs; exact Option.some.inj hs
    unfold readRaw
    rw [if_neg (by omega)]
    rcases hf with hf | hf
    · rw [hf]; exact key _ r1
    · rw [hf]; exact key _ r2
  · intro hf
    unfold readRaw
    split
    · rfl
    · rcases hf with hf | hf
      · rw [hf]
      · rw [hf]; decide +kernel
  · intro h
    unfold readRaw
    rw [if_pos h]

/-- The names of the files are those of different channels. -/
theorem C99_files : ∀ a < 8, ∀ b < 8, node a = node b → a = b := by decide +kernel

theorem channelText_plain (file : List Byte → Option (List Byte)) (chan : Nat) : ∀ c ∈ channelText file chan, c ≠ 10 := by
  intro c hc
  unfold channelText at hc
  simp only [List.mem_append, List.mem_singleton] at hc
  rcases hc with (((h | h) | h) | h) | h
  · revert c; decide
  · exact (showInt_chars _ c h).1
  · subst h; decide
  · exact (showInt_chars _ c h).1
  · subst h; decide

/-- **C99, the answer** to M105 is a comment of one line with the channels 0 to 7 in order, and a line with a temperature; whatever the files say.
Nothing is printed if nobody listens. -/
theorem C99_answer (file : List Byte → Option (List Byte)) : m105 file false = [] ∧
    ∃ values, m105 file true = ascii "// " ++ values ++ [10] ++ ascii "T-300\n" ∧ (∀ c ∈ values, c ≠ 10) ∧
      values = (List.range 8).flatMap fun k : Nat => ascii "RAW" ++ showInt k ++ [58] ++ showInt (readRaw file k) ++ [32] := by
  refine ⟨rfl, _, rfl, ?_, rfl⟩
  intro c hc
  obtain ⟨k, -, hk⟩ := List.mem_flatMap.1 hc
  exact channelText_plain file k c hk

/-- **C99, as it is**: if the eight files have a number of 32 bits in a line, then these numbers are printed as they are in the files. -/
theorem C99_verbatim (file : List Byte → Option (List Byte)) (value : Nat → Int)
    (h : ∀ k < 8, file (node k) = some (showInt (value k) ++ [10]) ∧ -2 ^ 31 ≤ value k ∧ value k < 2 ^ 31) :
    m105 file true = ascii "// " ++ ((List.range 8).flatMap fun k : Nat => ascii "RAW" ++ showInt k ++ [58] ++ showInt (value k) ++ [32]) ++
      [10] ++ ascii "T-300\n" := by
  have e : ∀ k ∈ List.range 8, channelText file k = ascii "RAW" ++ showInt k ++ [58] ++ showInt (value k) ++ [32] := by
    intro k hk
    rw [List.mem_range] at hk
    obtain ⟨a, b, c⟩ := h k hk
    unfold channelText
    rw [(C99_channel file k).1 (value k) [] (by omega) (by omega) b c (.inl (by simpa using a))]
  unfold m105
  rw [if_pos rfl]
  congr 3
  exact List.flatMap_congr e

/-- **C99, violated**: a file without a number reads as 0, a number of more than 31 digits loses the rest of its line, and -1 is both a value and
an error. -/
theorem C99_text : (∀ v, readRaw (fun _ => some (ascii "busy\n")) v = if v < 0 ∨ 7 < v then -1 else 0) ∧
    readRaw (fun _ => some (List.replicate 31 48 ++ ascii "7\n")) 0 = 0 ∧
    readRaw (fun _ => some (ascii "-1\n")) 0 = readRaw (fun _ => none) 0 := by
  refine ⟨fun v => ?_, by decide +kernel, by decide +kernel⟩
  unfold readRaw
  split
  · rfl
  · show atoi _ = 0
    decide +kernel

example : m105 (fun n => if n = node 3 then some (ascii "1234\n") else none) true =
    ascii "// RAW0:-1 RAW1:-1 RAW2:-1 RAW3:1234 RAW4:-1 RAW5:-1 RAW6:-1 RAW7:-1 \nT-300\n" := by decide +kernel

end BeagleG.Adc
