import Verif.Setup.Model
import Verif.Text.StringProps
/-!
# C61: integers in the configuration
-/
namespace BeagleG.Setup

open Text

/-- `s` begins with the decimal number `v`, of at most 32 bits, behind blanks and signs: any blanks, one `+` if wanted,
one `-` for a negative number, digits. -/
structure StartsWith (s : List Byte) (v : Int) (rest : List Byte) : Prop where
  text : ∃ blanks plus minus digits, s = blanks ++ (plus ++ (minus ++ (digits ++ rest))) ∧ AllSpace blanks ∧
    (plus = [] ∨ plus = [43]) ∧ digits ≠ [] ∧ (∀ c ∈ digits, isDigit c = true) ∧
    ((minus = [] ∧ v = digitsValue digits) ∨ (minus = [45] ∧ v = -(digitsValue digits : Int)))
  ended : ∀ c, rest.head? = some c → isDigit c = false
  fits : -2 ^ 31 ≤ v ∧ v < 2 ^ 31

theorem takeWhile_append_stop {p : Byte → Bool} : ∀ (l r : List Byte), (∀ c ∈ l, p c = true) →
    (∀ c, r.head? = some c → p c = false) → (l ++ r).takeWhile p = l ∧ (l ++ r).dropWhile p = r
  | [], [], _, _ => ⟨rfl, rfl⟩
  | [], c :: r, _, h => by
    have := h c rfl
    simp [this]
  | c :: l, r, hl, h => by
    have h1 := hl c (by simp)
    obtain ⟨i1, i2⟩ := takeWhile_append_stop l r (fun d hd => hl d (by simp [hd])) h
    simp [h1, i1, i2]

theorem mem_takeWhile {p : Byte → Bool} {c : Byte} : ∀ {l : List Byte}, c ∈ l.takeWhile p → p c = true
  | d :: l, h => by
    rw [List.takeWhile_cons] at h
    by_cases hd : p d = true
    · rw [if_pos hd] at h
      rcases List.mem_cons.1 h with rfl | h
      · exact hd
      · exact mem_takeWhile h
    · rw [if_neg hd] at h; cases h

/-- Removing one `+`. -/
def dropPlus : List Byte → List Byte
  | 43 :: s => s
  | s => s

/-- Removing one `-`. -/
def takeMinus : List Byte → Bool × List Byte
  | 45 :: s => (true, s)
  | s => (false, s)

theorem dropPlus_split (s : List Byte) : ∃ p, (p = [] ∨ p = [43]) ∧ s = p ++ dropPlus s := by
  unfold dropPlus
  split
  · exact ⟨[43], .inr rfl, rfl⟩
  · exact ⟨[], .inl rfl, rfl⟩

theorem dropPlus_other (s : List Byte) (h : s.head? ≠ some 43) : dropPlus s = s := by
  unfold dropPlus
  split
  · exact absurd rfl h
  · rfl

theorem takeMinus_other (s : List Byte) (h : s.head? ≠ some 45) : takeMinus s = (false, s) := by
  unfold takeMinus
  split
  · exact absurd rfl h
  · rfl

theorem parseInt_eq (value : List Byte) : parseInt value =
    if ((takeMinus (dropPlus (value.dropWhile isSpace))).2.takeWhile isDigit) = [] then none
    else
      if -2 ^ 31 ≤ (if (takeMinus (dropPlus (value.dropWhile isSpace))).1
          then -(digitsValue ((takeMinus (dropPlus (value.dropWhile isSpace))).2.takeWhile isDigit) : Int)
          else digitsValue ((takeMinus (dropPlus (value.dropWhile isSpace))).2.takeWhile isDigit)) ∧
        (if (takeMinus (dropPlus (value.dropWhile isSpace))).1
          then -(digitsValue ((takeMinus (dropPlus (value.dropWhile isSpace))).2.takeWhile isDigit) : Int)
          else digitsValue ((takeMinus (dropPlus (value.dropWhile isSpace))).2.takeWhile isDigit)) < 2 ^ 31
      then some (if (takeMinus (dropPlus (value.dropWhile isSpace))).1
          then -(digitsValue ((takeMinus (dropPlus (value.dropWhile isSpace))).2.takeWhile isDigit) : Int)
          else digitsValue ((takeMinus (dropPlus (value.dropWhile isSpace))).2.takeWhile isDigit))
      else none := rfl

theorem digit_plain {c : Byte} (h : isDigit c = true) : isSpace c = false ∧ c ≠ 43 ∧ c ≠ 45 := by
  refine ⟨?_, ?_, ?_⟩
  · unfold isDigit at h
    unfold isSpace
    simp only [Bool.and_eq_true, decide_eq_true_eq, UInt8.le_iff_toNat_le] at h
    have h1 : (48 : UInt8).toNat = 48 := rfl
    have h2 : (57 : UInt8).toNat = 57 := rfl
    have h3 : (13 : UInt8).toNat = 13 := rfl
    rw [h1, h2] at h
    have n1 : ¬c ≤ 13 := by rw [UInt8.le_iff_toNat_le, h3]; omega
    have n2 : c ≠ 32 := by rintro rfl; exact absurd h.1 (by decide)
    simp [n1, n2]
  · rintro rfl; exact absurd h (by decide)
  · rintro rfl; exact absurd h (by decide)

/-- **C61, integers**: an integer is accepted if and only if the text begins with one, as described by `StartsWith`. What
follows it is not looked at. -/
theorem C61_int (value : List Byte) (v : Int) : parseInt value = some v ↔ ∃ rest, StartsWith value v rest := by
  constructor
  · intro h
    rw [parseInt_eq] at h
    have hb : value = value.takeWhile isSpace ++ value.dropWhile isSpace := (List.takeWhile_append_dropWhile).symm
    obtain ⟨p, hp, hs⟩ := dropPlus_split (value.dropWhile isSpace)
    generalize dropPlus (value.dropWhile isSpace) = t at hs h
    have hm : ∃ m, t = m ++ (takeMinus t).2 ∧ ((m = [] ∧ (takeMinus t).1 = false) ∨ (m = [45] ∧ (takeMinus t).1 = true)) := by
      unfold takeMinus
      split
      · exact ⟨[45], rfl, .inr ⟨rfl, rfl⟩⟩
      · exact ⟨[], rfl, .inl ⟨rfl, rfl⟩⟩
    obtain ⟨m, hm1, hm2⟩ := hm
    generalize (takeMinus t).2 = u at hm1 h
    generalize (takeMinus t).1 = neg at hm2 h
    have hd : u = u.takeWhile isDigit ++ u.dropWhile isDigit := (List.takeWhile_append_dropWhile).symm
    have hds : ∀ c ∈ u.takeWhile isDigit, isDigit c = true := fun c hc => mem_takeWhile hc
    have hend : ∀ c, (u.dropWhile isDigit).head? = some c → isDigit c = false := fun c hc => by
      have := List.head?_dropWhile_not isDigit u
      rw [hc] at this
      simpa using this
    by_cases h0 : u.takeWhile isDigit = []
    · rw [if_pos h0] at h; cases h
    · rw [if_neg h0] at h
      generalize hds' : u.takeWhile isDigit = ds at *
      generalize u.dropWhile isDigit = rest at *
      by_cases hf : -2 ^ 31 ≤ (if neg = true then -(digitsValue ds : Int) else digitsValue ds) ∧
          (if neg = true then -(digitsValue ds : Int) else digitsValue ds) < 2 ^ 31
      · rw [if_pos hf] at h
        have hv := Option.some.inj h
        rw [hv] at hf
        refine ⟨rest, ⟨value.takeWhile isSpace, p, m, ds, ?_, fun c hc => mem_takeWhile hc, hp, h0, hds, ?_⟩, hend, hf⟩
        · rw [← hd, ← hm1, ← hs, ← hb]
        · rcases hm2 with ⟨rfl, rfl⟩ | ⟨rfl, rfl⟩
          · exact .inl ⟨rfl, by rw [← hv]; rfl⟩
          · exact .inr ⟨rfl, by rw [← hv]; rfl⟩
      · rw [if_neg hf] at h; cases h
  · rintro ⟨rest, ⟨w, p, m, ds, rfl, hw, hp, h0, hds, hm⟩, hend, hf⟩
    obtain ⟨d, ds', rfl⟩ := List.exists_cons_of_ne_nil h0
    obtain ⟨e1, e2, e3⟩ := digit_plain (hds d (by simp))
    have hnum : ∀ c, (m ++ ((d :: ds') ++ rest)).head? = some c → isSpace c = false ∧ c ≠ 43 := by
      intro c hc
      rcases hm with ⟨rfl, _⟩ | ⟨rfl, _⟩
      · simp at hc; subst hc; exact ⟨e1, e2⟩
      · simp at hc; subst hc; exact ⟨by decide, by decide⟩
    have hsp : ∀ c, (p ++ (m ++ ((d :: ds') ++ rest))).head? = some c → isSpace c = false := by
      intro c hc
      rcases hp with rfl | rfl
      · exact (hnum c hc).1
      · simp at hc; subst hc; decide
    have s1 : (w ++ (p ++ (m ++ ((d :: ds') ++ rest)))).dropWhile isSpace = p ++ (m ++ ((d :: ds') ++ rest)) :=
      (takeWhile_append_stop w _ hw hsp).2
    have s2 : dropPlus (p ++ (m ++ ((d :: ds') ++ rest))) = m ++ ((d :: ds') ++ rest) := by
      rcases hp with rfl | rfl
      · exact dropPlus_other _ fun h => (hnum 43 h).2 rfl
      · rfl
    have s3 : ((d :: ds') ++ rest).takeWhile isDigit = d :: ds' := (takeWhile_append_stop _ _ hds hend).1
    rw [parseInt_eq, s1, s2]
    rcases hm with ⟨rfl, hv⟩ | ⟨rfl, hv⟩
    · have s4 : takeMinus ([] ++ ((d :: ds') ++ rest)) = (false, (d :: ds') ++ rest) :=
        takeMinus_other _ (by simp [e3])
      rw [s4]
      dsimp only
      rw [s3, if_neg h0]
      simp only [Bool.false_eq_true, if_false]
      rw [← hv, if_pos hf]
    · have s4 : takeMinus ([45] ++ ((d :: ds') ++ rest)) = (true, (d :: ds') ++ rest) := rfl
      rw [s4]
      dsimp only
      rw [s3, if_neg h0]
      simp only [if_true]
      rw [← hv, if_pos hf]

/-- What follows the number is ignored: ten minutes are taken for ten seconds. -/
theorem C61_int_tail : parseInt (ascii "10min") = some 10 := by decide

example : parseInt (ascii " +42") = some 42 ∧ parseInt (ascii "-1") = some (-1) ∧ parseInt (ascii "x") = none ∧
    parseInt (ascii "99999999999") = none := by decide

end BeagleG.Setup
