import Verif.Text.Model
import Mathlib.Tactic.ByContra
import Mathlib.Tactic.Tauto
/-!
# C06: splitting and trimming lose nothing
-/
namespace BeagleG.Text

/-! ### Specification -/

/-- White space only. -/
def AllSpace (l : List Byte) : Prop := ∀ c ∈ l, isSpace c = true

/-- No white space at either end. -/
def Trimmed (t : List Byte) : Prop := (∀ c, t.head? = some c → isSpace c = false) ∧ ∀ c, t.getLast? = some c → isSpace c = false

/-- `t` is what is left of `s` without the white space at both ends. -/
def IsTrimOf (t s : List Byte) : Prop := ∃ a b, s = a ++ t ++ b ∧ AllSpace a ∧ AllSpace b ∧ Trimmed t

/-- Pieces and the separators between them. -/
def interleave : List (List Byte) → List Byte → List Byte
  | [], _ => []
  | p :: ps, [] => p ++ interleave ps []
  | p :: ps, c :: cs => p ++ c :: interleave ps cs

/-! ### Trimming -/

theorem trimStart_spec (s : List Byte) : ∀ (n start : Nat), start + n = s.length →
    start ≤ trimStart s start n ∧ trimStart s start n ≤ s.length ∧
      (∀ i, start ≤ i → i < trimStart s start n → ∃ c, s[i]? = some c ∧ isSpace c = true) ∧
      (∀ c, s[trimStart s start n]? = some c → isSpace c = false)
  | 0, start, h => by
    refine ⟨Nat.le_refl _, by simp [trimStart]; omega, by intro i h1 h2; simp [trimStart] at h2; omega, ?_⟩
    intro c hc
    simp [trimStart] at hc
    have := List.getElem?_eq_none (l := s) (i := start) (by omega)
    rw [this] at hc; cases hc
  | n + 1, start, h => by
    have hlt : start < s.length := by omega
    have hg : s[start]? = some s[start] := List.getElem?_eq_getElem hlt
    simp only [trimStart, hg]
    by_cases hsp : isSpace s[start] = true
    · rw [if_pos hsp]
      obtain ⟨i1, i2, i3, i4⟩ := trimStart_spec s n (start + 1) (by omega)
      refine ⟨by omega, i2, ?_, i4⟩
      intro i h1 h2
      by_cases e : i = start
      · subst e; exact ⟨_, hg, hsp⟩
      · exact i3 i (by omega) h2
    · rw [if_neg hsp]
      refine ⟨Nat.le_refl _, by omega, by intro i h1 h2; omega, ?_⟩
      intro c hc
      rw [hg] at hc
      injection hc with hc
      subst hc; simpa using hsp

theorem trimEnd_spec (s : List Byte) (start : Nat) : ∀ (e : Nat), e ≤ s.length → start < e →
    start < trimEnd s start e ∧ trimEnd s start e ≤ e ∧
      (∀ i, trimEnd s start e ≤ i → i < e → ∃ c, s[i]? = some c ∧ isSpace c = true) ∧
      (start + 1 < trimEnd s start e → ∀ c, s[trimEnd s start e - 1]? = some c → isSpace c = false)
  | 0, _, h => by omega
  | e + 1, h, hs => by
    simp only [trimEnd]
    by_cases he : e > start
    · have hg : s[e]? = some s[e] := List.getElem?_eq_getElem (by omega)
      simp only [if_pos he, hg]
      by_cases hsp : isSpace s[e] = true
      · rw [if_pos hsp]
        obtain ⟨i1, i2, i3, i4⟩ := trimEnd_spec s start e (by omega) he
        refine ⟨i1, by omega, ?_, i4⟩
        intro i h1 h2
        by_cases e' : i = e
        · subst e'; exact ⟨_, hg, hsp⟩
        · exact i3 i h1 (by omega)
      · rw [if_neg hsp]
        refine ⟨by omega, Nat.le_refl _, by intro i h1 h2; omega, ?_⟩
        intro _ c hc
        rw [Nat.add_sub_cancel, hg] at hc
        injection hc with hc
        subst hc; simpa using hsp
    · simp only [if_neg he]
      exact ⟨by omega, Nat.le_refl _, by intro i h1 h2; omega, by intro hh; omega⟩

theorem mem_of_range {s : List Byte} {a b : Nat} {P : Byte → Prop}
    (h : ∀ i, a ≤ i → i < b → ∃ c, s[i]? = some c ∧ P c) :
    ∀ c ∈ (s.drop a).take (b - a), P c := by
  intro c hc
  obtain ⟨i, hi, rfl⟩ := List.mem_iff_getElem.1 hc
  simp at hi
  obtain ⟨c, h1, h2⟩ := h (a + i) (by omega) (by omega)
  have : s[a + i]? = some s[a + i] := List.getElem?_eq_getElem (by omega)
  rw [this] at h1
  injection h1 with h1
  simp [h1, h2]

/-- C06. `TrimWhitespace` removes all white space at both ends and nothing else. -/
theorem C06_trim (s : List Byte) : IsTrimOf (trimWhitespace s) s := by
  obtain ⟨h1, h2, h3, h4⟩ := trimStart_spec s s.length 0 (by omega)
  unfold trimWhitespace
  generalize trimStart s 0 s.length = start at *
  have hA : AllSpace (s.take start) := by
    have := mem_of_range h3
    rw [Nat.sub_zero, List.drop_zero] at this
    exact this
  by_cases hlt : start < s.length
  · obtain ⟨e1, e2, e3, e4⟩ := trimEnd_spec s start s.length (Nat.le_refl _) hlt
    simp only
    generalize trimEnd s start s.length = e at *
    refine ⟨s.take start, s.drop e, ?_, hA, ?_, ?_, ?_⟩
    · have : s.drop e = (s.drop start).drop (e - start) := by
        rw [List.drop_drop]; congr 1; omega
      rw [this, List.append_assoc, List.take_append_drop, List.take_append_drop]
    · have := mem_of_range e3
      rw [List.take_of_length_le (by simp)] at this
      exact this
    · intro c hc
      have : ((s.drop start).take (e - start)).head? = s[start]? := by
        rw [List.head?_take, if_neg (by omega), List.head?_drop]
      rw [this] at hc
      exact h4 c hc
    · intro c hc
      have hl : ((s.drop start).take (e - start)).getLast? = s[e - 1]? := by
        rw [List.getLast?_eq_getElem?, List.getElem?_take, List.getElem?_drop]
        simp only [List.length_take, List.length_drop]
        rw [if_pos (by omega)]
        congr 1; omega
      rw [hl] at hc
      by_cases hh : start + 1 < e
      · exact e4 hh c hc
      · have : e - 1 = start := by omega
        rw [this] at hc
        exact h4 c hc
  · have hs : start = s.length := by omega
    refine ⟨s, [], ?_, ?_, ?_, ?_, ?_⟩
    · simp [hs]
    · rw [hs, List.take_length] at hA; exact hA
    · intro c hc; simp at hc
    · simp [hs]
    · simp [hs]

/-- C06. The result is determined by that. -/
theorem C06_trim_unique (s t t' : List Byte) (h : IsTrimOf t s) (h' : IsTrimOf t' s) : t = t' := by
  have key : ∀ (a a' x x' : List Byte), AllSpace a → AllSpace a' → (∀ c, x.head? = some c → isSpace c = false) →
      (∀ c, x'.head? = some c → isSpace c = false) → a ++ x = a' ++ x' → (AllSpace x → x = []) → (AllSpace x' → x' = []) →
      x = x' := by
    intro a
    induction a with
    | nil =>
      intro a' x x' _ ha' hx hx' he _ _
      cases a' with
      | nil => simpa using he
      | cons c a' =>
        have h1 := ha' c (by simp)
        rw [List.nil_append] at he
        subst he
        have := hx c (by simp)
        rw [h1] at this; cases this
    | cons c a ih =>
      intro a' x x' ha ha' hx hx' he k1 k2
      cases a' with
      | nil =>
        have h1 := ha c (by simp)
        rw [List.nil_append] at he
        subst he
        have := hx' c (by simp)
        rw [h1] at this; cases this
      | cons c' a' =>
        simp only [List.cons_append, List.cons.injEq] at he
        exact ih a' x x' (fun y hy => ha y (by simp [hy])) (fun y hy => ha' y (by simp [hy])) hx hx' he.2 k1 k2
  obtain ⟨a, b, e, ha, hb, ht⟩ := h
  obtain ⟨a', b', e', ha', hb', ht'⟩ := h'
  by_cases hall : AllSpace s
  · have nil : ∀ a t b, s = a ++ t ++ b → Trimmed t → t = [] := by
      intro a t b e ht
      cases t with
      | nil => rfl
      | cons c t =>
        have h1 := ht.1 c rfl
        have h2 := hall c (by rw [e]; simp)
        rw [h1] at h2; cases h2
    rw [nil a t b e ht, nil a' t' b' e' ht']
  · have hne : ∀ a t b, s = a ++ t ++ b → AllSpace a → AllSpace b → t ≠ [] := by
      rintro a t b e ha hb rfl
      apply hall
      rw [e]
      intro c hc
      simp at hc
      rcases hc with hc | hc
      · exact ha c hc
      · exact hb c hc
    have hn := hne a t b e ha hb
    have hn' := hne a' t' b' e' ha' hb'
    have headOf : ∀ (t b : List Byte), t ≠ [] → (t ++ b).head? = t.head? := by
      intro t b h; cases t with
      | nil => exact absurd rfl h
      | cons => rfl
    have notAll : ∀ (t b : List Byte), t ≠ [] → Trimmed t → AllSpace (t ++ b) → t ++ b = [] := by
      intro t b h ht hall
      cases t with
      | nil => exact absurd rfl h
      | cons c t =>
        have h1 := ht.1 c rfl
        have h2 := hall c (by simp)
        rw [h1] at h2; cases h2
    have e1 : t ++ b = t' ++ b' := by
      refine key a a' _ _ ha ha' ?_ ?_ ?_ (notAll t b hn ht) (notAll t' b' hn' ht')
      · rw [headOf t b hn]; exact ht.1
      · rw [headOf t' b' hn']; exact ht'.1
      · rw [← List.append_assoc, ← List.append_assoc, ← e, e']
    have e2 : t.reverse = t'.reverse := by
      have r1 : t.reverse ≠ [] := by simpa using hn
      have r2 : t'.reverse ≠ [] := by simpa using hn'
      refine key b.reverse b'.reverse _ _ ?_ ?_ ?_ ?_ ?_ ?_ ?_
      · intro c hc; exact hb c (by simpa using hc)
      · intro c hc; exact hb' c (by simpa using hc)
      · intro c hc; rw [List.head?_reverse] at hc; exact ht.2 c hc
      · intro c hc; rw [List.head?_reverse] at hc; exact ht'.2 c hc
      · rw [← List.reverse_append, ← List.reverse_append, e1]
      · intro hall'
        have := notAll t [] hn ht (by intro c hc; exact hall' c (by simpa using hc))
        simp at this; exact absurd this hn
      · intro hall'
        have := notAll t' [] hn' ht' (by intro c hc; exact hall' c (by simpa using hc))
        simp at this; exact absurd this hn'
    simpa using congrArg List.reverse e2

/-- C06. Trimming twice is trimming once. -/
theorem C06_trim_idempotent (s : List Byte) : trimWhitespace (trimWhitespace s) = trimWhitespace s := by
  obtain ⟨a, b, -, -, -, ht⟩ := C06_trim s
  refine C06_trim_unique (trimWhitespace s) _ _ (C06_trim _) ⟨[], [], by simp, ?_, ?_, ht⟩
  · intro c hc; simp at hc
  · intro c hc; simp at hc

/-! ### Splitting -/

/-- The same as a recursion on the text. -/
def pieces (separators : List Byte) : List Byte → List Byte → List (List Byte)
  | acc, [] => [acc]
  | acc, c :: cs => if separators.contains c then acc :: pieces separators [] cs else pieces separators (acc ++ [c]) cs

theorem splitLoop_pieces (seps : List Byte) : ∀ (rest pre acc : List Byte),
    splitLoop (pre ++ acc ++ rest) seps pre.length (pre.length + acc.length) rest.length = pieces seps acc rest
  | [], pre, acc => by simp [splitLoop, pieces]
  | c :: cs, pre, acc => by
    have hget : (pre ++ acc ++ c :: cs)[pre.length + acc.length]? = some c := by
      rw [List.getElem?_append_right (by simp)]; simp
    have htake : ((pre ++ acc ++ c :: cs).drop pre.length).take (pre.length + acc.length - pre.length) = acc := by
      simp
    simp only [List.length_cons, splitLoop, hget, pieces, htake]
    split
    · have := splitLoop_pieces seps cs (pre ++ acc ++ [c]) []
      simp only [List.append_nil, List.length_append, List.length_cons, List.length_nil] at this
      simp only [List.append_assoc, List.cons_append, List.nil_append] at this ⊢
      rw [← this]
    · have := splitLoop_pieces seps cs pre (acc ++ [c])
      simp only [List.length_append, List.length_cons, List.length_nil] at this
      simp only [List.append_assoc, List.cons_append, List.nil_append] at this ⊢
      rw [← this]; all_goals congr 1

theorem splitString_pieces (s seps : List Byte) : splitString s seps = pieces seps [] s := by
  have := splitLoop_pieces seps s [] []
  simpa [splitString] using this

theorem pieces_spec (seps : List Byte) : ∀ (s acc : List Byte), (∀ c ∈ acc, seps.contains c = false) →
    (pieces seps acc s).length = s.countP seps.contains + 1 ∧
      (∀ p ∈ pieces seps acc s, ∀ c ∈ p, seps.contains c = false) ∧
      interleave (pieces seps acc s) (s.filter seps.contains) = acc ++ s
  | [], acc, h => by
    refine ⟨by simp [pieces], ?_, by simp [pieces, interleave]⟩
    intro p hp
    simp [pieces] at hp; subst hp; exact h
  | c :: cs, acc, h => by
    simp only [pieces]
    by_cases hc : seps.contains c = true
    · rw [if_pos hc]
      obtain ⟨i1, i2, i3⟩ := pieces_spec seps cs [] (by simp)
      refine ⟨?_, ?_, ?_⟩
      · rw [List.length_cons, i1, List.countP_cons_of_pos hc]
      · intro p hp
        rcases List.mem_cons.1 hp with rfl | hp
        · exact h
        · exact i2 p hp
      · rw [List.filter_cons_of_pos hc, interleave, i3]; simp
    · rw [if_neg hc]
      obtain ⟨i1, i2, i3⟩ := pieces_spec seps cs (acc ++ [c]) (by
        intro x hx
        rcases List.mem_append.1 hx with hx | hx
        · exact h x hx
        · simp only [List.mem_singleton] at hx; subst hx; simpa using hc)
      refine ⟨?_, i2, ?_⟩
      · rw [i1, List.countP_cons_of_neg hc]
      · rw [List.filter_cons_of_neg hc, i3]; simp

/-- C06. One piece more than separators, no separator in a piece, and putting the pieces and the
separators together again gives the text. -/
theorem C06_split (s seps : List Byte) :
    (splitString s seps).length = s.countP seps.contains + 1 ∧
      (∀ p ∈ splitString s seps, ∀ c ∈ p, c ∉ seps) ∧
      interleave (splitString s seps) (s.filter seps.contains) = s := by
  rw [splitString_pieces]
  obtain ⟨h1, h2, h3⟩ := pieces_spec seps s [] (by simp)
  refine ⟨h1, ?_, by simpa using h3⟩
  intro p hp c hc hmem
  have := h2 p hp c hc
  simp [hmem] at this

/-! ### Prefixes -/

theorem strncmpEq_spec : ∀ (p s : List Byte), p.length ≤ s.length → (∀ c ∈ p, c ≠ 0) →
    strncmpEq s p p.length = some (decide (p <+: s))
  | [], s, _, _ => by simp [strncmpEq]
  | y :: p, [], h, _ => by simp at h
  | y :: p, x :: s, h, hz => by
    have hy : y ≠ 0 := hz y (by simp)
    simp only [List.length_cons, strncmpEq]
    by_cases hxy : x = y
    · subst hxy
      have := strncmpEq_spec p s (by simpa using h) fun c hc => hz c (by simp [hc])
      simp [hy, this, List.cons_prefix_cons]
    · have hyx : ¬ y = x := fun e => hxy e.symm
      simp [hxy, hyx, List.cons_prefix_cons]

/-- C06. `HasPrefix` is true exactly for prefixes, and reads nothing behind the strings. -/
theorem C06_hasPrefix (s p : List Byte) (hp : ∀ c ∈ p, c ≠ 0) : hasPrefix s p = some (decide (p <+: s)) := by
  unfold hasPrefix
  by_cases h : s.length < p.length
  · rw [if_pos h]
    have : ¬ p <+: s := fun hh => by have := hh.length_le; omega
    simp [this]
  · rw [if_neg h, strncmpEq_spec p s (by omega) hp]

/-- C06. `ToLower` changes only upper case letters, keeps the length and is idempotent. -/
theorem C06_toLower (s : List Byte) : (toLowerString s).length = s.length ∧
    toLowerString (toLowerString s) = toLowerString s ∧
    ∀ i (h : i < s.length), ¬ (65 ≤ s[i] ∧ s[i] ≤ 90) → (toLowerString s)[i]? = some s[i] := by
  have key : ∀ c : Byte, toLower (toLower c) = toLower c := by
    have h : ∀ n : Fin 256, toLower (toLower (UInt8.ofNat n)) = toLower (UInt8.ofNat n) := by decide +kernel
    intro c
    have := h ⟨c.toNat, c.toNat_lt⟩
    simpa using this
  refine ⟨by simp [toLowerString], by simp [toLowerString, key], ?_⟩
  intro i h hc
  simp only [toLowerString, List.getElem?_map, List.getElem?_eq_getElem h, Option.map_some, toLower, if_neg hc]

/-- Non-vacuity: " a b " and "a,,b;". -/
example : trimWhitespace [32, 97, 32, 98, 9] = [97, 32, 98] ∧ trimWhitespace [32, 10] = [] ∧ trimWhitespace [] = [] ∧
    splitString [97, 44, 44, 98, 59] [44, 59] = [[97], [], [98], []] ∧ hasPrefix [97, 98, 99] [97, 98] = some true := by
  decide +kernel

end BeagleG.Text
