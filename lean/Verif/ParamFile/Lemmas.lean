import Verif.ParamFile.Model
import Verif.Expr.Lemmas
import Mathlib.Data.List.Chain
/-!
# Helper lemmas about the parameter file
-/
namespace BeagleG.ParamFile
open Text Expr BeagleG.Parser

/-- A text that `%s` reads as a whole. -/
def Word (w : List Byte) : Prop := w ≠ [] ∧ ∀ c ∈ w, isSpace c = false ∧ c ≠ 0

theorem Word.noNewline {w : List Byte} (h : Word w) : ∀ c ∈ w, c ≠ 10 := by
  rintro c hc rfl
  have := (h.2 _ hc).1
  exact absurd this (by decide)

/-! ### Numbers -/

theorem digit_byte (d : Nat) (h : d < 10) : isDigit (UInt8.ofNat (48 + d)) = true ∧
    (UInt8.ofNat (48 + d)).toNat - 48 = d := by
  have : ∀ d : Fin 10, isDigit (UInt8.ofNat (48 + d)) = true ∧ (UInt8.ofNat (48 + d)).toNat - 48 = d := by
    decide +kernel
  exact this ⟨d, h⟩

theorem digitsValue_append (a : List Byte) (c : Byte) : digitsValue (a ++ [c]) = 10 * digitsValue a + (c.toNat - 48) := by
  simp [digitsValue]

theorem printGo_digits : ∀ (f n : Nat), n ≤ f → printGo f n ≠ [] ∧ (∀ c ∈ printGo f n, isDigit c = true) ∧
    digitsValue (printGo f n) = n
  | 0, n, h => by
    have : n = 0 := by omega
    subst this
    refine ⟨by simp [printGo], ?_, rfl⟩
    intro c hc
    simp only [printGo, List.mem_singleton] at hc
    subst hc
    exact (digit_byte 0 (by omega)).1
  | f + 1, n, h => by
    simp only [printGo]
    split
    · rename_i h10
      obtain ⟨h1, h2⟩ := digit_byte n h10
      refine ⟨by simp, ?_, ?_⟩
      · intro c hc
        simp only [List.mem_singleton] at hc
        subst hc
        exact h1
      · simp only [digitsValue, List.foldl]
        omega
    · obtain ⟨a1, a2, a3⟩ := printGo_digits f (n / 10) (by omega)
      obtain ⟨h1, h2⟩ := digit_byte (n % 10) (by omega)
      refine ⟨by simp, ?_, ?_⟩
      · intro c hc
        rcases List.mem_append.1 hc with hc | hc
        · exact a2 c hc
        · simp only [List.mem_singleton] at hc
          subst hc
          exact h1
      · rw [digitsValue_append, a3, h2]
        omega

theorem takeDigits_all : ∀ (l r : List Byte), (∀ c ∈ l, isDigit c = true) → (∀ c ∈ r.head?, isDigit c = false) →
    takeDigits (l ++ r) = l
  | [], [], _, _ => rfl
  | [], c :: r, _, h => by
    have := h c rfl
    simp [takeDigits, this]
  | c :: l, r, h, hr => by
    simp only [List.cons_append, takeDigits]
    rw [if_pos (h c (by simp)), takeDigits_all l r (fun d hd => h d (by simp [hd])) hr]

theorem printNat_digits (n : Nat) : printNat n ≠ [] ∧ (∀ c ∈ printNat n, isDigit c = true) ∧
    digitsValue (printNat n) = n := printGo_digits n n (Nat.le_refl _)

theorem atoi_printNat (n : Nat) : atoi (printNat n) = n := by
  have h := printNat_digits n
  unfold atoi
  have := takeDigits_all (printNat n) [] h.2.1 (by simp)
  rw [List.append_nil] at this
  rw [this, h.2.2]

theorem isDigit_facts : ∀ c : Byte, isDigit c = true → isSpace c = false ∧ c ≠ 0 := by
  intro c h
  have : ∀ c : Fin 256, isDigit (UInt8.ofNat c) = true → isSpace (UInt8.ofNat c) = false ∧ UInt8.ofNat c ≠ 0 := by
    decide +kernel
  have := this ⟨c.toNat, c.toNat_lt⟩ (by simpa only [UInt8.ofNat_toNat] using h)
  simpa only [UInt8.ofNat_toNat] using this

theorem word_printNat (n : Nat) : Word (printNat n) :=
  ⟨(printNat_digits n).1, fun c hc => isDigit_facts c ((printNat_digits n).2.1 c hc)⟩

theorem startsDigit_printNat (n : Nat) : startsDigit (printNat n) = true := by
  have h := printNat_digits n
  cases e : printNat n with
  | nil => exact absurd e h.1
  | cons c cs => exact h.2.1 c (by rw [e]; simp)

theorem printNat_inj {a b : Nat} (h : printNat a = printNat b) : a = b := by
  rw [← atoi_printNat a, ← atoi_printNat b, h]

/-! ### Reading lines -/

theorem fgets_line : ∀ (n : Nat) (a rest : List Byte), (∀ c ∈ a, c ≠ 10) → a.length < n →
    fgets n (a ++ 10 :: rest) = (a ++ [10], rest)
  | 0, _, _, _, h => by omega
  | n + 1, [], rest, _, _ => by simp [fgets]
  | n + 1, c :: a, rest, h, hl => by
    simp only [List.cons_append, fgets]
    rw [if_neg (h c (by simp)), fgets_line n a rest (fun d hd => h d (by simp [hd])) (by simp at hl; omega)]

/-- A line that `fgets` reads as a whole. -/
def Line (l : List Byte) : Prop := ∃ a, l = a ++ [10] ∧ (∀ c ∈ a, c ≠ 10) ∧ a.length < 255

theorem fileLines_flatten : ∀ (n : Nat) (ls : List (List Byte)), (∀ l ∈ ls, Line l) → ls.flatten.length < n →
    fileLines n ls.flatten = ls
  | 0, _, _, h => by omega
  | n + 1, [], _, _ => by simp [fileLines]
  | n + 1, l :: ls, h, hn => by
    obtain ⟨a, rfl, h1, h2⟩ := h l (by simp)
    have hf := fgets_line 255 a ls.flatten h1 h2
    have e : ((a ++ [10]) :: ls).flatten = a ++ 10 :: ls.flatten := by simp
    have ih := fileLines_flatten n ls (fun l hl => h l (by simp [hl])) (by
      rw [e] at hn; simp at hn ⊢; omega)
    rw [e]
    cases hc : a ++ 10 :: ls.flatten with
    | nil => simp at hc
    | cons c cs =>
      simp only [fileLines]
      rw [← hc, hf]
      simp only [ih]

/-! ### The entries -/

variable {V : Type} {cd : Codec V} {rnd : V → V}

/-- What printing and reading a value must satisfy: it is printed as one word and read back as `rnd` of it, and
the heading is not a number. -/
structure CodecOk (cd : Codec V) (rnd : V → V) : Prop where
  word : ∀ v, Word (cd.print v)
  scan : ∀ v, cd.scan (cd.print v ++ [10]) = some (rnd v)
  heading : cd.scan (skipWhite (heading.drop 2)) = none

theorem takeWhile_all {P : Byte → Bool} : ∀ {l r : List Byte}, (∀ c ∈ l, P c = true) →
    (l ++ r).takeWhile P = l ++ r.takeWhile P ∧ (l ++ r).dropWhile P = r.dropWhile P
  | [], r, _ => ⟨rfl, rfl⟩
  | c :: l, r, h => by
    have hc := h c (by simp)
    obtain ⟨h1, h2⟩ := takeWhile_all (l := l) (r := r) fun d hd => h d (by simp [hd])
    simp [hc, h1, h2]

theorem skipWhite_word {w r : List Byte} (h : Word w) : skipWhite (w ++ r) = w ++ r := by
  cases w with
  | nil => exact absurd rfl h.1
  | cons c cs => exact skipWhite_of_head (h.2 c (by simp)).1

theorem scan_entry (ok : CodecOk cd rnd) {name : List Byte} (hn : Word name) (v : V) :
    scanLine cd (entry cd name v) = some (name, rnd v) := by
  have h0 : (entry cd name v).takeWhile (fun c => decide (c ≠ 0)) = entry cd name v := by
    have : ∀ c ∈ entry cd name v, decide (c ≠ 0) = true := by
      intro c hc
      simp only [entry, List.mem_append, List.mem_singleton] at hc
      rcases hc with ((hc | hc) | hc) | hc
      · simpa using (hn.2 c hc).2
      · subst hc; decide
      · simpa using ((ok.word v).2 c hc).2
      · subst hc; decide
    simpa using (takeWhile_all (r := []) this).1
  have e : entry cd name v = name ++ (9 :: (cd.print v ++ [10])) := by simp [entry]
  have hP : ∀ c ∈ name, (!isSpace c) = true := fun c hc => by simp [(hn.2 c hc).1]
  unfold scanLine
  simp only [h0]
  rw [e, skipWhite_word hn, (takeWhile_all hP).1, (takeWhile_all hP).2]
  have h9 : isSpace 9 = true := by decide
  simp only [List.takeWhile, List.dropWhile, h9, Bool.not_true, List.append_nil]
  rw [if_neg hn.1]
  have : skipWhite (9 :: (cd.print v ++ [10])) = cd.print v ++ [10] := by
    simp only [skipWhite, h9, if_true]
    exact skipWhite_word (ok.word v)
  rw [this, ok.scan]
  rfl

/-- The entry can be read in one piece. -/
def Fits (cd : Codec V) (name : List Byte) (v : V) : Prop := name.length + (cd.print v).length + 2 ≤ 255

theorem entry_isLine (ok : CodecOk cd rnd) {name : List Byte} {v : V} (hn : Word name) (hf : Fits cd name v) :
    Line (entry cd name v) := by
  refine ⟨name ++ [9] ++ cd.print v, rfl, ?_, ?_⟩
  · intro c hc
    simp only [List.mem_append, List.mem_singleton] at hc
    rcases hc with (hc | hc) | hc
    · exact hn.noNewline c hc
    · subst hc; decide
    · exact (ok.word v).noNewline c hc
  · unfold Fits at hf
    simp
    omega

theorem heading_lines : heading = ([[10], heading.drop 1] : List (List Byte)).flatten := rfl

theorem scan_heading (ok : CodecOk cd rnd) : scanLine cd [10] = none ∧ scanLine cd (heading.drop 1) = none := by
  constructor
  · have h1 : skipWhite (([10] : List Byte).takeWhile (fun c => decide (c ≠ 0))) = [] := by decide +kernel
    unfold scanLine
    simp only [h1]
    rfl
  · unfold scanLine
    have h1 : skipWhite ((heading.drop 1).takeWhile (fun c => decide (c ≠ 0))) = heading.drop 1 := by decide +kernel
    have h2 : (heading.drop 1).takeWhile (fun c => !isSpace c) = [35] := by decide +kernel
    have h3 : (heading.drop 1).dropWhile (fun c => !isSpace c) = heading.drop 2 := by decide +kernel
    simp only [h1, h2, h3, ok.heading]
    rfl

/-! ### Which entries there are -/

theorem mem_insertNum {k : Nat} {v : V} : ∀ {l : List (Nat × V)}, l.Pairwise (fun a b => a.1 < b.1) →
    (∀ j w, (j, w) ∈ insertNum k v l ↔ (j = k ∧ w = v) ∨ (j ≠ k ∧ (j, w) ∈ l)) ∧
      (insertNum k v l).Pairwise (fun a b => a.1 < b.1)
  | [], _ => by
    constructor
    · intro j w
      simp [insertNum, Prod.ext_iff]
    · simp [insertNum]
  | (i, u) :: l, h => by
    obtain ⟨ha, hl⟩ := List.pairwise_cons.1 h
    obtain ⟨ih1, ih2⟩ := mem_insertNum (k := k) (v := v) hl
    simp only [insertNum]
    split
    · rename_i hlt
      constructor
      · intro j w
        simp only [List.mem_cons, Prod.mk.injEq]
        constructor
        · rintro (h1 | ⟨rfl, rfl⟩ | h1)
          · exact .inl h1
          · exact .inr ⟨by omega, .inl ⟨rfl, rfl⟩⟩
          · have := ha _ h1
            simp only at this
            exact .inr ⟨by omega, .inr h1⟩
        · rintro (h1 | ⟨_, h1⟩)
          · exact .inl h1
          · exact .inr h1
      · refine List.pairwise_cons.2 ⟨?_, h⟩
        intro x hx
        rcases List.mem_cons.1 hx with rfl | hx
        · exact hlt
        · have := ha _ hx
          simp only at this ⊢
          omega
    · split
      · rename_i heq
        subst heq
        constructor
        · intro j w
          simp only [List.mem_cons, Prod.mk.injEq]
          constructor
          · rintro (h1 | h1)
            · exact .inl h1
            · have := ha _ h1
              simp only at this
              exact .inr ⟨by omega, .inr h1⟩
          · rintro (h1 | ⟨h2, h1 | h1⟩)
            · exact .inl h1
            · exact absurd h1.1 h2
            · exact .inr h1
        · exact List.pairwise_cons.2 ⟨ha, hl⟩
      · rename_i h1 h2
        constructor
        · intro j w
          simp only [List.mem_cons, Prod.mk.injEq, ih1]
          constructor
          · rintro (⟨rfl, rfl⟩ | h3 | ⟨h3, h4⟩)
            · exact .inr ⟨by omega, .inl ⟨rfl, rfl⟩⟩
            · exact .inl h3
            · exact .inr ⟨h3, .inr h4⟩
          · rintro (h3 | ⟨h3, h4 | h4⟩)
            · exact .inr (.inl h3)
            · exact .inl h4
            · exact .inr (.inr ⟨h3, h4⟩)
        · refine List.pairwise_cons.2 ⟨?_, ih2⟩
          rintro ⟨j, w⟩ hx
          rcases (ih1 j w).1 hx with ⟨rfl, rfl⟩ | ⟨_, hx⟩
          · simp only; omega
          · exact ha _ hx

/-- A key that is a number. -/
def IsNumber (k : List Byte) : Prop := ∃ n, k = printNat n

/-- The numbers come first. -/
theorem mem_collect : ∀ {ps : List (List Byte × V)} {acc : List (Nat × V)},
    acc.Pairwise (fun a b => a.1 < b.1) →
    ps.Pairwise (fun a b => a.1 ≠ b.1) →
    (∀ p ∈ ps, startsDigit p.1 = true → IsNumber p.1) →
    ps.Pairwise (fun a b => startsDigit b.1 = true → startsDigit a.1 = true) →
    (∀ p ∈ ps, p.1 ≠ []) →
    ∀ n v, (n, v) ∈ collectNumeric ps acc ↔
      (printNat n, v) ∈ ps ∨ ((∀ w, (printNat n, w) ∉ ps) ∧ (n, v) ∈ acc)
  | [], acc, _, _, _, _, _, n, v => by simp [collectNumeric]
  | (k, u) :: ps, acc, hacc, hd, hn, hf, hne, n, v => by
    obtain ⟨hd1, hd2⟩ := List.pairwise_cons.1 hd
    obtain ⟨hf1, hf2⟩ := List.pairwise_cons.1 hf
    have hk : k ≠ [] := hne (k, u) (by simp)
    simp only [collectNumeric]
    rw [if_neg hk]
    by_cases hs : startsDigit k = true
    · rw [if_neg (by simp [hs])]
      obtain ⟨m, hm⟩ := hn (k, u) (by simp) hs
      simp only at hm
      subst hm
      rw [atoi_printNat]
      obtain ⟨i1, i2⟩ := mem_insertNum (k := m) (v := u) hacc
      rw [mem_collect i2 hd2 (fun p hp => hn p (by simp [hp])) hf2 (fun p hp => hne p (by simp [hp]))]
      rw [i1]
      simp only [List.mem_cons, Prod.mk.injEq, not_or, not_and]
      constructor
      · rintro (h | ⟨h1, ⟨rfl, rfl⟩ | ⟨h2, h3⟩⟩)
        · exact .inl (.inr h)
        · exact .inl (.inl ⟨rfl, rfl⟩)
        · exact .inr ⟨fun w => ⟨fun e => absurd (printNat_inj e) h2, h1 w⟩, h3⟩
      · rintro ((⟨e, rfl⟩ | h) | ⟨h1, h2⟩)
        · have := printNat_inj e
          subst this
          refine .inr ⟨fun w hw => ?_, .inl ⟨rfl, rfl⟩⟩
          exact hd1 _ hw rfl
        · exact .inl h
        · refine .inr ⟨fun w => (h1 w).2, .inr ⟨?_, h2⟩⟩
          rintro rfl
          exact (h1 u).1 rfl rfl
    · rw [if_pos (by simpa using hs)]
      have hno : ∀ w, (printNat n, w) ∉ (k, u) :: ps := by
        intro w hw
        rcases List.mem_cons.1 hw with e | hw
        · injection e with e _
          rw [← e, startsDigit_printNat] at hs
          exact hs rfl
        · exact hs (hf1 _ hw (startsDigit_printNat n))
      constructor
      · exact fun h => .inr ⟨hno, h⟩
      · rintro (h | h)
        · exact absurd h (hno v)
        · exact h.2

theorem numericEntries_eq : ∀ l : List (Nat × V), numericEntries cd l =
    (l.filter fun p => decide (p.1 ≠ 0) && !cd.isZero p.2).map fun p => entry cd (printNat p.1) p.2
  | [] => rfl
  | (k, v) :: l => by
    simp only [numericEntries]
    split
    · rename_i h
      subst h
      simpa using numericEntries_eq l
    · rename_i h
      split
      · rename_i hz
        simpa [hz] using numericEntries_eq l
      · rename_i hz
        simpa [hz, h] using numericEntries_eq l

theorem nameEntries_eq : ∀ l : List (List Byte × V), nameEntries cd l =
    (l.filter fun p => decide (p.1.head? = some 95) && !cd.isZero p.2).map fun p => entry cd p.1 p.2
  | [] => rfl
  | (k, v) :: l => by
    simp only [nameEntries]
    split
    · rename_i h
      subst h
      simpa using nameEntries_eq l
    · split
      · rename_i hk hs
        have : k.head? ≠ some 95 := by
          cases k with
          | nil => simp
          | cons c cs =>
            simp only [startsDigit] at hs
            intro e
            injection e with e
            subst e
            exact absurd hs (by decide)
        simpa [this] using nameEntries_eq l
      · split
        · rename_i h
          simpa [h] using nameEntries_eq l
        · rename_i h
          have h' : k.head? = some 95 := by simpa using h
          split
          · rename_i hz
            simpa [hz] using nameEntries_eq l
          · rename_i hz
            simpa [hz, h'] using nameEntries_eq l

/-! ### Loading entries -/

theorem loadLines_append (a b : List (List Byte)) (p : List Byte → Option V) :
    loadLines cd (a ++ b) p = loadLines cd b (loadLines cd a p) := by
  induction a generalizing p with
  | nil => rfl
  | cons l a ih =>
    simp only [List.cons_append, loadLines]
    cases scanLine cd l with
    | none => exact ih p
    | some r => exact ih _

/-- Loading entries with different names. -/
theorem load_entries (ok : CodecOk cd rnd) : ∀ (es : List (List Byte × V)) (p : List Byte → Option V),
    (∀ e ∈ es, Word e.1) → es.Pairwise (fun a b => a.1 ≠ b.1) →
    (∀ k v, (k, v) ∈ es → loadLines cd (es.map fun e => entry cd e.1 e.2) p k = some (rnd v)) ∧
      ∀ k, (∀ v, (k, v) ∉ es) → loadLines cd (es.map fun e => entry cd e.1 e.2) p k = p k
  | [], p, _, _ => ⟨fun k v h => by simp at h, fun k _ => rfl⟩
  | (n, u) :: es, p, hw, hd => by
    obtain ⟨hd1, hd2⟩ := List.pairwise_cons.1 hd
    obtain ⟨i1, i2⟩ := load_entries ok es (put p n (rnd u)) (fun e he => hw e (by simp [he])) hd2
    have hs := scan_entry ok (hw (n, u) (by simp)) u
    simp only at hs
    simp only [List.map_cons, loadLines, hs]
    constructor
    · intro k v h
      rcases List.mem_cons.1 h with e | h
      · injection e with e1 e2
        subst e1; subst e2
        rw [i2 k]
        · simp [put]
        · intro w hw
          exact hd1 _ hw rfl
      · exact i1 k v h
    · intro k h
      rw [i2 k (fun v hv => h v (by simp [hv]))]
      have : k ≠ n := by
        rintro rfl
        exact h u (by simp)
      simp [put, this]

end BeagleG.ParamFile
