import Mathlib.Tactic.Linarith
import Mathlib.Tactic.NormNum
import Verif.Text.Number

/-!
# Reading numbers (C87)
-/
namespace BeagleG.Text.Number

/-! ## Progress -/

/-- A proper rest of the text. -/
def RestOf (r s : List Byte) : Prop := r <:+ s ∧ r.length < s.length

theorem RestOf.of_suffix {r t s : List Byte} (h : RestOf r t) (ht : t <:+ s) : RestOf r s :=
  ⟨h.1.trans ht, lt_of_lt_of_le h.2 ht.length_le⟩

theorem RestOf.cons {r s : List Byte} (h : r <:+ s) (c : Byte) : RestOf r (c :: s) :=
  ⟨h.trans (List.suffix_cons _ _), Nat.lt_succ_of_le h.length_le⟩

theorem skipWhite_suffix (s : List Byte) : skipWhite s <:+ s := by
  induction s with
  | nil => exact List.suffix_refl _
  | cons c s ih =>
    simp only [skipWhite]
    split
    · exact ih.trans (List.suffix_cons _ _)
    · exact List.suffix_refl _

theorem prepare_suffix (s : List Byte) : prepare s <:+ s := by
  unfold prepare dropPlus
  split
  · rename_i r h
    exact (List.suffix_cons 43 r).trans (h ▸ skipWhite_suffix s)
  · exact skipWhite_suffix s

theorem minus_suffix (s : List Byte) : (minus s).2 <:+ s := by
  unfold minus
  split
  · exact List.suffix_cons _ _
  · exact List.suffix_refl _

theorem dropWhile_rest {s : List Byte} (h : s.takeWhile isDigit ≠ []) : RestOf (s.dropWhile isDigit) s := by
  refine ⟨List.dropWhile_suffix _, ?_⟩
  have e := congrArg List.length (List.takeWhile_append_dropWhile (p := isDigit) (l := s))
  rw [List.length_append] at e
  have := List.length_pos_iff.2 h
  omega

theorem mantissa_rest {s r : List Byte} {v : ℚ} (h : mantissa s = some (v, r)) : RestOf r s := by
  unfold mantissa at h
  dsimp only at h
  split at h
  · rename_i t ht
    split at h
    · cases h
    · injection h with h
      injection h with _ h
      subst h
      have : t.dropWhile isDigit <:+ t := List.dropWhile_suffix _
      exact (RestOf.cons this 46).of_suffix (ht ▸ List.dropWhile_suffix _)
  · split at h
    · cases h
    · rename_i hne
      injection h with h
      injection h with _ h
      subst h
      exact dropWhile_rest hne

theorem sign_suffix (s : List Byte) : (sign s).2 <:+ s := by
  unfold sign
  split
  · exact List.suffix_cons _ _
  · exact List.suffix_cons _ _
  · exact List.suffix_refl _

theorem copyLoop_prefix : ∀ (s : List Byte) (room : Nat) (a b : Bool), copyLoop room a b s <+: s := by
  intro s
  induction s with
  | nil => intro room a b; cases room <;> simp [copyLoop]
  | cons c s ih =>
    intro room a b
    cases room with
    | zero => simp [copyLoop]
    | succ room =>
      simp only [copyLoop]
      split
      · split
        · exact List.nil_prefix
        · split
          · exact List.nil_prefix
          · exact (List.prefix_cons_inj c).2 (ih _ _ _)
      · exact List.nil_prefix

theorem copyNumber_prefix (s : List Byte) : copyNumber s <+: s :=
  (List.takeWhile_prefix _).trans (copyLoop_prefix s 31 true false)

/-- A part of the buffer was read: the rest of the text is shorter. -/
theorem rest_of_buffer {n b r : List Byte} (hb : b.length ≤ n.length) (hr : r.length < b.length) :
    RestOf (n.drop (b.length - r.length)) n := by
  refine ⟨List.drop_suffix _ _, ?_⟩
  rw [List.length_drop]
  omega

theorem floatBuffer_rest {s r : List Byte} {v : Value} (h : floatBuffer s = some (v, r)) : RestOf r s := by
  unfold floatBuffer at h
  obtain ⟨x, hx, e⟩ := Option.map_eq_some_iff.1 h
  injection e with _ e
  subst e
  obtain ⟨y, hy, e⟩ := Option.map_eq_some_iff.1 hx
  subst e
  have := ((mantissa_rest hy).of_suffix (sign_suffix _)).2
  exact (rest_of_buffer (copyNumber_prefix _).length_le this).of_suffix (skipWhite_suffix s)

theorem exponent_rest {s r : List Byte} {e : Int} (h : exponent s = some (e, r)) : r <:+ s := by
  have number : ∀ (neg : Bool) (t : List Byte), (if t.takeWhile isDigit = [] then none
      else some (if neg then -(digitsValue (t.takeWhile isDigit) : Int) else digitsValue (t.takeWhile isDigit),
        t.dropWhile isDigit)) = some (e, r) → r <:+ t := by
    intro neg t ht
    split at ht
    · cases ht
    · injection ht with ht
      injection ht with _ ht
      subst ht
      exact List.dropWhile_suffix _
  unfold exponent at h
  dsimp only at h
  split at h
  · split at h
    · split at h
      · exact (number false _ h).trans ((List.suffix_cons _ _).trans (List.suffix_cons _ _))
      · exact (number true _ h).trans ((List.suffix_cons _ _).trans (List.suffix_cons _ _))
      · exact (number false _ h).trans (List.suffix_cons _ _)
    · cases h
  · cases h

theorem word_suffix {w s r : List Byte} (h : word w s = some r) : r <:+ s := by
  unfold word at h
  split at h
  · injection h with h
    subst h
    exact List.drop_suffix _ _
  · cases h

theorem word_rest {w s r : List Byte} (hw : w ≠ []) (h : word w s = some r) : RestOf r s := by
  refine ⟨word_suffix h, ?_⟩
  unfold word at h
  split at h
  · rename_i e
    injection h with h
    subst h
    have := congrArg List.length e
    rw [List.length_map, List.length_take] at this
    have := List.length_pos_iff.2 hw
    rw [List.length_drop]
    omega
  · cases h

theorem fromCharsFloat_rest {s r : List Byte} {v : Value} (h : fromCharsFloat s = some (v, r)) : RestOf r s := by
  unfold fromCharsFloat at h
  refine RestOf.of_suffix ?_ (minus_suffix s)
  generalize (minus s).1 = neg at h
  generalize (minus s).2 = t at h ⊢
  unfold unsignedFloat at h
  split at h
  · rename_i m u hm
    have hu := mantissa_rest hm
    dsimp only at h
    split at h
    · rename_i e w he
      injection h with h
      injection h with _ h
      subst h
      have := exponent_rest he
      exact ⟨this.trans hu.1, lt_of_le_of_lt this.length_le hu.2⟩
    · injection h with h
      injection h with _ h
      subst h
      exact hu
  · split at h
    · rename_i u hu
      injection h with h
      injection h with _ h
      subst h
      have h1 := word_rest (by decide) hu
      cases hi : word inity u with
      | none => simpa [hi] using h1
      | some w =>
        have := word_suffix hi
        simp only [Option.getD_some]
        exact ⟨this.trans h1.1, lt_of_le_of_lt this.length_le h1.2⟩
    · obtain ⟨u, hu, e⟩ := Option.map_eq_some_iff.1 h
      injection e with _ e
      subst e
      exact word_rest (by decide) hu

/-- What is left of the text after a number was read is an end of it, and shorter.  (This is what the parser
has to rely on: `Expr.Float_.Ok`.) -/
theorem C87_progress (s r : List Byte) (v : Value) :
    (floatBuffer s = some (v, r) → r <:+ s ∧ r.length < s.length) ∧
    (floatChars s = some (v, r) → r <:+ s ∧ r.length < s.length) :=
  ⟨floatBuffer_rest, fun h => (fromCharsFloat_rest h).of_suffix (prepare_suffix s)⟩

/-! ## Plain numbers -/

/-- All digits. -/
def Digits (ds : List Byte) : Prop := ∀ c ∈ ds, isDigit c = true

/-- The text of a number: digits, and a point followed by more digits if there is one. -/
def body (a : List Byte) : Option (List Byte) → List Byte
  | none => a
  | some b => a ++ 46 :: b

/-- Digits behind the point. -/
def fraction (b : Option (List Byte)) : List Byte := b.getD []

/-- The signs: none, `+`, `-`. -/
inductive Sign where
  | none | plus | minus

/-- As text. -/
def Sign.text : Sign → List Byte
  | .none => []
  | .plus => [43]
  | .minus => [45]

/-- As a factor. -/
def Sign.factor : Sign → Int
  | .minus => -1
  | _ => 1

/-- The number ends here: no digit follows, no point if there was none yet. -/
def Ends (point : Bool) (rest : List Byte) : Prop :=
  ∀ c r, rest = c :: r → isDigit c = false ∧ (point = false → c ≠ 46)

theorem Digits.take {ds : List Byte} (h : Digits ds) {t : List Byte}
    (ht : ∀ c r, t = c :: r → isDigit c = false) : (ds ++ t).takeWhile isDigit = ds := by
  rw [List.takeWhile_append_of_pos h]
  cases t with
  | nil => simp
  | cons c t => simp [ht c t rfl]

theorem Digits.drop {ds : List Byte} (h : Digits ds) {t : List Byte}
    (ht : ∀ c r, t = c :: r → isDigit c = false) : (ds ++ t).dropWhile isDigit = t := by
  rw [List.dropWhile_append_of_pos h]
  cases t with
  | nil => simp
  | cons c t => simp [ht c t rfl]

theorem isDigit_iff {c : Byte} : isDigit c = true ↔ 48 ≤ c ∧ c ≤ 57 := by simp [isDigit]

theorem digit_ne {c d : Byte} (h : isDigit c = true) (hd : isDigit d = false) : c ≠ d := by
  rintro rfl
  rw [h] at hd
  cases hd

theorem mantissa_body {a : List Byte} {b : Option (List Byte)} {rest : List Byte} (ha : Digits a)
    (hb : Digits (fraction b)) (hne : a ++ fraction b ≠ []) (hr : Ends b.isSome rest) :
    mantissa (body a b ++ rest) =
      some ((digitsValue (a ++ fraction b) : ℚ) / 10 ^ (fraction b).length, rest) := by
  unfold mantissa
  cases b with
  | none =>
    have ht : ∀ c r, rest = c :: r → isDigit c = false := fun c r e => (hr c r e).1
    have e1 : (body a none ++ rest).takeWhile isDigit = a := ha.take ht
    have e2 : (body a none ++ rest).dropWhile isDigit = rest := ha.drop ht
    have hne' : a ≠ [] := by simpa [fraction] using hne
    dsimp only
    rw [e1, e2]
    split
    · rename_i r
      exact absurd rfl ((hr 46 r rfl).2 rfl)
    · simp [hne', fraction]
  | some b =>
    have ht : ∀ c r, 46 :: (b ++ rest) = c :: r → isDigit c = false := by
      intro c r e
      injection e with e _
      subst e
      decide
    have hb : Digits b := hb
    have ht' : ∀ c r, rest = c :: r → isDigit c = false := fun c r e => (hr c r e).1
    have e0 : body a (some b) ++ rest = a ++ 46 :: (b ++ rest) := by simp [body]
    rw [e0]
    dsimp only
    rw [ha.take ht, ha.drop ht]
    simp only
    rw [hb.take ht', hb.drop ht', if_neg (by simpa [fraction] using hne)]
    rfl

/-! ### White space and sign -/

theorem skipWhite_blank {ws t : List Byte} (hws : ∀ c ∈ ws, isSpace c = true)
    (ht : ∀ c r, t = c :: r → isSpace c = false) : skipWhite (ws ++ t) = t := by
  induction ws with
  | nil =>
    cases t with
    | nil => rfl
    | cons c t => simp [skipWhite, ht c t rfl]
  | cons c ws ih =>
    simp only [List.cons_append, skipWhite, hws c List.mem_cons_self, if_true]
    exact ih fun d hd => hws d (List.mem_cons_of_mem _ hd)

theorem digit_notSpace {c : Byte} (h : isDigit c = true) : isSpace c = false := by
  rw [isDigit_iff] at h
  simp only [isSpace]
  grind

/-- A text that begins with a digit or a point. -/
def Begins (t : List Byte) : Prop := ∃ c r, t = c :: r ∧ (isDigit c = true ∨ c = 46)

theorem body_begins {a : List Byte} {b : Option (List Byte)} (ha : Digits a) (hne : a ++ fraction b ≠ [])
    (rest : List Byte) : Begins (body a b ++ rest) := by
  cases a with
  | cons c a =>
    refine ⟨c, body a b ++ rest, ?_, .inl (ha c List.mem_cons_self)⟩
    cases b <;> rfl
  | nil =>
    cases b with
    | none => simp [fraction] at hne
    | some b => exact ⟨46, b ++ rest, rfl, .inr rfl⟩

theorem Begins.head {t : List Byte} (h : Begins t) {c : Byte} {r : List Byte} (e : t = c :: r) :
    isSpace c = false ∧ c ≠ 43 ∧ c ≠ 45 := by
  obtain ⟨d, u, e', hd⟩ := h
  rw [e] at e'
  injection e' with e' _
  subst e'
  rcases hd with hd | rfl
  · refine ⟨digit_notSpace hd, ?_, ?_⟩ <;> exact digit_ne hd (by decide)
  · decide

theorem signed_notSpace {sg : Sign} {t : List Byte} (h : Begins t) :
    ∀ c r, sg.text ++ t = c :: r → isSpace c = false := by
  intro c r e
  cases sg with
  | none => exact (h.head (by simpa [Sign.text] using e)).1
  | plus => injection e with e _; subst e; decide
  | minus => injection e with e _; subst e; decide

theorem sign_text (sg : Sign) {t : List Byte} (h : Begins t) :
    sign (sg.text ++ t) = (decide (sg.factor = -1), t) := by
  cases sg with
  | none =>
    obtain ⟨c, r, rfl, hc⟩ := h
    have := Begins.head ⟨c, r, rfl, hc⟩ rfl
    simp only [Sign.text, List.nil_append]
    unfold sign
    split
    · rename_i e; injection e with e _; exact absurd e this.2.1
    · rename_i e; injection e with e _; exact absurd e this.2.2
    · rfl
  | plus => rfl
  | minus => rfl

theorem dropPlus_begins {t : List Byte} (h : Begins t) : dropPlus t = t := by
  unfold dropPlus
  split
  · exact absurd rfl (h.head rfl).2.1
  · rfl

theorem minus_begins {t : List Byte} (h : Begins t) : minus t = (false, t) := by
  unfold minus
  split
  · exact absurd rfl (h.head rfl).2.2
  · rfl

/-- After the `+` was left out. -/
theorem minus_dropPlus (sg : Sign) {t : List Byte} (h : Begins t) :
    minus (dropPlus (sg.text ++ t)) = (decide (sg.factor = -1), t) := by
  cases sg with
  | none =>
    show minus (dropPlus t) = _
    rw [dropPlus_begins h, minus_begins h]
    rfl
  | plus => exact minus_begins h
  | minus => rfl

/-! ### What is copied -/

theorem copyLoop_digits {ds : List Byte} (h : Digits ds) : ∀ (room : Nat) (first point : Bool) (t : List Byte),
    copyLoop (ds.length + room) first point (ds ++ t) =
      ds ++ copyLoop room (first && ds.isEmpty) point t := by
  induction ds with
  | nil => intro room first point t; simp
  | cons c ds ih =>
    intro room first point t
    have hc : isDigit c = true := h c List.mem_cons_self
    have h1 : c ≠ 43 := digit_ne hc (by decide)
    have h2 : c ≠ 45 := digit_ne hc (by decide)
    have h3 : c ≠ 46 := digit_ne hc (by decide)
    have e : (c :: ds).length + room = (ds.length + room) + 1 := by simp; omega
    rw [e, List.cons_append]
    simp only [copyLoop, hc, h1, h2, h3, Bool.true_or, if_true, decide_false, Bool.or_self, Bool.false_and,
      Bool.or_false]
    rw [if_neg (by simp), if_neg (by simp)]
    rw [ih (fun d hd => h d (List.mem_cons_of_mem _ hd))]
    simp

/-- Behind the number nothing is copied, or a zero byte. -/
theorem copyLoop_end {rest : List Byte} {point : Bool} (h : Ends point rest) (room : Nat) :
    (copyLoop room false point rest).takeWhile (· ≠ 0) = [] := by
  cases room with
  | zero => simp [copyLoop]
  | succ room =>
    cases rest with
    | nil => simp [copyLoop]
    | cons c r =>
      obtain ⟨h1, h2⟩ := h c r rfl
      simp only [copyLoop, h1, Bool.false_or]
      by_cases h0 : c = 0
      · subst h0; simp
      · by_cases hs : c = 43 ∨ c = 45
        · rcases hs with rfl | rfl <;> simp
        · by_cases hp : c = 46
          · subst hp
            have : point = true := by
              cases point
              · exact absurd rfl (h2 rfl)
              · rfl
            subst this
            simp
          · have hs := not_or.1 hs
            simp [h0, hs.1, hs.2, hp]

theorem takeWhile_nonzero {ds : List Byte} (h : Digits ds) (t : List Byte) :
    (ds ++ t).takeWhile (· ≠ 0) = ds ++ t.takeWhile (· ≠ 0) := by
  rw [List.takeWhile_append_of_pos]
  intro c hc
  have : c ≠ 0 := digit_ne (h c hc) (by decide)
  simpa using this

/-- The body is copied as it is. -/
theorem copyLoop_body {a : List Byte} {b : Option (List Byte)} {rest : List Byte} (ha : Digits a)
    (hb : Digits (fraction b)) (hne : a ++ fraction b ≠ []) (hr : Ends b.isSome rest) (first : Bool) {room : Nat}
    (hl : (body a b).length ≤ room) :
    (copyLoop room first false (body a b ++ rest)).takeWhile (· ≠ 0) = body a b := by
  cases b with
  | none =>
    have hne' : a ≠ [] := by simpa [fraction] using hne
    simp only [body] at hl ⊢
    obtain ⟨k, rfl⟩ := Nat.exists_eq_add_of_le hl
    rw [copyLoop_digits ha, takeWhile_nonzero ha]
    have : a.isEmpty = false := by cases a <;> simp_all
    have hr : Ends false rest := hr
    rw [this, Bool.and_false, copyLoop_end hr]
    simp
  | some b =>
    have hb : Digits b := hb
    simp only [body, List.length_append, List.length_cons] at hl
    obtain ⟨k, rfl⟩ := Nat.exists_eq_add_of_le hl
    have e1 : a.length + (b.length + 1) + k = a.length + ((b.length + k) + 1) := by omega
    have e2 : body a (some b) ++ rest = a ++ 46 :: (b ++ rest) := by simp [body]
    rw [e1, e2, copyLoop_digits ha, takeWhile_nonzero ha]
    have e3 : copyLoop ((b.length + k) + 1) (first && a.isEmpty) false (46 :: (b ++ rest)) =
        46 :: copyLoop (b.length + k) false true (b ++ rest) := by
      simp [copyLoop]
    rw [e3, copyLoop_digits hb]
    have e4 : (false && b.isEmpty) = false := rfl
    have hr : Ends true rest := hr
    rw [e4, List.takeWhile_cons, if_pos (by decide), takeWhile_nonzero hb, copyLoop_end hr]
    simp [body]

theorem copyNumber_text {sg : Sign} {a : List Byte} {b : Option (List Byte)} {rest : List Byte} (ha : Digits a)
    (hb : Digits (fraction b)) (hne : a ++ fraction b ≠ []) (hr : Ends b.isSome rest)
    (hl : (sg.text ++ body a b).length ≤ 31) :
    copyNumber (sg.text ++ body a b ++ rest) = sg.text ++ body a b := by
  unfold copyNumber
  rw [List.append_assoc]
  cases sg with
  | none => exact copyLoop_body ha hb hne hr true (by simpa [Sign.text] using hl)
  | plus =>
    have h30 : (body a b).length ≤ 30 := by simpa [Sign.text] using hl
    have e : copyLoop 31 true false ([43] ++ (body a b ++ rest)) =
        43 :: copyLoop 30 false false (body a b ++ rest) := by simp [copyLoop]
    simp only [Sign.text]
    rw [e, List.takeWhile_cons, if_pos (by decide), copyLoop_body ha hb hne hr false h30]
    rfl
  | minus =>
    have h30 : (body a b).length ≤ 30 := by simpa [Sign.text] using hl
    have e : copyLoop 31 true false ([45] ++ (body a b ++ rest)) =
        45 :: copyLoop 30 false false (body a b ++ rest) := by simp [copyLoop]
    simp only [Sign.text]
    rw [e, List.takeWhile_cons, if_pos (by decide), copyLoop_body ha hb hne hr false h30]
    rfl

/-! ### The value -/

/-- The number that a text with this sign and these digits means. -/
def meant (sg : Sign) (a : List Byte) (b : Option (List Byte)) : ℚ :=
  sg.factor * ((digitsValue (a ++ fraction b) : ℚ) / 10 ^ (fraction b).length)

theorem meant_eq (sg : Sign) (a : List Byte) (b : Option (List Byte)) :
    (if decide (sg.factor = -1) = true then -((digitsValue (a ++ fraction b) : ℚ) / 10 ^ (fraction b).length)
      else (digitsValue (a ++ fraction b) : ℚ) / 10 ^ (fraction b).length) = meant sg a b := by
  unfold meant
  cases sg <;> simp [Sign.factor]

/-- The conversion with a buffer reads numbers of up to 31 characters. -/
theorem C87_buffer {ws : List Byte} (hws : ∀ c ∈ ws, isSpace c = true) (sg : Sign) {a : List Byte}
    {b : Option (List Byte)} {rest : List Byte} (ha : Digits a) (hb : Digits (fraction b))
    (hne : a ++ fraction b ≠ []) (hr : Ends b.isSome rest) (hl : (sg.text ++ body a b).length ≤ 31) :
    floatBuffer (ws ++ (sg.text ++ body a b ++ rest)) = some (.num (meant sg a b), rest) := by
  have hbeg := body_begins ha hne rest
  have hskip : skipWhite (ws ++ (sg.text ++ body a b ++ rest)) = sg.text ++ body a b ++ rest := by
    apply skipWhite_blank hws
    rw [List.append_assoc]
    exact signed_notSpace hbeg
  have hm := mantissa_body (rest := []) ha hb hne (fun c r e => by cases e)
  rw [List.append_nil] at hm
  have hs := sign_text sg (body_begins ha hne [])
  rw [List.append_nil] at hs
  unfold floatBuffer
  simp only [hskip, copyNumber_text ha hb hne hr hl]
  unfold strtod
  simp only [hs, hm, Option.map_some, meant_eq, List.length_nil, Nat.sub_zero]
  congr 2
  rw [List.drop_append_of_le_length (le_refl _), List.drop_length, List.nil_append]

/-- The conversion with `std::from_chars` reads numbers behind which no exponent follows. -/
theorem C87_chars {ws : List Byte} (hws : ∀ c ∈ ws, isSpace c = true) (sg : Sign) {a : List Byte}
    {b : Option (List Byte)} {rest : List Byte} (ha : Digits a) (hb : Digits (fraction b))
    (hne : a ++ fraction b ≠ []) (hr : Ends b.isSome rest) (he : exponent rest = none) :
    floatChars (ws ++ (sg.text ++ body a b ++ rest)) = some (.num (meant sg a b), rest) := by
  have hbeg := body_begins ha hne rest
  have hm := mantissa_body ha hb hne hr
  have hskip : skipWhite (ws ++ (sg.text ++ body a b ++ rest)) = sg.text ++ (body a b ++ rest) := by
    rw [List.append_assoc sg.text]
    exact skipWhite_blank hws (signed_notSpace hbeg)
  unfold floatChars prepare fromCharsFloat
  rw [hskip, minus_dropPlus sg hbeg]
  unfold unsignedFloat
  simp only [hm, he, meant_eq]

/-- Both conversions read the same from texts like these. -/
theorem C87_agree_partial {ws : List Byte} (hws : ∀ c ∈ ws, isSpace c = true) (sg : Sign) {a : List Byte}
    {b : Option (List Byte)} {rest : List Byte} (ha : Digits a) (hb : Digits (fraction b))
    (hne : a ++ fraction b ≠ []) (hr : Ends b.isSome rest) (hl : (sg.text ++ body a b).length ≤ 31)
    (he : exponent rest = none) :
    floatBuffer (ws ++ (sg.text ++ body a b ++ rest)) = floatChars (ws ++ (sg.text ++ body a b ++ rest)) := by
  rw [C87_buffer hws sg ha hb hne hr hl, C87_chars hws sg ha hb hne hr he]

/-- Non-vacuity: ` -12.5X`. -/
example : floatBuffer [32, 45, 49, 50, 46, 53, 88] = some (.num (-25 / 2), [88]) ∧
    floatChars [32, 45, 49, 50, 46, 53, 88] = some (.num (-25 / 2), [88]) := by decide +kernel

/-! ## Integers -/

theorem wrap_id {bits : Nat} (hbits : 0 < bits) {v : Int} (h : -2 ^ (bits - 1) ≤ v ∧ v < 2 ^ (bits - 1)) :
    wrap bits v = v := by
  have e : (2 : Int) ^ bits = 2 * 2 ^ (bits - 1) := by
    obtain ⟨k, rfl⟩ : ∃ k, bits = k + 1 := ⟨bits - 1, by omega⟩
    rw [Nat.add_sub_cancel, pow_succ]; ring
  have hpos : (0 : Int) < 2 ^ (bits - 1) := by positivity
  unfold wrap
  dsimp only
  rw [e]
  generalize (2 : Int) ^ (bits - 1) = m at *
  by_cases h0 : 0 ≤ v
  · rw [Int.emod_eq_of_lt h0 (by omega), if_pos h.2]
  · have : v % (2 * m) = v + 2 * m := by
      rw [← Int.add_emod_right, Int.emod_eq_of_lt (by omega) (by omega)]
    rw [this, if_neg (by omega)]
    omega

/-- An integer, with both conversions: if it is in the range of the type and not longer than the buffer. -/
theorem C87_integers {bits : Nat} (hbits : 0 < bits) (h64 : bits ≤ 64) {ws : List Byte}
    (hws : ∀ c ∈ ws, isSpace c = true) (sg : Sign) {ds rest : List Byte} (hd : Digits ds) (hne : ds ≠ [])
    (hr : ∀ c r, rest = c :: r → isDigit c = false)
    (hrange : -2 ^ (bits - 1) ≤ sg.factor * (digitsValue ds : Int) ∧
      sg.factor * (digitsValue ds : Int) < 2 ^ (bits - 1)) :
    intChars bits (ws ++ (sg.text ++ (ds ++ rest))) = some (sg.factor * digitsValue ds, rest) ∧
    ((sg.text ++ ds).length ≤ 31 →
      intBuffer bits (ws ++ (sg.text ++ (ds ++ rest))) = some (sg.factor * digitsValue ds, rest)) := by
  have hbeg : Begins (ds ++ rest) := by
    cases ds with
    | nil => exact absurd rfl hne
    | cons c ds => exact ⟨c, ds ++ rest, rfl, .inl (hd c List.mem_cons_self)⟩
  have hskip : skipWhite (ws ++ (sg.text ++ (ds ++ rest))) = sg.text ++ (ds ++ rest) :=
    skipWhite_blank hws (signed_notSpace hbeg)
  -- the sign that is left after `prepare`
  let sg' : Sign := match sg with
    | .minus => .minus
    | _ => .none
  have hfac : sg'.factor = sg.factor := by cases sg <;> rfl
  have hprep : prepare (ws ++ (sg.text ++ (ds ++ rest))) = sg'.text ++ (ds ++ rest) := by
    unfold prepare
    rw [hskip]
    cases sg with
    | none => exact dropPlus_begins hbeg
    | plus => rfl
    | minus => rfl
  have hsg' : sg' = .none ∨ sg' = .minus := by cases sg <;> simp [sg']
  constructor
  · unfold intChars prepare fromCharsInt
    rw [hskip, minus_dropPlus sg hbeg]
    simp only [hd.take hr, hd.drop hr, if_neg hne]
    have hv : (if decide (sg.factor = -1) = true then -(digitsValue ds : Int) else digitsValue ds) =
        sg.factor * digitsValue ds := by
      cases sg <;> simp [Sign.factor]
    rw [hv, if_pos hrange]
  · intro hl
    have hskip' : skipWhite (sg'.text ++ (ds ++ rest)) = sg'.text ++ (ds ++ rest) :=
      skipWhite_blank (ws := []) (by simp) (signed_notSpace hbeg)
    have hl' : (sg'.text ++ ds).length ≤ 31 := by
      rcases hsg' with e | e
      · rw [e]
        have : ds.length ≤ (sg.text ++ ds).length := by simp
        simpa [Sign.text] using this.trans hl
      · have : sg = .minus := by cases sg <;> simp_all [sg']
        rw [e, ← this]; exact hl
    -- the buffer: sign, digits, and what else is copied
    obtain ⟨tail, hbuf, htail⟩ : ∃ tail, copyNumber (sg'.text ++ (ds ++ rest)) = sg'.text ++ (ds ++ tail) ∧
        ∀ c r, tail = c :: r → isDigit c = false := by
      have more : ∀ room point, ∀ c r,
          (copyLoop room false point rest).takeWhile (· ≠ 0) = c :: r → isDigit c = false := by
        intro room point c r e
        have hp : c :: r <+: rest := e ▸ (List.takeWhile_prefix _).trans (copyLoop_prefix _ _ _ _)
        obtain ⟨t, ht⟩ := hp
        exact hr c (r ++ t) ht.symm
      have hds : ds.isEmpty = false := by cases ds <;> simp_all
      rcases hsg' with e | e <;> rw [e] at hl' ⊢
      · simp only [Sign.text, List.nil_append] at hl' ⊢
        obtain ⟨k, hk⟩ := Nat.exists_eq_add_of_le hl'
        refine ⟨_, ?_, more k false⟩
        unfold copyNumber
        rw [hk, copyLoop_digits hd, takeWhile_nonzero hd, hds, Bool.and_false]
      · simp only [Sign.text, List.length_append, List.length_cons, List.length_nil] at hl'
        obtain ⟨k, hk⟩ := Nat.exists_eq_add_of_le (show ds.length ≤ 30 by omega)
        refine ⟨_, ?_, more k false⟩
        unfold copyNumber
        have e1 : copyLoop 31 true false (Sign.minus.text ++ (ds ++ rest)) =
            45 :: copyLoop 30 false false (ds ++ rest) := by simp [copyLoop, Sign.text]
        rw [e1, List.takeWhile_cons, if_pos (by decide), hk, copyLoop_digits hd, takeWhile_nonzero hd,
          Bool.false_and]
        rfl
    have hbeg' : Begins (ds ++ tail) := by
      cases ds with
      | nil => exact absurd rfl hne
      | cons c ds => exact ⟨c, ds ++ tail, rfl, .inl (hd c List.mem_cons_self)⟩
    unfold intBuffer
    simp only [hprep, hskip', hbuf]
    unfold strtoll
    simp only [sign_text sg' hbeg', hd.take htail, hd.drop htail, if_neg hne, Option.map_some]
    have hv : (if decide (sg'.factor = -1) = true then -(digitsValue ds : Int) else digitsValue ds) =
        sg.factor * digitsValue ds := by
      rw [hfac]
      cases sg <;> simp [Sign.factor]
    rw [hv]
    have hle : (2 : Int) ^ (bits - 1) ≤ 2 ^ 63 := pow_le_pow_right₀ (by norm_num) (by omega)
    have hc : max (-2 ^ 63) (min (sg.factor * (digitsValue ds : Int)) (2 ^ 63 - 1)) =
        sg.factor * (digitsValue ds : Int) := by
      rw [min_eq_left (by omega), max_eq_right (by omega)]
    rw [hc, wrap_id hbits hrange]
    congr 2
    have e1 : (sg'.text ++ (ds ++ tail)).length - tail.length = (sg'.text ++ ds).length := by
      simp only [List.length_append]; omega
    rw [e1, ← List.append_assoc, List.drop_append_of_le_length (le_refl _), List.drop_length, List.nil_append]

/-- Non-vacuity: `+42.7`. -/
example : intChars 32 [43, 52, 50, 46, 55] = some (42, [46, 55]) ∧
    intBuffer 32 [43, 52, 50, 46, 55] = some (42, [46, 55]) := by decide +kernel

/-! ## Where they differ -/

/-- **Letter E behind a number**: `10E5`, i.e. an extruder behind another axis, is one number for
`std::from_chars`. -/
theorem C87_exponent : floatBuffer [49, 48, 69, 53] = some (.num 10, [69, 53]) ∧
    floatChars [49, 48, 69, 53] = some (.num 1000000, []) := by decide +kernel

/-- **Words that are numbers**: `inf` and `NaN`. -/
theorem C87_special : floatBuffer inf = none ∧ floatChars inf = some (.infinity false, []) ∧
    floatBuffer [78, 97, 78] = none ∧ floatChars [78, 97, 78] = some (.nan, []) := by decide +kernel

/-- **Two signs**: `+-5`. -/
theorem C87_two_signs : floatBuffer [43, 45, 53] = none ∧ floatChars [43, 45, 53] = some (.num (-5), []) := by
  decide +kernel

/-- **Numbers of more than 31 characters** are cut by the buffer, and what is left begins with a digit: 32 times
the digit 1. -/
theorem C87_long : floatBuffer (List.replicate 32 49) = some (.num (((10 : Nat) ^ 31 - 1 : Nat) / 9), [49]) ∧
    floatChars (List.replicate 32 49) = some (.num (((10 : Nat) ^ 32 - 1 : Nat) / 9), []) := by decide +kernel

/-- **Integers out of range** are an error for `std::from_chars`, and any value with the buffer: 2³². -/
theorem C87_out_of_range : intChars 32 [52, 50, 57, 52, 57, 54, 55, 50, 57, 54] = none ∧
    intBuffer 32 [52, 50, 57, 52, 57, 54, 55, 50, 57, 54] = some (0, []) := by decide +kernel

end BeagleG.Text.Number
