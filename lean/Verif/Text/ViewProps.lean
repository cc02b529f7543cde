import Verif.Text.View
import Verif.Text.StringProps
/-!
# C95: the replacement of `std::string_view` against the standard

Specification: what the C++ standard says of the operation on the characters of the view.
-/
namespace BeagleG.Text

theorem View.text_length {v : View} (h : v.Ok) : v.text.length = v.len := by
  unfold View.Ok at h
  simp [View.text]
  omega

/-- The view of a C string has its characters. -/
theorem C95_of_c (s : List Byte) : (View.ofC s).Ok ∧ (View.ofC s).text = s := by
  simp [View.ofC, View.Ok, View.text]

theorem sizeT_small {n : Nat} (h : n < 2 ^ 64) : sizeT n = n := by
  unfold sizeT
  omega

/-- A view need not be followed by anything: the whole of a memory is one. -/
theorem C95_whole (s : List Byte) : (View.mk s 0 s.length).Ok ∧ (View.mk s 0 s.length).text = s := by
  simp [View.Ok, View.text]

/-- **`substr` within the view** is the part of the text. -/
theorem C95_substr {v : View} (h : v.Ok) {pos n : Nat} (hs : v.mem.length < 2 ^ 64) (hn : pos + n ≤ v.len) :
    ∃ w, v.substr2 pos n = some w ∧ w.Ok ∧ w.text = (v.text.drop pos).take n := by
  unfold View.Ok at h
  have e : sizeT (pos + n) = pos + n := by
    have := sizeT_small (n := pos + n) (by omega)
    push_cast at this
    exact this
  refine ⟨⟨v.mem, v.off + pos, n⟩, by unfold View.substr2; rw [e, if_pos hn], by unfold View.Ok; dsimp only; omega, ?_⟩
  unfold View.text
  dsimp only
  rw [List.drop_take, List.drop_drop, List.take_take]
  congr 1
  omega

/-- **The rest from `pos` on.** -/
theorem C95_substr_rest {v : View} (h : v.Ok) {pos : Nat} (hs : v.mem.length < 2 ^ 64) (hn : pos ≤ v.len) :
    ∃ w, v.substr1 pos = some w ∧ w.Ok ∧ w.text = v.text.drop pos := by
  have e : sizeT ((v.len : Int) - pos) = v.len - pos := by
    have h2 := h
    unfold View.Ok at h2
    unfold sizeT
    omega
  obtain ⟨w, h1, h2, h3⟩ := C95_substr h (pos := pos) (n := v.len - pos) hs (by omega)
  refine ⟨w, by unfold View.substr1; rw [e]; exact h1, h2, ?_⟩
  rw [h3, List.take_of_length_le]
  rw [List.length_drop, View.text_length h]
  exact Nat.le_refl _

/-- **A length that reaches beyond the end** is cut by `std::string_view`; here the assertion fails. -/
theorem C95_substr_not_cut {v : View} {pos n : Nat} (hn : v.len < pos + n) (hs : pos + n < 2 ^ 64) :
    v.substr2 pos n = none := by
  have e : sizeT (pos + n) = pos + n := by
    have := sizeT_small (n := pos + n) (by omega)
    push_cast at this
    exact this
  unfold View.substr2
  rw [e, if_neg (by omega)]

/-- **A position behind the end** makes `std::string_view` throw. Here the assertion holds, because both the length and
the sum wrap around, and the result is a view of almost 2^64 characters. -/
theorem C95_substr_wraps {v : View} {pos : Nat} (hn : v.len < pos) (hp : pos < 2 ^ 64) :
    v.substr1 pos = some ⟨v.mem, v.off + pos, 2 ^ 64 + v.len - pos⟩ := by
  have e : sizeT ((v.len : Int) - pos) = 2 ^ 64 + v.len - pos := by
    unfold sizeT
    omega
  unfold View.substr1 View.substr2
  rw [e, if_pos]
  unfold sizeT
  omega

theorem strncmp_take {a b : List Byte} : ∀ {n : Nat}, n ≤ a.length → n ≤ b.length → (∀ c ∈ a.take n, c ≠ 0) →
    strncmpEq a b n = some (decide (a.take n = b.take n)) := by
  intro n
  induction n generalizing a b with
  | zero => intro _ _ _; simp [strncmpEq]
  | succ n ih =>
    intro ha hb hz
    match a, b with
    | [], _ => simp at ha
    | _ :: _, [] => simp at hb
    | x :: a, y :: b =>
      have hx : x ≠ 0 := hz x (by simp)
      unfold strncmpEq
      dsimp only
      by_cases hxy : x = y
      · subst hxy
        rw [if_neg (by simp), if_neg hx, ih (by simpa using ha) (by simpa using hb)
          (fun c hc => hz c (by rw [List.take_succ_cons]; exact List.mem_cons_of_mem _ hc))]
        simp
      · rw [if_pos hxy]
        simp [hxy]

/-- **Comparison** of texts without NUL. -/
theorem C95_equal {v w : View} (hv : v.Ok) (hw : w.Ok) (same : Bool) (hm : same = true → v.mem = w.mem)
    (hz : ∀ c ∈ v.text, c ≠ 0) : v.eq w same = some (decide (v.text = w.text)) := by
  have lv := View.text_length hv
  have lw := View.text_length hw
  unfold View.eq
  split
  · rename_i hne
    congr 1
    symm
    rw [decide_eq_false_iff_not]
    intro h
    rw [h, lw] at lv
    exact hne lv.symm
  · rename_i heq
    have heq : v.len = w.len := by omega
    split
    · rename_i h
      have e : v.text = w.text := by
        unfold View.text
        rw [hm h.1, h.2, heq]
      simp [e]
    · unfold View.Ok at hv hw
      rw [strncmp_take (by simp; omega) (by simp; omega) hz]
      unfold View.text
      rw [heq]

/-- **Texts with NUL** count as equal if they are so up to there. -/
theorem C95_equal_nul : View.eq ⟨[97, 0, 98], 0, 3⟩ ⟨[97, 0, 99], 0, 3⟩ false = some true := by decide

theorem strchr_ofC {c : Byte} (hc : c ≠ 0) : ∀ {s rest : List Byte}, (∀ x ∈ s, x ≠ 0) →
    strchr c (s ++ 0 :: rest) = some (s.findIdx? (· == c))
  | [], rest, _ => by
    simp [strchr, Ne.symm hc]
  | x :: s, rest, h => by
    have hx : x ≠ 0 := h x (by simp)
    have ih := strchr_ofC hc (s := s) (rest := rest) fun y hy => h y (List.mem_cons_of_mem _ hy)
    rw [List.cons_append, strchr, List.findIdx?_cons]
    by_cases hxc : x = c
    · simp [hxc]
    · simp [hxc, hx, ih]

/-- **`find_first_of` in a C string**: the first place of the character, if it is not NUL. -/
theorem C95_find_first {s : List Byte} (hs : ∀ x ∈ s, x ≠ 0) {c : Byte} (hc : c ≠ 0) :
    (View.ofC s).findFirstOf c = some (s.findIdx? (· == c)) := by
  unfold View.findFirstOf View.ofC
  exact strchr_ofC hc hs

/-- **`find_first_of` looks behind the end** of a view that is a part of a text, and behind its memory. -/
theorem C95_find_first_behind : View.findFirstOf ⟨[97, 98, 99, 0], 0, 2⟩ 99 = some (some 2) ∧
    View.findFirstOf ⟨[97, 98], 0, 2⟩ 99 = none := by decide

/-- **NUL** is found in every C string, behind its end. -/
theorem C95_find_first_nul {s : List Byte} (hs : ∀ x ∈ s, x ≠ 0) :
    (View.ofC s).findFirstOf 0 = some (some s.length) := by
  unfold View.findFirstOf View.ofC
  dsimp only
  rw [List.drop_zero]
  induction s with
  | nil => rfl
  | cons x s ih =>
    have hx : x ≠ 0 := hs x (by simp)
    rw [List.cons_append, strchr, if_neg hx, if_neg hx, ih fun y hy => hs y (List.mem_cons_of_mem _ hy)]
    rfl

/-- What `std::string_view::find` returns: the first place from `pos` on where `s` begins. -/
def IsFirst (t s : List Byte) (pos i : Nat) : Prop :=
  pos ≤ i ∧ i ≤ t.length ∧ s <+: t.drop i ∧ ∀ j, pos ≤ j → j < i → ¬ s <+: t.drop j

theorem prefix_fits {t s : List Byte} {i : Nat} (h : s <+: t.drop i) (hs : s ≠ []) : i + s.length ≤ t.length := by
  have := h.length_le
  rw [List.length_drop] at this
  have : 0 < s.length := List.length_pos_iff.2 hs
  omega

theorem charFind_some {l : List Byte} {n : Nat} {c : Byte} {k : Nat} (h : charFind l n c = some k) :
    k < n ∧ l[k]? = some c ∧ ∀ j < k, l[j]? ≠ some c := by
  unfold charFind at h
  rw [List.findIdx?_eq_some_iff_getElem] at h
  obtain ⟨hk, h1, h2⟩ := h
  have hk' : k < n ∧ k < l.length := by simpa [Nat.lt_min] using hk
  refine ⟨hk'.1, ?_, fun j hj he => ?_⟩
  · rw [List.getElem?_eq_getElem hk'.2]
    simp at h1
    rw [h1]
  · have := h2 j hj
    have hj' : j < l.length := by omega
    rw [List.getElem?_eq_getElem hj'] at he
    simp at he
    simp [he] at this

theorem charFind_none {l : List Byte} {n : Nat} {c : Byte} (h : charFind l n c = none) : ∀ j < n, l[j]? ≠ some c := by
  unfold charFind at h
  rw [List.findIdx?_eq_none_iff] at h
  intro j hj he
  have hm : c ∈ l.take n := by
    refine List.mem_of_getElem? (i := j) ?_
    rw [List.getElem?_take, if_pos hj]
    exact he
  have := h c hm
  simp at this

theorem prefix_split {t : List Byte} {x : Byte} {s : List Byte} {i : Nat} :
    x :: s <+: t.drop i ↔ t[i]? = some x ∧ (t.drop (i + 1)).take s.length = s := by
  rw [List.prefix_iff_eq_take]
  by_cases hi : i < t.length
  · rw [List.drop_eq_getElem_cons hi, List.length_cons, List.take_succ_cons, List.getElem?_eq_getElem hi]
    constructor
    · intro h
      injection h with h1 h2
      exact ⟨by rw [h1], h2.symm⟩
    · rintro ⟨h1, h2⟩
      injection h1 with h1
      rw [h1, h2]
  · rw [List.drop_eq_nil_of_le (by omega), List.getElem?_eq_none (by omega)]
    simp

theorem findLoop_spec {t s : List Byte} {x : Byte} : ∀ (n i pos : Nat), t.length < n + i → pos ≤ i →
    (∀ j, pos ≤ j → j < i → ¬ x :: s <+: t.drop j) →
    match findLoop t (x :: s) i n with
    | some k => IsFirst t (x :: s) pos k
    | none => ∀ j, pos ≤ j → ¬ x :: s <+: t.drop j
  | 0, i, pos, hn, hp, hb => by
    simp only [findLoop]
    intro j hj hpre
    have := prefix_fits hpre (by simp)
    exact hb j hj (by omega) hpre
  | n + 1, i, pos, hn, hp, hb => by
    simp only [findLoop]
    by_cases hi : i ≤ t.length - (x :: s).length
    · rw [if_pos hi]
      cases hf : charFind (t.drop i) (t.length - (x :: s).length - i + 1) ((x :: s).headD 0) with
      | none =>
        dsimp only
        intro j hj hpre
        by_cases hji : j < i
        · exact hb j hj hji hpre
        · have hfit := prefix_fits hpre (by simp)
          have := charFind_none hf (j - i) (by omega)
          rw [List.getElem?_drop] at this
          have e : i + (j - i) = j := by omega
          rw [e] at this
          exact this (prefix_split.1 hpre).1
      | some k =>
        dsimp only
        obtain ⟨h1, h2, h3⟩ := charFind_some hf
        rw [List.getElem?_drop] at h2
        have hbefore : ∀ j, pos ≤ j → j < i + k → ¬ x :: s <+: t.drop j := by
          intro j hj hjk hpre
          by_cases hji : j < i
          · exact hb j hj hji hpre
          · have := h3 (j - i) (by omega)
            rw [List.getElem?_drop] at this
            have e : i + (j - i) = j := by omega
            rw [e] at this
            exact this (prefix_split.1 hpre).1
        by_cases hrest : (t.drop (i + k + 1)).take ((x :: s).length - 1) = (x :: s).drop 1
        · rw [if_pos hrest]
          dsimp only
          have hlt : i + k < t.length := by
            rcases Nat.lt_or_ge (i + k) t.length with h | h
            · exact h
            · rw [List.getElem?_eq_none h] at h2; cases h2
          exact ⟨by omega, by omega, prefix_split.2 ⟨h2, by simpa using hrest⟩, hbefore⟩
        · rw [if_neg hrest]
          have hk : ¬ x :: s <+: t.drop (i + k) := fun hpre => hrest (by simpa using (prefix_split.1 hpre).2)
          refine findLoop_spec n (i + k + 1) pos (by omega) (by omega) fun j hj hjk => ?_
          by_cases e : j = i + k
          · rw [e]; exact hk
          · exact hbefore j hj (by omega)
    · rw [if_neg hi]
      intro j hj hpre
      have := prefix_fits hpre (by simp)
      simp only [List.length_cons] at hi this
      exact hb j hj (by omega) hpre

/-- **`find`** returns the first place of the text, or `npos` if there is none; NUL is a character like others. -/
theorem C95_find (t s : List Byte) (pos : Nat) :
    match findText t s pos with
    | some i => IsFirst t s pos i
    | none => ∀ i, pos ≤ i → i ≤ t.length → ¬ s <+: t.drop i := by
  unfold findText
  by_cases hp : pos > t.length
  · rw [if_pos hp]
    intro i h1 h2
    omega
  rw [if_neg hp]
  by_cases h0 : s.length = 0
  · rw [if_pos h0]
    have : s = [] := List.length_eq_zero_iff.1 h0
    subst this
    exact ⟨Nat.le_refl _, by omega, List.nil_prefix, fun j h1 h2 => by omega⟩
  rw [if_neg h0]
  have hne : s ≠ [] := fun h => h0 (by rw [h]; rfl)
  by_cases hl : s.length > t.length - pos
  · rw [if_pos hl]
    intro i h1 h2 h3
    have := prefix_fits h3 hne
    omega
  rw [if_neg hl]
  obtain ⟨x, s, rfl⟩ := List.exists_cons_of_ne_nil hne
  by_cases h1 : (x :: s).length = 1
  · rw [if_pos h1]
    have hs : s = [] := List.length_eq_zero_iff.1 (by simpa using h1)
    subst hs
    cases hf : charFind (t.drop pos) (t.length - pos) (([x] : List Byte).headD 0) with
    | none =>
      simp only [Option.map_none]
      intro i k1 k2 k3
      have hfit := prefix_fits k3 (by simp)
      simp only [List.length_cons, List.length_nil] at hfit
      have := charFind_none hf (i - pos) (by omega)
      rw [List.getElem?_drop] at this
      have e : pos + (i - pos) = i := by omega
      rw [e] at this
      exact this (prefix_split.1 k3).1
    | some k =>
      simp only [Option.map_some]
      obtain ⟨k1, k2, k3⟩ := charFind_some hf
      rw [List.getElem?_drop] at k2
      refine ⟨by omega, by omega, prefix_split.2 ⟨k2, by simp⟩, fun j j1 j2 hpre => ?_⟩
      have := k3 (j - pos) (by omega)
      rw [List.getElem?_drop] at this
      have e : pos + (j - pos) = j := by omega
      rw [e] at this
      exact this (prefix_split.1 hpre).1
  · rw [if_neg h1]
    have := findLoop_spec (t := t) (s := s) (x := x) (t.length + 1) pos pos (by omega) (Nat.le_refl _)
      (fun j h1 h2 => by omega)
    cases hf : findLoop t (x :: s) pos (t.length + 1) with
    | none => rw [hf] at this; exact fun i h1 _ => this i h1
    | some k => rw [hf] at this; exact this

/-- At most one place is the first. -/
theorem C95_find_unique {t s : List Byte} {pos i j : Nat} (h : IsFirst t s pos i) (h' : IsFirst t s pos j) : i = j := by
  rcases Nat.lt_trichotomy i j with k | k | k
  · exact absurd h.2.2.1 (h'.2.2.2 i h.1 k)
  · exact k
  · exact absurd h'.2.2.1 (h.2.2.2 j h'.1 k)

/-- **`remove_prefix`** leaves the rest. -/
theorem C95_remove_prefix {v : View} (h : v.Ok) (n : Nat) :
    (v.removePrefix n).Ok ∧ (v.removePrefix n).text = v.text.drop n := by
  unfold View.Ok at h
  unfold View.removePrefix
  dsimp only
  split
  · rename_i hn
    refine ⟨by unfold View.Ok; dsimp only; omega, ?_⟩
    unfold View.text
    dsimp only
    rw [List.drop_take, List.drop_drop]
  · rename_i hn
    refine ⟨by unfold View.Ok; dsimp only; omega, ?_⟩
    unfold View.text
    dsimp only
    rw [Nat.sub_self, List.take_zero, List.drop_eq_nil_of_le]
    simp
    omega

theorem splitWith_same {contains : Byte → Option Bool} {s separators : List Byte}
    (h : ∀ c ∈ s, contains c = some (separators.contains c)) : ∀ (n start i : Nat),
    splitWith contains s start i n = some (splitLoop s separators start i n)
  | 0, start, i => rfl
  | n + 1, start, i => by
    unfold splitWith splitLoop
    cases hc : s[i]? with
    | none => rfl
    | some c =>
      dsimp only
      rw [h c (List.mem_of_getElem? hc)]
      show (if separators.contains c = true then _ else _) = some (if _ then _ else _)
      split
      · rw [splitWith_same h n (i + 1) (i + 1)]; rfl
      · exact splitWith_same h n start (i + 1)

/-- **`SplitString` is the same with both**, for a text without NUL and separators given as a C string, as all in the
program are. -/
theorem C95_split {v : View} {separators : List Byte} (hs : ∀ c ∈ separators, c ≠ 0) (ht : ∀ c ∈ v.text, c ≠ 0) :
    v.split (.ofC separators) = some (splitString v.text separators) := by
  unfold View.split splitString
  refine splitWith_same (fun c hc => ?_) _ _ _
  rw [C95_find_first hs (ht c hc)]
  simp only [Option.map_some]
  congr 1
  rw [List.findIdx?_isSome, Bool.eq_iff_iff, List.any_eq_true]
  simp

/-- **NUL separates** with the replacement, whatever the separators are. -/
theorem C95_split_nul : View.split ⟨[97, 0, 98], 0, 3⟩ (.ofC [44]) = some [[97], [98]] ∧
    splitString [97, 0, 98] [44] = [[97, 0, 98]] := by decide

theorem resize_take {s : List Byte} {n : Nat} (h : n ≤ s.length) : resizeText s n = s.take n := by
  unfold resizeText
  rw [Nat.sub_eq_zero_of_le h]
  simp

/-- **`StringPrintf`** yields the text if it is shorter than 1024 characters. -/
theorem C95_printf {t : List Byte} (h : t.length ≤ 1023) : stringPrintf (some t) = some t := by
  unfold stringPrintf vsnprintf1024
  simp only [Option.map_some]
  congr 1
  rw [List.take_of_length_le h]
  have e : (resizeText (t ++ [0]) 1024).take t.length = t := by
    unfold resizeText
    rw [List.take_of_length_le (l := t ++ [0]) (by simp; omega), List.append_assoc, List.take_left]
  rw [resize_take, e]
  unfold resizeText
  simp
  omega

/-- **Longer texts** keep their length and their first 1023 characters, all others are NUL. -/
theorem C95_printf_long {t : List Byte} (h : 1024 ≤ t.length) :
    stringPrintf (some t) = some (t.take 1023 ++ List.replicate (t.length - 1023) 0) := by
  unfold stringPrintf vsnprintf1024
  simp only [Option.map_some]
  congr 1
  have e : resizeText (t.take 1023 ++ [0]) 1024 = t.take 1023 ++ [0] := by
    have l : (t.take 1023 ++ [0]).length = 1024 := by simp; omega
    rw [resize_take (by omega), List.take_of_length_le (by omega)]
  rw [e]
  unfold resizeText
  have l : (t.take 1023 ++ [0]).length = 1024 := by simp; omega
  rw [List.take_of_length_le (by omega), l, List.append_assoc]
  have : t.length - 1023 = (t.length - 1024) + 1 := by omega
  rw [this, List.replicate_succ, List.cons_append, List.nil_append]

/-- **A format that fails** (`vsnprintf` returns -1) is not handled: the program ends with an exception. -/
theorem C95_printf_fails : stringPrintf none = none := rfl

/-- Non-vacuity: "abcabd" contains "abd" at 3, from 4 on not; the second piece of "a,b". -/
example : findText [97, 98, 99, 97, 98, 100] [97, 98, 100] 0 = some 3 ∧
    findText [97, 98, 99, 97, 98, 100] [97, 98, 100] 4 = none ∧
    (View.ofC [97, 44, 98]).split (.ofC [44]) = some [[97], [98]] := by decide

end BeagleG.Text
