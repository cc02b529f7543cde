import Verif.Text.Model
import Mathlib.Tactic.ByContra
import Mathlib.Tactic.Tauto
/-!
# C07: the keyword lexer takes the longest registered keyword
-/
namespace BeagleG.Text

/-! ### Specification -/

/-- Upper case of a text. -/
def upper (l : List Byte) : List Byte := l.map toUpper

/-- A keyword is at the start of the text, whatever the case of the letters. -/
def IsKeywordOf (keyword text : List Byte) : Prop := upper keyword <+: upper text

/-- A table that can be registered: no white space or NUL in keywords, positive values, no keyword twice. -/
structure TableOk (tbl : List (List Byte × Nat)) : Prop where
  chars : ∀ p ∈ tbl, ∀ c ∈ p.1, isSpace c = false ∧ c ≠ 0
  positive : ∀ p ∈ tbl, 0 < p.2
  distinct : tbl.Pairwise fun p q => upper p.1 ≠ upper q.1

/-! ### Tries -/

/-- The value at the end of a path. -/
def Trie.at_ : Trie → List Byte → Nat
  | .mk v _, [] => v
  | .mk _ next, c :: cs =>
    match next c with
    | none => 0
    | some t => t.at_ cs

/-- Some keyword passes through this path. -/
def Trie.has : Trie → List Byte → Bool
  | .mk _ _, [] => true
  | .mk _ next, c :: cs =>
    match next c with
    | none => false
    | some t => t.has cs

theorem empty_at (w : List Byte) : Trie.empty.at_ w = 0 := by
  cases w <;> rfl

theorem add_isSome : ∀ (k : List Byte) (t : Trie) (v : Nat), (∀ c ∈ k, isSpace c = false) →
    t.at_ (upper k) = 0 → ∃ t', t.add k v = some t'
  | [], .mk v0 next, v, _, h => by
    simp [upper, Trie.at_] at h
    exact ⟨_, by simp [Trie.add, h]; rfl⟩
  | c :: cs, .mk v0 next, v, hc, h => by
    have h1 := hc c (by simp)
    have hz : (((next (toUpper c)).getD Trie.empty).at_ (upper cs)) = 0 := by
      simp only [upper, List.map_cons, Trie.at_] at h
      cases hn : next (toUpper c) with
      | none => simp [empty_at]
      | some t => simpa [hn, upper] using h
    obtain ⟨t', ht⟩ := add_isSome cs _ v (fun x hx => hc x (by simp [hx])) hz
    exact ⟨_, by simp [Trie.add, h1, ht]; rfl⟩

theorem add_at : ∀ (k : List Byte) (t t' : Trie) (v : Nat), t.add k v = some t' → ∀ w,
    t'.at_ w = if w = upper k then v else t.at_ w
  | [], .mk v0 next, t', v, h, w => by
    simp only [Trie.add] at h
    split at h
    · injection h with h; subst h
      cases w <;> simp [Trie.at_, upper]
    · cases h
  | c :: cs, .mk v0 next, t', v, h, w => by
    simp only [Trie.add] at h
    split at h
    · cases h
    · split at h
      · cases h
      · rename_i child hchild
        injection h with h; subst h
        have ih := add_at cs _ child v hchild
        cases w with
        | nil => simp [Trie.at_, upper]
        | cons b bs =>
          by_cases hb : b = toUpper c
          · subst hb
            simp only [Trie.at_, if_true, upper, List.map_cons, List.cons.injEq, true_and]
            rw [ih bs]
            cases hn : next (toUpper c) with
            | none => simp [empty_at, upper]
            | some t => by_cases hb : bs = List.map toUpper cs <;> simp [upper, hb]
          · simp [Trie.at_, upper, hb]

/-- No path leads through NUL. -/
def Trie.NulFree (t : Trie) : Prop := ∀ w, t.has (w ++ [0]) = false

theorem add_has : ∀ (k : List Byte) (t t' : Trie) (v : Nat), t.add k v = some t' → ∀ w,
    t'.has w = true → t.has w = true ∨ w <+: upper k
  | [], .mk v0 next, t', v, h, w, hw => by
    simp only [Trie.add] at h
    split at h
    · injection h with h; subst h
      cases w with
      | nil => simp
      | cons b bs => left; simpa [Trie.has] using hw
    · cases h
  | c :: cs, .mk v0 next, t', v, h, w, hw => by
    simp only [Trie.add] at h
    split at h
    · cases h
    · split at h
      · cases h
      · rename_i child hchild
        injection h with h; subst h
        have ih := add_has cs _ child v hchild
        cases w with
        | nil => simp
        | cons b bs =>
          by_cases hb : b = toUpper c
          · subst hb
            simp only [Trie.has, if_true] at hw
            rcases ih bs hw with h1 | h1
            · cases hn : next (toUpper c) with
              | none =>
                simp only [hn, Option.getD_none] at h1
                cases bs with
                | nil => right; simp [upper]
                | cons x xs => simp [Trie.empty, Trie.has] at h1
              | some t => left; simpa [Trie.has, hn] using h1
            · right
              simp only [upper, List.map_cons, List.cons_prefix_cons, true_and]
              exact h1
          · left
            simpa [Trie.has, hb] using hw

theorem toUpper_zero : toUpper 0 = 0 := by decide

theorem toUpper_ne_zero (c : Byte) (h : c ≠ 0) : toUpper c ≠ 0 := by
  have key : ∀ n : Fin 256, n.val ≠ 0 → toUpper (UInt8.ofNat n) ≠ 0 := by decide +kernel
  have h0 : c.toNat ≠ 0 := by
    intro e
    exact h (by rw [← UInt8.ofNat_toNat (x := c), e]; rfl)
  have := key ⟨c.toNat, c.toNat_lt⟩ h0
  simpa using this

theorem add_nulFree {k : List Byte} {t t' : Trie} {v : Nat} (h : t.add k v = some t') (hk : ∀ c ∈ k, c ≠ 0)
    (ht : t.NulFree) : t'.NulFree := by
  intro w
  by_contra hc
  have hc' : t'.has (w ++ [0]) = true := by simpa using hc
  rcases add_has k t t' v h _ hc' with h1 | h1
  · rw [ht w] at h1; cases h1
  · have : (0 : Byte) ∈ upper k := h1.subset (by simp)
    simp only [upper, List.mem_map] at this
    obtain ⟨c, hc1, hc2⟩ := this
    exact toUpper_ne_zero c (hk c hc1) hc2

theorem build_spec : ∀ (tbl : List (List Byte × Nat)) (t : Trie), TableOk tbl → t.NulFree →
    (∀ p ∈ tbl, t.at_ (upper p.1) = 0) →
    ∃ t', build tbl t = some t' ∧ t'.NulFree ∧
      ∀ w, t'.at_ w = match tbl.find? fun p => w = upper p.1 with
        | some p => p.2
        | none => t.at_ w
  | [], t, _, hn, _ => ⟨t, rfl, hn, fun w => rfl⟩
  | (k, v) :: tbl, t, hok, hn, hz => by
    have hd := List.pairwise_cons.1 hok.distinct
    have hk := hok.chars (k, v) (by simp)
    obtain ⟨t1, h1⟩ := add_isSome k t v (fun c hc => (hk c hc).1) (hz (k, v) (by simp))
    have hadd : t.addKeyword k v = some t1 := by
      rw [Trie.addKeyword, if_pos (hok.positive (k, v) (by simp)), h1]
    have hat := add_at k t t1 v h1
    obtain ⟨t2, h2, h3, h4⟩ := build_spec tbl t1
      ⟨fun p hp => hok.chars p (by simp [hp]), fun p hp => hok.positive p (by simp [hp]), hd.2⟩
      (add_nulFree h1 (fun c hc => (hk c hc).2) hn)
      (by
        intro p hp
        rw [hat, if_neg (fun e => hd.1 p hp e.symm)]
        exact hz p (by simp [hp]))
    refine ⟨t2, by simp only [build, hadd, h2], h3, ?_⟩
    intro w
    rw [h4 w]
    by_cases hw : w = upper k
    · rw [List.find?_cons_of_pos (by simpa using hw)]
      have : tbl.find? (fun p => w = upper p.1) = none := by
        rw [List.find?_eq_none]
        intro p hp hc
        simp only [decide_eq_true_eq] at hc
        exact hd.1 p hp (by rw [← hc, hw])
      rw [this]
      simp [hat, hw]
    · rw [List.find?_cons_of_neg (by simpa using hw)]
      cases tbl.find? (fun p => w = upper p.1) with
      | some p => rfl
      | none => simp [hat, hw]

/-! ### Walking -/

/-- The longest prefix with a value. -/
theorem walk_spec : ∀ (word : List Byte) (t : Trie) (best : Nat × List Byte), t.NulFree →
    (∀ c ∈ word, c ≠ 0) →
    ((∀ n, n ≤ word.length → t.at_ (upper (word.take n)) = 0) ∧ walk t word best = some best) ∨
      ∃ n, n ≤ word.length ∧ 0 < t.at_ (upper (word.take n)) ∧
        (∀ n', n' ≤ word.length → 0 < t.at_ (upper (word.take n')) → n' ≤ n) ∧
        walk t word best = some (t.at_ (upper (word.take n)), skipWhite (word.drop n))
  | [], .mk v next, best, hnf, _ => by
    have h0 : next (toUpper 0) = none := by
      have := hnf []
      rw [toUpper_zero]
      simp only [List.nil_append, Trie.has] at this
      cases hn : next 0 with
      | none => rfl
      | some t => cases t; simp [hn, Trie.has] at this
    simp only [walk, h0]
    by_cases hv : v > 0
    · right
      exact ⟨0, by simp, by simpa [upper, Trie.at_] using hv, by simp, by simp [hv, upper, Trie.at_]⟩
    · left
      refine ⟨?_, by simp [hv]⟩
      intro n _
      simp [upper, Trie.at_]; omega
  | c :: cs, .mk v next, best, hnf, hw => by
    simp only [walk]
    cases hn : next (toUpper c) with
    | none =>
      have hz : ∀ n, (Trie.mk v next).at_ (upper ((c :: cs).take (n + 1))) = 0 := by
        intro n; simp [upper, Trie.at_, hn]
      by_cases hv : v > 0
      · right
        refine ⟨0, by simp, by simpa [upper, Trie.at_] using hv, ?_, by simp [hv, upper, Trie.at_]⟩
        intro n' _ hpos
        cases n' with
        | zero => omega
        | succ n' => rw [hz n'] at hpos; omega
      · left
        refine ⟨?_, by simp [hv]⟩
        intro n _
        cases n with
        | zero => simp [upper, Trie.at_]; omega
        | succ n => exact hz n
    | some t =>
      have hat : ∀ n, (Trie.mk v next).at_ (upper ((c :: cs).take (n + 1))) = t.at_ (upper (cs.take n)) := by
        intro n; simp [upper, Trie.at_, hn]
      have hnf' : t.NulFree := by
        intro w
        have := hnf (toUpper c :: w)
        simpa [Trie.has, hn] using this
      have ih := walk_spec cs t (if v > 0 then (v, skipWhite (c :: cs)) else best) hnf'
        fun x hx => hw x (by simp [hx])
      rcases ih with ⟨i1, i2⟩ | ⟨n, i1, i2, i3, i4⟩
      · by_cases hv : v > 0
        · right
          refine ⟨0, by simp, by simpa [upper, Trie.at_] using hv, ?_, ?_⟩
          · intro n' hle hpos
            cases n' with
            | zero => omega
            | succ n' => rw [hat, i1 n' (by simpa using hle)] at hpos; omega
          · rw [if_pos hv] at i2; simp only [if_pos hv, i2]; simp [upper, Trie.at_]
        · left
          refine ⟨?_, by rw [if_neg hv] at i2; simp only [if_neg hv, i2]⟩
          intro n hle
          cases n with
          | zero => simp [upper, Trie.at_]; omega
          | succ n => rw [hat]; exact i1 n (by simpa using hle)
      · right
        refine ⟨n + 1, by simpa using i1, by rw [hat]; exact i2, ?_, ?_⟩
        · intro n' hle hpos
          cases n' with
          | zero => omega
          | succ n' =>
            rw [hat] at hpos
            have := i3 n' (by simpa using hle) hpos
            omega
        · simp only [i4, hat, List.drop_succ_cons]

theorem skipWhite_subset : ∀ (l : List Byte) (c : Byte), c ∈ skipWhite l → c ∈ l
  | [], c, h => by simp [skipWhite] at h
  | x :: l, c, h => by
    simp only [skipWhite] at h
    split at h
    · exact List.mem_cons_of_mem _ (skipWhite_subset l c h)
    · exact h

theorem isKeyword_iff (k text : List Byte) : IsKeywordOf k text ↔ k.length ≤ text.length ∧ upper (text.take k.length) = upper k := by
  unfold IsKeywordOf upper
  constructor
  · intro h
    have hl := h.length_le
    simp at hl
    refine ⟨hl, ?_⟩
    have := List.prefix_iff_eq_take.1 h
    rw [this]; simp [List.map_take]
  · rintro ⟨h1, h2⟩
    rw [← h2, List.map_take]
    exact List.take_prefix _ _

theorem distinct_unique : ∀ {tbl : List (List Byte × Nat)} {p q : List Byte × Nat},
    tbl.Pairwise (fun p q => upper p.1 ≠ upper q.1) → p ∈ tbl → q ∈ tbl → upper p.1 = upper q.1 → p = q
  | [], _, _, _, hp, _, _ => by simp at hp
  | x :: tbl, p, q, h, hp, hq, e => by
    have h' := List.pairwise_cons.1 h
    rcases List.mem_cons.1 hp with hp' | hp' <;> rcases List.mem_cons.1 hq with hq' | hq'
    · rw [hp', hq']
    · exact absurd e (hp' ▸ h'.1 q hq')
    · exact absurd e.symm (hq' ▸ h'.1 p hp')
    · exact distinct_unique h'.2 hp' hq' e

/-- What `MatchNext` has to do. -/
def MatchSpec (tbl : List (List Byte × Nat)) (input : List Byte) (result : Nat × List Byte) : Prop :=
  (∃ k v, (k, v) ∈ tbl ∧ IsKeywordOf k (skipWhite input) ∧
      (∀ k' v', (k', v') ∈ tbl → IsKeywordOf k' (skipWhite input) → k'.length ≤ k.length) ∧
      result = (v, skipWhite ((skipWhite input).drop k.length))) ∨
    ((∀ k v, (k, v) ∈ tbl → ¬ IsKeywordOf k (skipWhite input)) ∧ result = (0, input))

/-- C07. For every table of keywords, in any order, and every text: registering succeeds; `MatchNext`
finds the longest keyword at the start of the text (after white space), returns its value, and moves
exactly past it and following white space; without a keyword it returns 0 and does not move. -/
theorem C07_match_next (tbl : List (List Byte × Nat)) (hok : TableOk tbl) (input : List Byte)
    (hin : ∀ c ∈ input, c ≠ 0) :
    ∃ t r, build tbl Trie.empty = some t ∧ t.matchNext input = some r ∧ MatchSpec tbl input r := by
  have hempty : Trie.empty.NulFree := by
    intro w; cases w <;> rfl
  obtain ⟨t, h1, h2, h3⟩ := build_spec tbl Trie.empty hok hempty (fun p _ => empty_at _)
  have hw : ∀ c ∈ skipWhite input, c ≠ 0 := fun c hc => hin c (skipWhite_subset _ _ hc)
  have hat : ∀ w, 0 < t.at_ w ↔ ∃ p ∈ tbl, w = upper p.1 := by
    intro w
    rw [h3 w]
    cases hf : tbl.find? (fun p => w = upper p.1) with
    | none =>
      have := List.find?_eq_none.1 hf
      simp only [empty_at, Nat.lt_irrefl, false_iff]
      rintro ⟨p, hp, e⟩
      exact this p hp (by simpa using e)
    | some p =>
      have hp := List.mem_of_find?_eq_some hf
      have he := List.find?_some hf
      simp only [decide_eq_true_eq] at he
      exact ⟨fun _ => ⟨p, hp, he⟩, fun _ => hok.positive p hp⟩
  have hval : ∀ p ∈ tbl, t.at_ (upper p.1) = p.2 := by
    intro p hp
    rw [h3]
    cases hf : tbl.find? (fun q => upper p.1 = upper q.1) with
    | none => exact absurd (List.find?_eq_none.1 hf p hp) (by simp)
    | some q =>
      have hq := List.mem_of_find?_eq_some hf
      have he := List.find?_some hf
      simp only [decide_eq_true_eq] at he
      by_cases e : p = q
      · rw [e]
      · have hd := hok.distinct
        exact absurd (distinct_unique hd hp hq he) e
  have hlen : ∀ p : List Byte × Nat, ∀ n ≤ (skipWhite input).length, upper ((skipWhite input).take n) = upper p.1 → p.1.length = n := by
    intro p n hn e
    have := congrArg List.length e
    simp [upper] at this; omega
  rcases walk_spec (skipWhite input) t (0, input) h2 hw with ⟨w1, w2⟩ | ⟨n, w1, w2, w3, w4⟩
  · refine ⟨t, _, h1, w2, Or.inr ⟨?_, rfl⟩⟩
    intro k v hkv hkw
    obtain ⟨hl, he⟩ := (isKeyword_iff k _).1 hkw
    have := (hat (upper ((skipWhite input).take k.length))).2 ⟨(k, v), hkv, he⟩
    rw [w1 _ hl] at this; omega
  · refine ⟨t, _, h1, w4, Or.inl ?_⟩
    obtain ⟨p, hp, he⟩ := (hat _).1 w2
    have hpl := hlen p n w1 he
    refine ⟨p.1, p.2, hp, (isKeyword_iff _ _).2 ⟨by omega, by rw [hpl, he]⟩, ?_, ?_⟩
    · intro k' v' hk' hkw
      obtain ⟨hl, he'⟩ := (isKeyword_iff k' _).1 hkw
      have := w3 k'.length hl ((hat _).2 ⟨(k', v'), hk', he'⟩)
      omega
    · rw [he, hval p hp, hpl]

/-- C07. The result does not depend on the order of registration. -/
theorem C07_order_irrelevant (tbl tbl' : List (List Byte × Nat)) (hok : TableOk tbl) (hok' : TableOk tbl')
    (hsame : ∀ p, p ∈ tbl ↔ p ∈ tbl') (input : List Byte) (hin : ∀ c ∈ input, c ≠ 0) :
    ∃ t t' r, build tbl Trie.empty = some t ∧ build tbl' Trie.empty = some t' ∧
      t.matchNext input = some r ∧ t'.matchNext input = some r := by
  obtain ⟨t, r, h1, h2, h3⟩ := C07_match_next tbl hok input hin
  obtain ⟨t', r', h1', h2', h3'⟩ := C07_match_next tbl' hok' input hin
  have : r = r' := by
    rcases h3 with ⟨k, v, m1, m2, m3, m4⟩ | ⟨m1, m2⟩ <;> rcases h3' with ⟨k', v', n1, n2, n3, n4⟩ | ⟨n1, n2⟩
    · have a1 := m3 k' v' ((hsame _).2 n1) n2
      have a2 := n3 k v ((hsame _).1 m1) m2
      have el : k.length = k'.length := by omega
      have eu : upper k = upper k' := by
        rw [← ((isKeyword_iff _ _).1 m2).2, ← ((isKeyword_iff _ _).1 n2).2, el]
      have ep : (k, v) = (k', v') := by
        exact distinct_unique hok.distinct m1 ((hsame _).2 n1) eu
      injection ep with e1 e2
      rw [m4, n4, e1, e2]
    · exact absurd m2 (n1 k v ((hsame _).1 m1))
    · exact absurd n2 (m1 k' v' ((hsame _).2 n1))
    · rw [m2, n2]
  subst this
  exact ⟨t, t', r, h1, h1', h2, h2'⟩

/-- C07. `ExpectNext` moves the input only if the keyword found is the expected one, and then exactly as
`MatchNext` does. -/
theorem C07_expect_next (t : Trie) (input rest : List Byte) (v e : Nat) (h : t.matchNext input = some (v, rest)) :
    t.expectNext input e = some (if v = e then (true, rest) else (false, input)) := by
  simp [Trie.expectNext, h]

/-- Non-vacuity: "<", "<=" and "if" (in lower case) in " <= 5", "<x" and "IF[". -/
example :
    let tbl := [([60], 1), ([60, 61], 2), ([105, 102], 3)]
    (build tbl Trie.empty).bind (·.matchNext [32, 60, 61, 32, 53]) = some (2, [53]) ∧
    (build tbl Trie.empty).bind (·.matchNext [60, 120]) = some (1, [120]) ∧
    (build tbl Trie.empty).bind (·.matchNext [73, 70, 91]) = some (3, [91]) ∧
    (build tbl Trie.empty).bind (·.matchNext [32, 73]) = some (0, [32, 73]) := by
  decide +kernel

end BeagleG.Text
