import Verif.Expr.Spec
/-!
# Lemmas on text, keywords and operations
-/
namespace BeagleG.Expr
open Text

/-! ### White space -/

theorem skipWhite_idem : ∀ l : List Byte, skipWhite (skipWhite l) = skipWhite l
  | [] => rfl
  | c :: cs => by
    by_cases h : isSpace c = true
    · simp only [skipWhite, h, if_true]; exact skipWhite_idem cs
    · simp only [skipWhite, h]; simp [skipWhite, h]

theorem skipWhite_suffix : ∀ l : List Byte, skipWhite l <:+ l
  | [] => List.suffix_refl _
  | c :: cs => by
    simp only [skipWhite]
    split
    · exact (skipWhite_suffix cs).trans (List.suffix_cons _ _)
    · exact List.suffix_refl _

theorem skipWhite_length (l : List Byte) : (skipWhite l).length ≤ l.length := (skipWhite_suffix l).length_le

theorem skipWhite_head {l : List Byte} {c : Byte} {cs : List Byte} (h : skipWhite l = c :: cs) :
    isSpace c = false := by
  induction l with
  | nil => simp [skipWhite] at h
  | cons d ds ih =>
    simp only [skipWhite] at h
    split at h
    · exact ih h
    · injection h with h1 h2; subst h1; simpa using ‹¬ isSpace d = true›

theorem skipWhite_of_head {c : Byte} {cs : List Byte} (h : isSpace c = false) :
    skipWhite (c :: cs) = c :: cs := by simp [skipWhite, h]

/-- No byte is NUL. -/
def Clean (l : List Byte) : Prop := ∀ c ∈ l, c ≠ 0

theorem Clean.suffix {l r : List Byte} (h : Clean l) (hs : r <:+ l) : Clean r := fun c hc => h c (hs.subset hc)

theorem Clean.skip {l : List Byte} (h : Clean l) : Clean (skipWhite l) := h.suffix (skipWhite_suffix l)

theorem Clean.tail {l : List Byte} {c : Byte} (h : Clean (c :: l)) : Clean l := h.suffix (List.suffix_cons _ _)

theorem isAlpha_toUpper (c : Byte) : isAlpha (toUpper c) = isAlpha c := by
  have key : ∀ n : Fin 256, isAlpha (toUpper (UInt8.ofNat n)) = isAlpha (UInt8.ofNat n) := by decide +kernel
  have := key ⟨c.toNat, c.toNat_lt⟩
  simpa using this

/-! ### Keywords -/

theorem opTable_ok : TableOk opTable where
  chars := by decide +kernel
  positive := by decide +kernel
  distinct := by decide +kernel

theorem opTable_nonempty : ∀ p ∈ opTable, p.1 ≠ [] := by decide +kernel

/-- No assertion fails while `op_parse_` is built. -/
theorem opTrie_built : ∃ t, build opTable Trie.empty = some t ∧ opTrie = t := by
  obtain ⟨t, r, h1, _⟩ := C07_match_next opTable opTable_ok [] (by simp)
  exact ⟨t, h1, by simp [opTrie, h1]⟩

theorem matchSpec_unique {tbl : List (List Byte × Nat)} (hok : TableOk tbl) {line : List Byte}
    {r r' : Nat × List Byte} (h : MatchSpec tbl line r) (h' : MatchSpec tbl line r') : r = r' := by
  rcases h with ⟨k, v, m1, m2, m3, m4⟩ | ⟨m1, m2⟩ <;> rcases h' with ⟨k', v', n1, n2, n3, n4⟩ | ⟨n1, n2⟩
  · have a1 := m3 k' v' n1 n2
    have a2 := n3 k v m1 m2
    have el : k.length = k'.length := by omega
    have eu : upper k = upper k' := by
      rw [← ((isKeyword_iff _ _).1 m2).2, ← ((isKeyword_iff _ _).1 n2).2, el]
    have ep : (k, v) = (k', v') := distinct_unique hok.distinct m1 n1 eu
    injection ep with e1 e2
    rw [m4, n4, e1, e2]
  · exact absurd m2 (n1 k v m1)
  · exact absurd n2 (m1 k' v' n1)
  · rw [m2, n2]

/-- `MatchNext` on the operator table finds the longest keyword. -/
theorem matchNext_iff {line : List Byte} (hc : Clean line) (r : Nat × List Byte) :
    opTrie.matchNext line = some r ↔ MatchSpec opTable line r := by
  obtain ⟨t, r', h1, h2, h3⟩ := C07_match_next opTable opTable_ok line hc
  have ht : opTrie = t := by simp [opTrie, h1]
  rw [ht, h2]
  constructor
  · intro h; injection h with h; rw [← h]; exact h3
  · intro h; rw [matchSpec_unique opTable_ok h h3]

theorem matchNext_some {line : List Byte} (hc : Clean line) :
    ∃ r, opTrie.matchNext line = some r ∧ MatchSpec opTable line r := by
  obtain ⟨t, r', h1, h2, h3⟩ := C07_match_next opTable opTable_ok line hc
  have ht : opTrie = t := by simp [opTrie, h1]
  exact ⟨r', by rw [ht, h2], h3⟩

theorem keyword_positive {code : Nat} {line rest : List Byte} (h : Keyword code line rest) (h0 : 0 < code) :
    ∃ k, (k, code) ∈ opTable ∧ rest = skipWhite ((skipWhite line).drop k.length) ∧ k ≠ [] ∧
      k.length ≤ (skipWhite line).length := by
  rcases h with ⟨k, v, m1, m2, _, m4⟩ | ⟨_, m2⟩
  · injection m4 with e1 e2
    subst e1
    exact ⟨k, m1, e2, opTable_nonempty _ m1, ((isKeyword_iff _ _).1 m2).1⟩
  · injection m2 with e1 e2; omega

theorem keyword_suffix {code : Nat} {line rest : List Byte} (h : Keyword code line rest) (h0 : 0 < code) :
    rest <:+ line ∧ rest.length < line.length ∧ skipWhite rest = rest := by
  obtain ⟨k, _, h2, h3, h4⟩ := keyword_positive h h0
  have hk : 0 < k.length := List.length_pos_iff.2 h3
  subst h2
  refine ⟨?_, ?_, skipWhite_idem _⟩
  · exact ((skipWhite_suffix _).trans (List.drop_suffix _ _)).trans (skipWhite_suffix _)
  · have a := skipWhite_length ((skipWhite line).drop k.length)
    have b := skipWhite_length line
    simp only [List.length_drop] at a
    omega

/-- Every value of the table below `RIGHT_BRACKET` is that of a binary operator. -/
theorem code_cases {code : Nat} {line rest : List Byte} (h : Keyword code line rest) (h0 : 0 < code)
    (h1 : code < UNARY_OP_START) : code = RIGHT_BRACKET ∨ ∃ op : BinOp, code = op.code := by
  obtain ⟨k, hk, _⟩ := keyword_positive h h0
  have key : ∀ p ∈ opTable, p.2 < UNARY_OP_START → p.2 = RIGHT_BRACKET ∨ p.2 ∈
      [BinOp.pow, .div, .mod, .mul, .and, .xor, .sub, .or, .add, .eq, .ne, .gt, .ge, .lt, .le].map BinOp.code := by
    decide +kernel
  rcases key _ hk h1 with h | h
  · exact Or.inl h
  · obtain ⟨op, _, h⟩ := List.mem_map.1 h
    exact Or.inr ⟨op, h.symm⟩

theorem fun_cases {code : Nat} {line rest : List Byte} (h : Keyword code line rest)
    (h1 : UNARY_OP_START < code) : code = ATAN ∨ ∃ f : Fun, code = f.code := by
  obtain ⟨k, hk, _⟩ := keyword_positive h (by omega)
  have key : ∀ p ∈ opTable, UNARY_OP_START < p.2 → p.2 = ATAN ∨ p.2 ∈
      [Fun.abs, .acos, .asin, .cos, .exp, .fix, .fup, .ln, .round, .sin, .sqrt, .tan].map Fun.code := by
    decide +kernel
  rcases key _ hk h1 with h | h
  · exact Or.inl h
  · obtain ⟨f, _, h⟩ := List.mem_map.1 h
    exact Or.inr ⟨f, h.symm⟩

theorem BinOp.code_range (op : BinOp) : 0 < op.code ∧ op.code < RIGHT_BRACKET := by
  cases op <;> decide

theorem BinOp.precedence_code (op : BinOp) : precedence op.code = op.level := by
  cases op <;> decide

theorem BinOp.code_pow (op : BinOp) : op.code = POWER ↔ op = .pow := by
  cases op <;> decide

theorem Fun.code_range (f : Fun) : UNARY_OP_START < f.code ∧ f.code ≠ ATAN := by
  cases f <;> decide

theorem operation_ok_iff {line : List Byte} (hc : Clean line) (code : Nat) (rest : List Byte) :
    operation line = .ok code rest ↔ Keyword code line rest ∧ 0 < code ∧ code < UNARY_OP_START := by
  obtain ⟨r, h1, h2⟩ := matchNext_some hc
  unfold operation
  rw [h1]
  obtain ⟨v, rest'⟩ := r
  simp only
  constructor
  · intro h
    split at h
    · injection h with e1 e2; subst e1; subst e2; exact ⟨h2, ‹_›⟩
    · cases h
  · rintro ⟨h3, h4⟩
    have := matchSpec_unique opTable_ok h2 h3
    injection this with e1 e2
    subst e1; subst e2
    rw [if_pos h4]

theorem operation_cases {line : List Byte} (hc : Clean line) :
    operation line = .null ∨ ∃ code rest, operation line = .ok code rest := by
  obtain ⟨⟨v, rest⟩, h1, _⟩ := matchNext_some hc
  unfold operation
  rw [h1]
  simp only
  split
  · exact Or.inr ⟨_, _, rfl⟩
  · exact Or.inl rfl

theorem operationUnary_ok_iff {line : List Byte} (hc : Clean line) (code : Nat) (rest : List Byte) :
    operationUnary line = .ok code rest ↔ Keyword code line rest ∧ UNARY_OP_START < code := by
  obtain ⟨r, h1, h2⟩ := matchNext_some hc
  unfold operationUnary
  rw [h1]
  obtain ⟨v, rest'⟩ := r
  simp only
  constructor
  · intro h
    split at h
    · injection h with e1 e2; subst e1; subst e2; exact ⟨h2, ‹_›⟩
    · cases h
  · rintro ⟨h3, h4⟩
    have := matchSpec_unique opTable_ok h2 h3
    injection this with e1 e2
    subst e1; subst e2
    rw [if_pos h4]

theorem operationUnary_cases {line : List Byte} (hc : Clean line) :
    operationUnary line = .null ∨ ∃ code rest, operationUnary line = .ok code rest := by
  obtain ⟨⟨v, rest⟩, h1, _⟩ := matchNext_some hc
  unfold operationUnary
  rw [h1]
  simp only
  split
  · exact Or.inr ⟨_, _, rfl⟩
  · exact Or.inl rfl

/-! ### Operations -/

variable {F : Type} (fl : Float_ F)

theorem executeBinary_code (op : BinOp) (u v : F) : executeBinary fl u op.code v = op.apply fl u v := by
  cases op
  case and | xor | or =>
    show _ = some (if _ then _ else _)
    cases h1 : fl.eq u fl.zero <;> cases h2 : fl.eq v fl.zero <;>
      simp only [executeBinary, BinOp.code, h1, h2] <;> rfl
  all_goals rfl

theorem executeUnary_code (f : Fun) (u : F) : executeUnary fl u f.code = f.apply fl u := by
  cases f <;> rfl

theorem precedence_rb : precedence RIGHT_BRACKET = 1 := by decide

theorem precedence_pos (op : Nat) : 1 ≤ precedence op := by
  unfold precedence; repeat' split
  all_goals omega

theorem precedence_le (op : Nat) : precedence op ≤ 5 := by
  unfold precedence; repeat' split
  all_goals omega

theorem precedence_pow {op : Nat} (h : op ≠ POWER) : precedence op ≤ 4 := by
  unfold precedence; rw [if_neg h]; repeat' split
  all_goals omega

theorem precedence_times : precedence TIMES = 4 := by decide

end BeagleG.Expr
