import Verif.Expr.Sound
/-!
# C08, C09: expressions
-/
namespace BeagleG.Expr
open Text

variable {F : Type} (fl : Float_ F) (lookup : List Byte → F)

/-- C08. Whatever text is accepted as an expression: it is a way to write a tree that respects binding strength
and left-associativity, followed by the closing bracket, and the value computed is the value of that tree. No
restriction on length or nesting. -/
theorem C08_accepted (hfl : fl.Ok) (line rest : List Byte) (v : F) (hc : ∀ c ∈ line, c ≠ 0)
    (h : expression fl lookup line = .ok v rest) :
    ∃ t r1, Derives fl t (skipWhite line) r1 ∧ Keyword RIGHT_BRACKET r1 rest ∧ t.Proper ∧
      t.eval fl lookup = some v := by
  obtain ⟨t, r1, h1, h2, h3, h4⟩ := (sound fl lookup hfl _).2 [] [] (skipWhite line) (skipWhite line) v rest
    (Clean.skip hc) (skipWhite_idem _) .nil trivial .nil h
  exact ⟨t, r1, h1, h4, h2, h3⟩

/-- C08. Every tree that respects binding strength and left-associativity, written in any way the grammar
allows and with at most 5 operators waiting at a time: the expression is evaluated to the value of the tree, or
to an error if one of its operations is not defined. -/
theorem C08_evaluated (hfl : fl.Ok) (t : Tree F) (line r1 rest : List Byte) (hc : ∀ c ∈ line, c ≠ 0)
    (hd : Derives fl t (skipWhite line) r1) (hk : Keyword RIGHT_BRACKET r1 rest) (hp : t.Proper) (hf : t.Fits)
    (hdep : t.depth ≤ 5) : expression fl lookup line = toRes (t.eval fl lookup) rest := by
  have hcl : Clean (skipWhite line) := Clean.skip hc
  obtain ⟨N, hN⟩ := loops_bracket fl lookup (derives_ok fl lookup hfl hd hcl hp hf).2 hdep hk t.level_pos
  have hne := expression_fuel fl lookup hfl hc
  unfold expression at hne ⊢
  rcases loop_le fl lookup (Nat.le_max_left (fuel line) N) [] (skipWhite line) with h | h
  · exact absurd h hne
  · rw [← h, hN _ (Nat.le_max_right _ _)]

/-- No minus sign in front of an operand (negative numbers are literals). -/
def Tree.NoMinus : Tree F → Prop
  | .num _ => True
  | .named _ => True
  | .numbered e => e.NoMinus
  | .bracket e => e.NoMinus
  | .fn _ e => e.NoMinus
  | .atan y x => y.NoMinus ∧ x.NoMinus
  | .neg _ => False
  | .bin _ l r => l.NoMinus ∧ r.NoMinus

theorem noMinus_depth : ∀ t : Tree F, t.Proper → t.NoMinus → t.depth + t.level ≤ 6
  | .num _, _, _ => by simp [Tree.depth, Tree.level]
  | .named _, _, _ => by simp [Tree.depth, Tree.level]
  | .numbered _, _, _ => by simp [Tree.depth, Tree.level]
  | .bracket _, _, _ => by simp [Tree.depth, Tree.level]
  | .fn _ _, _, _ => by simp [Tree.depth, Tree.level]
  | .atan _ _, _, _ => by simp [Tree.depth, Tree.level]
  | .neg _, _, h => h.elim
  | .bin op l r, ⟨h1, h2, h3, h4, _⟩, ⟨n1, n2⟩ => by
    have a := noMinus_depth l h1 n1
    have b := noMinus_depth r h2 n2
    have hr : op.level < r.level := by
      rcases h4 with h | h
      · cases r <;> simp [Tree.isNeg] at h
        exact n2.elim
      · exact h
    simp only [Tree.depth, Tree.level]
    omega

theorem noMinus_fits : ∀ t : Tree F, t.Proper → t.NoMinus → t.Fits
  | .num _, _, _ => trivial
  | .named _, _, _ => trivial
  | .numbered e, h, n => noMinus_fits e h n
  | .bracket e, h, n => ⟨by have := noMinus_depth e h n; have := e.level_pos; omega, noMinus_fits e h n⟩
  | .fn _ e, h, n => ⟨by have := noMinus_depth e h n; have := e.level_pos; omega, noMinus_fits e h n⟩
  | .atan y x, h, n =>
    ⟨⟨by have := noMinus_depth y h.1 n.1; have := y.level_pos; omega, noMinus_fits y h.1 n.1⟩,
      by have := noMinus_depth x h.2 n.2; have := x.level_pos; omega, noMinus_fits x h.2 n.2⟩
  | .neg _, _, n => n.elim
  | .bin _ l r, h, n => ⟨noMinus_fits l h.1 n.1, noMinus_fits r h.2.1 n.2⟩

/-- C08. Without a minus sign in front of an operand the stack is always large enough, however long and deeply
nested the expression is. -/
theorem C08_evaluated_no_minus (hfl : fl.Ok) (t : Tree F) (line r1 rest : List Byte) (hc : ∀ c ∈ line, c ≠ 0)
    (hd : Derives fl t (skipWhite line) r1) (hk : Keyword RIGHT_BRACKET r1 rest) (hp : t.Proper) (hm : t.NoMinus) :
    expression fl lookup line = toRes (t.eval fl lookup) rest :=
  C08_evaluated fl lookup hfl t line r1 rest hc hd hk hp (noMinus_fits t hp hm)
    (by have := noMinus_depth t hp hm; have := t.level_pos; omega)

/-- C08. The value of a text does not depend on how one reads it: two trees for the same text have the same
value. -/
theorem C08_unambiguous (hfl : fl.Ok) (t t' : Tree F) (line r1 rest r1' rest' : List Byte) (hc : ∀ c ∈ line, c ≠ 0)
    (hd : Derives fl t (skipWhite line) r1) (hk : Keyword RIGHT_BRACKET r1 rest) (hp : t.Proper) (hf : t.Fits)
    (hdep : t.depth ≤ 5) (hd' : Derives fl t' (skipWhite line) r1') (hk' : Keyword RIGHT_BRACKET r1' rest')
    (hp' : t'.Proper) (hf' : t'.Fits) (hdep' : t'.depth ≤ 5) : t.eval fl lookup = t'.eval fl lookup := by
  have a := C08_evaluated fl lookup hfl t line r1 rest hc hd hk hp hf hdep
  have b := C08_evaluated fl lookup hfl t' line r1' rest' hc hd' hk' hp' hf' hdep'
  rw [a] at b
  cases h1 : t.eval fl lookup <;> cases h2 : t'.eval fl lookup <;> simp [toRes, h1, h2] at b
  · rfl
  · rw [b.1]

/-- C09, the part that holds. For every text: if the evaluation uses a slot outside the stack, then at some
bracket level six operators were waiting for their right operand, at least two of them minus signs in front of
an operand. So a line without such a level is evaluated within the stack (or refused with an error). -/
theorem C09_within_stack_partial (hfl : fl.Ok) (line : List Byte) (hc : ∀ c ∈ line, c ≠ 0)
    (h : expression fl lookup line = .undef) : Overrun fl line :=
  Overrun.mono fl ((undef_overrun fl lookup hfl _).2 [] [] _ _ (Clean.skip hc) (skipWhite_idem _) .nil trivial .nil
    (List.suffix_refl _) (Or.inl (by simp)) h) (skipWhite_suffix line)

/-- C09, the part that holds. The same for a value, e.g. behind a letter. -/
theorem C09_value_within_stack_partial (hfl : fl.Ok) (line : List Byte) (hc : ∀ c ∈ line, c ≠ 0)
    (h : valueOf fl lookup (skipWhite line) = .undef) : Overrun fl line :=
  Overrun.mono fl ((undef_overrun fl lookup hfl _).1 _ (Clean.skip hc) (skipWhite_idem _) h) (skipWhite_suffix line)

/-! ### A concrete arithmetic, for examples -/

/-- Integers; numbers are single digits with an optional minus sign. -/
def exampleFloat : Float_ Int where
  zero := 0
  one := 1
  minusOne := -1
  half := 0
  minusHalf := 0
  lt a b := a < b
  eq a b := a = b
  add a b := a + b
  sub a b := a - b
  mul a b := a * b
  div a b := a / b
  fmod a b := a % b
  pow a b := a ^ b.toNat
  abs a := a.natAbs
  floor a := a
  ceil a := a
  trunc a := a
  exp a := a
  log a := a
  sqrt a := a
  sinDeg a := a
  cosDeg a := a
  tanDeg a := a
  asinDeg a := a
  acosDeg a := a
  atan2Deg a b := a - b
  decimal a := [UInt8.ofNat (48 + a.toNat % 10)]
  strtof l := match l with
    | [] => none
    | c :: cs =>
      if isDigit c then some (((c.toNat - 48 : Nat) : Int), cs)
      else if c = 45 then
        match cs with
        | [] => none
        | d :: ds => if isDigit d then some (-((d.toNat - 48 : Nat) : Int), ds) else none
      else none

theorem exampleFloat_ok : exampleFloat.Ok where
  suffix := by
    intro l v r h
    rcases l with _ | ⟨c, cs⟩
    · simp [exampleFloat] at h
    · simp only [exampleFloat] at h
      split at h
      · injection h with h; injection h with _ h; subst h
        exact ⟨List.suffix_cons _ _, by simp⟩
      · split at h
        · rcases cs with _ | ⟨d, ds⟩
          · simp at h
          · simp only at h
            split at h
            · injection h with h; injection h with _ h; subst h
              exact ⟨(List.suffix_cons _ _).trans (List.suffix_cons _ _), by simp; omega⟩
            · cases h
        · cases h

/-- C09 does not hold as stated: `[1 == -#1 ** -#1 ** -#1]` uses slot 6 of the six slots 0 to 5. -/
theorem C09_overrun : ∃ line : List Byte, (∀ c ∈ line, c ≠ 0) ∧
    expression exampleFloat (fun _ => 1) line = .undef :=
  ⟨[49, 61, 61, 45, 35, 49, 42, 42, 45, 35, 49, 42, 42, 45, 35, 49, 93], by decide +kernel, by decide +kernel⟩

/-- An expression can also be too deep for the stack without overrunning it; it is refused:
`[1==2+3*4**-#1**5]`. -/
theorem C08_too_deep : expression exampleFloat (fun _ => 1)
    [49, 61, 61, 50, 43, 51, 42, 52, 42, 42, 45, 35, 49, 42, 42, 53, 93] = .null := by decide +kernel

/-- Non-vacuity: `[9-2*3-1 MOD 4]` is `(9-(2*3))-(1 MOD 4)`. -/
example : ∃ t r1, Derives exampleFloat t [57, 45, 50, 42, 51, 45, 49, 32, 109, 111, 100, 32, 52, 93] r1 ∧
    Keyword RIGHT_BRACKET r1 [] ∧ t.Proper ∧ t.NoMinus ∧ t.eval exampleFloat (fun _ => 0) = some 2 ∧
    expression exampleFloat (fun _ => 0) [57, 45, 50, 42, 51, 45, 49, 32, 109, 111, 100, 32, 52, 93] = .ok 2 [] := by
  have kw : ∀ (code : Nat) (line rest : List Byte), (∀ c ∈ line, c ≠ 0) →
      opTrie.matchNext line = some (code, rest) → Keyword code line rest := fun _ _ _ hc h => (matchNext_iff hc _).1 h
  have num : ∀ (c : Byte) (cs : List Byte) (rest : List Byte), isDigit c = true → skipWhite cs = rest →
      Derives exampleFloat (.num ((c.toNat - 48 : Nat) : Int)) (c :: cs) rest := by
    intro c cs rest h e
    have key : ∀ n : Fin 256, isDigit (UInt8.ofNat n) = true → isAlpha (UInt8.ofNat n) = false ∧
        UInt8.ofNat n ≠ 91 ∧ UInt8.ofNat n ≠ 35 ∧ isSpace (UInt8.ofNat n) = false := by decide +kernel
    have := key ⟨c.toNat, c.toNat_lt⟩
    simp only [UInt8.ofNat_toNat] at this
    rw [← e]
    exact .num ⟨c, cs, rfl, this h⟩ (by simp [exampleFloat, h])
  have d1 : Derives exampleFloat (.bin .mul (.num 2) (.num 3)) [50, 42, 51, 45, 49, 32, 109, 111, 100, 32, 52, 93]
      [45, 49, 32, 109, 111, 100, 32, 52, 93] :=
    .bin (num 50 [42, 51, 45, 49, 32, 109, 111, 100, 32, 52, 93] _ (by decide) rfl)
      (kw _ _ [51, 45, 49, 32, 109, 111, 100, 32, 52, 93] (by decide +kernel) (by decide +kernel))
      (num 51 _ _ (by decide) rfl)
  have d2 : Derives exampleFloat (.bin .mod (.num 1) (.num 4)) [49, 32, 109, 111, 100, 32, 52, 93] [93] :=
    .bin (num 49 _ [109, 111, 100, 32, 52, 93] (by decide) (by decide +kernel))
      (kw _ _ [52, 93] (by decide +kernel) (by decide +kernel)) (num 52 _ _ (by decide) rfl)
  have d3 := Derives.bin (op := .sub) (num 57 [45, 50, 42, 51, 45, 49, 32, 109, 111, 100, 32, 52, 93] _ (by decide) rfl)
    (kw _ _ _ (by decide +kernel) (by decide +kernel)) d1
  have d4 := Derives.bin (op := .sub) d3 (kw _ _ [49, 32, 109, 111, 100, 32, 52, 93] (by decide +kernel) (by decide +kernel)) d2
  refine ⟨_, _, d4, kw _ _ _ (by decide +kernel) (by decide +kernel), ?_, ?_, by decide +kernel, by decide +kernel⟩
  · simp [Tree.Proper, Tree.level, BinOp.level, Tree.isNeg]
  · simp [Tree.NoMinus]

/-- Non-vacuity: some text is accepted. -/
example : expression exampleFloat (fun n => if n = [97] then 7 else 0) [45, 35, 60, 65, 62, 93] = .ok 0 [] ∧
    expression exampleFloat (fun n => if n = [97] then 7 else 0) [45, 35, 97, 42, 42, 50, 93] = .ok (-49) [] := by
  decide +kernel

/-- Specification: the operators and functions, G-code.md 238-280 and the comparisons of the conditions. -/
def documented : List (String × Nat) :=
  [("+", PLUS), ("-", MINUS), ("*", TIMES), ("/", DIVIDED_BY), ("MOD", MODULO), ("**", POWER),
   ("OR", NON_EXCLUSIVE_OR), ("||", NON_EXCLUSIVE_OR), ("XOR", EXCLUSIVE_OR), ("AND", AND2), ("&&", AND2),
   ("==", EQ), ("EQ", EQ), ("!=", NE), ("NE", NE), (">", GT), ("GT", GT), (">=", GE), ("GE", GE),
   ("<", LT), ("LT", LT), ("<=", LE), ("LE", LE), ("]", RIGHT_BRACKET),
   ("atan", ATAN), ("asin", ASIN), ("acos", ACOS), ("sin", SIN), ("cos", COS), ("tan", TAN), ("exp", EXP), ("ln", LN),
   ("sqrt", SQRT), ("abs", ABS), ("round", ROUND), ("fix", FIX), ("fup", FUP)]

/-- **C08.** The keywords are the documented ones. -/
theorem C08_keywords (k : List Byte) (code : Nat) : (k, code) ∈ opTable ↔
    (k, code) ∈ documented.map fun p => (p.1.toList.map fun c => UInt8.ofNat c.toNat, p.2) := by
  have h1 : ∀ x ∈ opTable, x ∈ documented.map fun p => (p.1.toList.map fun c => UInt8.ofNat c.toNat, p.2) := by
    decide +kernel
  have h2 : ∀ x ∈ documented.map fun p => (p.1.toList.map fun c => UInt8.ofNat c.toNat, p.2), x ∈ opTable := by
    decide +kernel
  exact ⟨h1 _, h2 _⟩

end BeagleG.Expr
