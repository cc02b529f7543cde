import Verif.Expr.Fuel
/-!
# Every expression written according to the grammar is evaluated to the value of its tree
-/
namespace BeagleG.Expr
open Text

variable {F : Type} (fl : Float_ F) (lookup : List Byte → F)

/-- With enough fuel the loop ends with this result. -/
def Loops (S : List (F × Nat)) (line : List Byte) (res : Res F) : Prop :=
  ∃ N, ∀ n, N ≤ n → loop fl lookup n S line = res

/-- With enough fuel `value` ends with this result. -/
def Values (line : List Byte) (res : Res F) : Prop :=
  ∃ N, ∀ n, N ≤ n → value fl lookup n line = res

/-- The loop ends with this result after the value and the operator have been read. -/
def Steps (S : List (F × Nat)) (v : F) (o : Nat) (rest : List Byte) (res : Res F) : Prop :=
  match push fl S v o with
  | none => res = .null
  | some S' =>
    match finished S' with
    | some w => res = .ok w rest
    | none => Loops fl lookup S' rest res

/-- A result of evaluation as a result of parsing. -/
def toRes (v : Option F) (rest : List Byte) : Res F :=
  match v with
  | none => .null
  | some v => .ok v rest

theorem loops_of_value_ok {S : List (F × Nat)} {line r1 r2 : List Byte} {v : F} {o : Nat} {res : Res F}
    (hS : S.length < MAX_STACK) (hc : Clean r1) (hv : Values fl lookup line (.ok v r1))
    (hk : Keyword o r1 r2) (h0 : 0 < o) (h1 : o < UNARY_OP_START) (hst : Steps fl lookup S v o r2 res) :
    Loops fl lookup S line res := by
  obtain ⟨N, hN⟩ := hv
  have hop : operation r1 = .ok o r2 := (operation_ok_iff hc _ _).2 ⟨hk, h0, h1⟩
  have hidem := (keyword_suffix hk h0).2.2
  unfold Steps at hst
  have base : ∀ n, N ≤ n → loop fl lookup (n + 1) S line =
      match push fl S v o with
      | none => .null
      | some S' =>
        match finished S' with
        | some w => .ok w r2
        | none => loop fl lookup n S' r2 := by
    intro n hn
    rw [loop.eq_2, if_neg (by omega), hN n hn]
    simp only [afterValue, hop, Res.bind, hidem]
    rfl
  cases hp : push fl S v o with
  | none =>
    rw [hp] at hst
    subst hst
    refine ⟨N + 1, fun n hn => ?_⟩
    obtain ⟨m, rfl⟩ : ∃ m, n = m + 1 := ⟨n - 1, by omega⟩
    rw [base m (by omega), hp]
  | some S' =>
    rw [hp] at hst
    simp only at hst
    cases hf : finished S' with
    | some w =>
      rw [hf] at hst
      subst hst
      refine ⟨N + 1, fun n hn => ?_⟩
      obtain ⟨m, rfl⟩ : ∃ m, n = m + 1 := ⟨n - 1, by omega⟩
      rw [base m (by omega), hp]
      simp only [hf]
    | none =>
      rw [hf] at hst
      obtain ⟨N', hN'⟩ := hst
      refine ⟨max N N' + 1, fun n hn => ?_⟩
      obtain ⟨m, rfl⟩ : ∃ m, n = m + 1 := ⟨n - 1, by omega⟩
      rw [base m (by omega), hp]
      simp only [hf]
      exact hN' m (by omega)

theorem loops_of_value_null {S : List (F × Nat)} {c : Byte} {cs : List Byte}
    (hS : S.length < MAX_STACK) (hc : c ≠ 45) (hv : Values fl lookup (c :: cs) .null) :
    Loops fl lookup S (c :: cs) .null := by
  obtain ⟨N, hN⟩ := hv
  refine ⟨N + 1, fun n hn => ?_⟩
  obtain ⟨m, rfl⟩ : ∃ m, n = m + 1 := ⟨n - 1, by omega⟩
  rw [loop.eq_2, if_neg (by omega), hN m (by omega)]
  simp only [afterNull, if_neg hc]

theorem loops_of_minus {S : List (F × Nat)} {cs : List Byte} {res : Res F}
    (hS : S.length < MAX_STACK) (hs : fl.strtof (45 :: cs) = none) (hh : (skipWhite cs).head? ≠ some 45)
    (hl : Loops fl lookup ((fl.minusOne, TIMES) :: S) (skipWhite cs) res) : Loops fl lookup S (45 :: cs) res := by
  obtain ⟨N, hN⟩ := hl
  have hw : skipWhite (45 :: cs) = 45 :: cs := skipWhite_of_head (by decide)
  have hv : ∀ n, value fl lookup (n + 1) (45 :: cs) = .null := by
    intro n
    rw [value.eq_2]
    simp only [valueSwitch]
    rw [if_neg (by decide), if_neg (by decide), if_neg (by decide)]
    simp only [number, hw, hs, if_true, Res.bind]
  refine ⟨N + 2, fun n hn => ?_⟩
  obtain ⟨m, rfl⟩ : ∃ m, n = m + 2 := ⟨n - 2, by omega⟩
  rw [loop.eq_2, if_neg (by omega), hv m]
  simp only [afterNull, if_true, if_neg hh]
  exact hN (m + 1) (by omega)

/-- The operator at the top waits for a tighter one. -/
def Waits (S : List (F × Nat)) (level : Nat) : Prop := ∀ p ∈ S.head?, precedence p.2 < level

theorem push_waits {S : List (F × Nat)} {v : F} {o : Nat} (h : Waits S (precedence o)) (hS : S.length < 5) :
    push fl S v o = some ((v, o) :: S) := by
  cases S with
  | nil => rfl
  | cons p S =>
    obtain ⟨u, q⟩ := p
    have := h (u, q) (by simp)
    simp only [push]
    simp only at this
    rw [if_pos this, if_neg (by simp only [MAX_STACK]; simp only [List.length_cons] at hS ⊢; omega)]

/-- Executing the top operator and going on is the same as having its result from the start. -/
theorem steps_collapse {S : List (F × Nat)} {u v : F} {p o : Nat} {rest : List Byte} {res : Res F}
    (hp : precedence o ≤ precedence p) (hS : S.length < 5)
    (h : match executeBinary fl u p v with
      | none => res = .null
      | some w => Steps fl lookup S w o rest res) : Steps fl lookup ((u, p) :: S) v o rest res := by
  have e : push fl ((u, p) :: S) v o = match executeBinary fl u p v with
      | none => none
      | some w => collapse fl S w o := by
    simp only [push]
    rw [if_neg (by omega)]
    simp only [collapse]
    rw [if_pos hp]
    rfl
  unfold Steps
  rw [e]
  cases hx : executeBinary fl u p v with
  | none => rw [hx] at h; exact h
  | some w =>
    rw [hx] at h
    simp only at h ⊢
    have : collapse fl S w o = push fl S w o := by
      cases S with
      | nil => rfl
      | cons q S =>
        obtain ⟨a, q⟩ := q
        simp only [collapse, push]
        by_cases hq : precedence o ≤ precedence q
        · rw [if_pos hq, if_neg (by omega)]
        · rw [if_neg hq, if_pos (by omega), if_neg (by
            simp only [MAX_STACK, List.length_cons] at hS ⊢; omega)]
    rw [this]
    exact h

theorem Derives.line_cons {t : Tree F} {line rest : List Byte} (h : Derives fl t line rest) :
    ∃ c cs, line = c :: cs ∧ isSpace c = false := by
  have hash : isSpace 35 = false := by decide
  have brk : isSpace 91 = false := by decide
  have min : isSpace 45 = false := by decide
  have alp : ∀ c : Byte, isAlpha c = true → isSpace c = false := by
    intro c
    have key : ∀ n : Fin 256, isAlpha (UInt8.ofNat n) = true → isSpace (UInt8.ofNat n) = false := by decide +kernel
    have := key ⟨c.toNat, c.toNat_lt⟩
    simpa using this
  induction h with
  | num h _ => obtain ⟨c, cs, e, _, _, _, hs⟩ := h; exact ⟨c, cs, e, hs⟩
  | named => exact ⟨_, _, rfl, hash⟩
  | angled => exact ⟨_, _, rfl, hash⟩
  | numbered => exact ⟨_, _, rfl, hash⟩
  | bracket => exact ⟨_, _, rfl, brk⟩
  | fn h => exact ⟨_, _, rfl, alp _ h⟩
  | atan h => exact ⟨_, _, rfl, alp _ h⟩
  | neg => exact ⟨_, _, rfl, min⟩
  | bin _ _ _ ih _ => exact ih

theorem Derives.suffix (hfl : fl.Ok) {t : Tree F} {line rest : List Byte} (h : Derives fl t line rest) :
    rest <:+ line := by
  induction h with
  | num _ h => exact (skipWhite_suffix _).trans (hfl.suffix _ _ _ h).1
  | @named name cs ws rest c h1 _ _ h4 =>
    have a : rest <:+ cs := by
      have : c :: ws <:+ cs := h1 ▸ skipWhite_suffix cs
      exact List.IsSuffix.trans ⟨name, h4.symm⟩ this
    exact ((skipWhite_suffix _).trans a).trans (List.suffix_cons _ _)
  | @angled body cs ws rest h1 h2 =>
    have a : rest <:+ cs := by
      have : 60 :: ws <:+ cs := h1 ▸ skipWhite_suffix cs
      have b : rest <:+ ws := ⟨body ++ [62], by rw [h2]; simp⟩
      exact (b.trans (List.suffix_cons _ _)).trans this
    exact ((skipWhite_suffix _).trans a).trans (List.suffix_cons _ _)
  | @numbered e cs ws rest c h1 _ _ _ ih =>
    have : c :: ws <:+ cs := h1 ▸ skipWhite_suffix cs
    exact (ih.trans this).trans (List.suffix_cons _ _)
  | bracket _ hk ih =>
    exact (((keyword_suffix hk (by decide)).1.trans ih).trans (skipWhite_suffix _)).trans (List.suffix_cons _ _)
  | @fn f e c cs r1 r2 rest _ hk1 _ hk2 ih =>
    have a := (keyword_suffix hk1 (by have := f.code_range.1; omega)).1
    have b := (keyword_suffix hk2 (by decide)).1
    exact (((b.trans ih).trans (skipWhite_suffix _)).trans (List.suffix_cons _ _)).trans a
  | @atan y x c cs r1 r2 r3 r4 rest _ hk1 _ hk2 _ hk3 ih1 ih2 =>
    have a := (keyword_suffix hk1 (by decide)).1
    have b := (keyword_suffix hk2 (by decide)).1
    have c' := (keyword_suffix hk3 (by decide)).1
    have d : r3 <:+ r2 := ((List.suffix_cons 91 _).trans (List.suffix_cons 47 _)).trans b
    have e : r3 <:+ c :: cs := ((d.trans (ih1.trans (skipWhite_suffix _))).trans (List.suffix_cons _ _)).trans a
    exact ((c'.trans ih2).trans (skipWhite_suffix _)).trans e
  | neg _ _ _ ih => exact (ih.trans (skipWhite_suffix _)).trans (List.suffix_cons _ _)
  | @bin op l r line r1 r2 rest _ hk _ ih1 ih2 =>
    exact ih2.trans ((keyword_suffix hk op.code_range.1).1.trans ih1)

theorem Derives.rest_white {t : Tree F} {line rest : List Byte} (h : Derives fl t line rest) :
    skipWhite rest = rest := by
  induction h with
  | num => exact skipWhite_idem _
  | named => exact skipWhite_idem _
  | angled => exact skipWhite_idem _
  | numbered _ _ _ _ ih => exact ih
  | bracket _ hk => exact (keyword_suffix hk (by decide)).2.2
  | fn _ _ _ hk => exact (keyword_suffix hk (by decide)).2.2
  | atan _ _ _ _ _ hk => exact (keyword_suffix hk (by decide)).2.2
  | neg _ _ _ ih => exact ih
  | bin _ _ _ _ ih => exact ih

/-- What is read off a derivation of an operand. -/
def OperandOk (t : Tree F) (line rest : List Byte) : Prop :=
  6 ≤ t.level → Values fl lookup line (toRes (t.eval fl lookup) rest)

/-- What is read off a derivation in general: the loop, started in front of the text, arrives behind it with the
value of the tree. -/
def LoopOk (t : Tree F) (line r1 : List Byte) : Prop :=
  ∀ (S : List (F × Nat)) (o : Nat) (r2 : List Byte) (res : Res F), Keyword o r1 r2 → 0 < o → o < UNARY_OP_START →
    S.length + t.depth ≤ 5 → precedence o ≤ t.level → (t.endsNeg = true → o ≠ POWER) →
    (∀ op l r, t = .bin op l r → Waits S op.level) →
    (match t.eval fl lookup with
      | none => res = .null
      | some v => Steps fl lookup S v o r2 res) → Loops fl lookup S line res

theorem loopOk_of_operand {t : Tree F} {line r1 : List Byte} (hc : Clean r1) (hd : t.depth = 0)
    (h : Values fl lookup line (toRes (t.eval fl lookup) r1)) {c : Byte} {cs : List Byte} (hline : line = c :: cs)
    (hm : t.eval fl lookup = none → c ≠ 45) : LoopOk fl lookup t line r1 := by
  intro S o r2 res hk h0 h1 hS _ _ _ hst
  have hS' : S.length < MAX_STACK := by simp only [MAX_STACK]; omega
  cases he : t.eval fl lookup with
  | none =>
    rw [he] at h hst
    simp only at hst
    subst hst
    subst hline
    exact loops_of_value_null fl lookup hS' (hm he) h
  | some v =>
    rw [he] at h hst
    exact loops_of_value_ok fl lookup hS' hc h hk h0 h1 hst

/-- A bracketed expression: the loop started with an empty stack. -/
theorem loops_bracket {t : Tree F} {line r1 r2 : List Byte} (h : LoopOk fl lookup t line r1) (hd : t.depth ≤ 5)
    (hk : Keyword RIGHT_BRACKET r1 r2) (hlev : 1 ≤ t.level) :
    Loops fl lookup [] line (toRes (t.eval fl lookup) r2) := by
  refine h [] RIGHT_BRACKET r2 _ hk (by decide) (by decide) (by simpa using hd) ?_ (fun _ => by decide) ?_ ?_
  · rw [precedence_rb]; exact hlev
  · intro op l r _ p hp; simp at hp
  · cases t.eval fl lookup with
    | none => rfl
    | some v => simp [Steps, push, finished, toRes]

theorem Tree.level_pos (t : Tree F) : 1 ≤ t.level := by
  cases t <;> simp [Tree.level]
  rename_i op _ _
  cases op <;> decide

theorem values_of_switch {line : List Byte} {res : Res F} (N : Nat)
    (h : ∀ n, N ≤ n → valueSwitch fl lookup (fun l => loop fl lookup n [] (skipWhite l))
      (fun l => value fl lookup n l) line = res)
    (hr : (res.bind fun v rest => .ok v (skipWhite rest)) = res) : Values fl lookup line res := by
  refine ⟨N + 1, fun n hn => ?_⟩
  obtain ⟨m, rfl⟩ : ∃ m, n = m + 1 := ⟨n - 1, by omega⟩
  rw [value.eq_2, h m (by omega), hr]

theorem toRes_idem {v : Option F} {rest : List Byte} (h : skipWhite rest = rest) :
    ((toRes v rest).bind fun v rest => .ok v (skipWhite rest)) = toRes v rest := by
  cases v <;> simp [toRes, Res.bind, h]

theorem valueSwitch_alpha {f g : List Byte → Res F} {c : Byte} {cs : List Byte} (h : isAlpha c = true) :
    valueSwitch fl lookup f g (c :: cs) = unary fl f (c :: cs) := by
  simp only [valueSwitch, isAlpha_toUpper, if_pos h]

theorem valueSwitch_bracket {f g : List Byte → Res F} {cs : List Byte} :
    valueSwitch fl lookup f g (91 :: cs) = f cs := by
  simp only [valueSwitch, isAlpha_toUpper]
  rw [if_neg (by decide), if_pos trivial]

theorem valueSwitch_hash {f g : List Byte → Res F} {cs : List Byte} :
    valueSwitch fl lookup f g (35 :: cs) = parameter fl lookup g cs := by
  simp only [valueSwitch, isAlpha_toUpper]
  rw [if_neg (by decide), if_neg (by decide), if_pos trivial]

theorem isNameChar_facts (c : Byte) (h : isNameChar false c = true) : isSpace c = false ∧ c ≠ 60 ∧ c ≠ 35 := by
  have key : ∀ n : Fin 256, isNameChar false (UInt8.ofNat n) = true →
      isSpace (UInt8.ofNat n) = false ∧ UInt8.ofNat n ≠ 60 ∧ UInt8.ofNat n ≠ 35 := by decide +kernel
  have := key ⟨c.toNat, c.toNat_lt⟩
  simp only [UInt8.ofNat_toNat] at this
  exact this h

/-- The scan for a name is determined by its specification. -/
theorem scanName_unique (br : Bool) : ∀ (body rest : List Byte), (∀ d ∈ body, isNameChar br d = true) →
    (∀ d, rest.head? = some d → isNameChar br d = false) →
    scanName br (body ++ rest) = (body.filter fun d => !isSpace d, rest)
  | [], [], _, _ => rfl
  | [], d :: rest, _, h => by
    simp only [List.nil_append, scanName, h d rfl]
    simp
  | c :: body, rest, hb, hr => by
    have ih := scanName_unique br body rest (fun d hd => hb d (by simp [hd])) hr
    simp only [List.cons_append, scanName, hb c (by simp), if_true, ih]
    cases hs : isSpace c <;> simp [hs]

theorem readParamName_named {g : List Byte → Res F} {name cs ws rest : List Byte} {c : Byte}
    (h1 : skipWhite cs = c :: ws) (h2 : isDigit c = false) (h3 : name ≠ []) (h4 : c :: ws = name ++ rest)
    (h5 : ∀ d ∈ name, isNameChar false d = true) (h6 : ∀ d, rest.head? = some d → isNameChar false d = false) :
    readParamName fl g cs = .ok name (skipWhite rest) := by
  have hcn : isNameChar false c = true := by
    cases name with
    | nil => exact absurd rfl h3
    | cons d ds =>
      injection h4 with e1 e2
      rw [e1]; exact h5 d (by simp)
  have hf := isNameChar_facts c hcn
  have hsc := scanName_unique false name rest h5 h6
  have hfil : (name.filter fun d => !isSpace d) = name := by
    rw [List.filter_eq_self]
    intro d hd
    simp [(isNameChar_facts d (h5 d hd)).1]
  unfold readParamName
  simp only [h1]
  rw [if_neg hf.2.1, if_neg (by simp [startsNumeric, hf.2.2, h2]), h4, hsc, hfil]
  simp only
  rw [if_neg h3]

theorem readParamName_angled {g : List Byte → Res F} {body cs ws rest : List Byte}
    (h1 : skipWhite cs = 60 :: ws) (h2 : ws = body ++ 62 :: rest)
    (h3 : ∀ d ∈ body, isNameChar true d = true) (h4 : ∀ d, body.head? = some d → isDigit d = false)
    (h5 : body.filter (fun d => !isSpace d) ≠ []) :
    readParamName fl g cs = .ok (body.filter fun d => !isSpace d) (skipWhite rest) := by
  have hsc := scanName_unique true body (62 :: rest) h3 (by intro d hd; simp at hd; subst hd; decide)
  have hn : startsNumeric ws = false := by
    subst h2
    cases body with
    | nil => simp at h5
    | cons d ds =>
      have a := h4 d rfl
      have b : d ≠ 35 := by
        intro e
        have := h3 d (by simp)
        rw [e] at this
        revert this; decide
      simp [startsNumeric, a, b]
  unfold readParamName
  simp only [h1, if_true]
  rw [if_neg (by simp [hn]), h2, hsc]
  simp only
  rw [if_neg (by simp), if_neg h5]

theorem derives_ok (hfl : fl.Ok) {t : Tree F} {line rest : List Byte} (h : Derives fl t line rest) :
    Clean line → t.Proper → t.Fits → OperandOk fl lookup t line rest ∧ LoopOk fl lookup t line rest := by
  induction h with
  | @num v line rest h1 h2 =>
    intro hc _ _
    obtain ⟨c, cs, e, a1, a2, a3, a4⟩ := h1
    subst e
    have hv : Values fl lookup (c :: cs) (toRes (Tree.eval fl lookup (.num v)) (skipWhite rest)) := by
      refine ⟨1, fun n hn => ?_⟩
      obtain ⟨m, rfl⟩ : ∃ m, n = m + 1 := ⟨n - 1, by omega⟩
      rw [value.eq_2]
      simp only [valueSwitch, isAlpha_toUpper]
      rw [if_neg (by simp [a1]), if_neg a2, if_neg a3]
      simp only [number, skipWhite_of_head a4, h2, Res.bind, toRes, Tree.eval]
    have hcl : Clean (skipWhite rest) := (hc.suffix (hfl.suffix _ _ _ h2).1).skip
    exact ⟨fun _ => hv, loopOk_of_operand fl lookup hcl rfl hv rfl (by simp [Tree.eval])⟩
  | @named name cs ws rest c h1 h2 h3 h4 h5 h6 =>
    intro hc _ _
    have hv : Values fl lookup (35 :: cs) (toRes (Tree.eval fl lookup (.named name)) (skipWhite rest)) := by
      refine values_of_switch fl lookup 0 (fun n _ => ?_) (toRes_idem (skipWhite_idem _))
      rw [valueSwitch_hash]
      simp only [parameter, readParamName_named fl h1 h2 h3 h4 h5 h6, Res.bind, toRes, Tree.eval]
    have hcl : Clean (skipWhite rest) := hc.suffix (Derives.suffix fl hfl (.named h1 h2 h3 h4 h5 h6))
    exact ⟨fun _ => hv, loopOk_of_operand fl lookup hcl rfl hv rfl (by simp [Tree.eval])⟩
  | @angled body cs ws rest h1 h2 h3 h4 h5 =>
    intro hc _ _
    have hv : Values fl lookup (35 :: cs)
        (toRes (Tree.eval fl lookup (.named (body.filter fun d => !isSpace d))) (skipWhite rest)) := by
      refine values_of_switch fl lookup 0 (fun n _ => ?_) (toRes_idem (skipWhite_idem _))
      rw [valueSwitch_hash]
      simp only [parameter, readParamName_angled fl h1 h2 h3 h4 h5, Res.bind, toRes, Tree.eval]
    have hcl : Clean (skipWhite rest) := hc.suffix (Derives.suffix fl hfl (.angled h1 h2 h3 h4 h5))
    exact ⟨fun _ => hv, loopOk_of_operand fl lookup hcl rfl hv rfl (by simp [Tree.eval])⟩
  | @numbered e cs ws rest c h1 h2 h3 h4 ih =>
    intro hc hp hf
    have hsuf : c :: ws <:+ cs := h1 ▸ skipWhite_suffix cs
    have hcl' : Clean (c :: ws) := hc.tail.suffix hsuf
    obtain ⟨N, hN⟩ := (ih hcl' hp hf).1 h3
    have hcl : Clean rest := hcl'.suffix (Derives.suffix fl hfl h4)
    have hb : c ≠ 60 := by
      rcases h2 with h | h
      · rw [h]; decide
      · intro e; rw [e] at h; revert h; decide
    have hn : startsNumeric (c :: ws) = true := by
      rcases h2 with h | h
      · simp [startsNumeric, h]
      · simp [startsNumeric, h]
    have hidem : skipWhite rest = rest := Derives.rest_white fl h4
    have hv : Values fl lookup (35 :: cs) (toRes (Tree.eval fl lookup (.numbered e)) rest) := by
      refine values_of_switch fl lookup N (fun n hn' => ?_) (toRes_idem hidem)
      rw [valueSwitch_hash]
      simp only [parameter, readParamName, h1, if_neg hb, if_pos hn, hN n hn']
      cases he : e.eval fl lookup with
      | none => simp [toRes, Tree.eval, he, Res.bind]
      | some v =>
        by_cases hd : fl.decimal v = []
        · simp [toRes, Tree.eval, he, Res.bind, hd]
        · simp [toRes, Tree.eval, he, Res.bind, hd, hidem]
    exact ⟨fun _ => hv, loopOk_of_operand fl lookup hcl rfl hv rfl (fun _ => by decide)⟩
  | @bracket e cs r1 rest h1 h2 ih =>
    intro hc hp hf
    have hidem := (keyword_suffix h2 (by decide)).2.2
    obtain ⟨N, hN⟩ := loops_bracket fl lookup (ih hc.tail.skip hp hf.2).2 hf.1 h2 e.level_pos
    have hv : Values fl lookup (91 :: cs) (toRes (Tree.eval fl lookup (.bracket e)) rest) := by
      refine values_of_switch fl lookup N (fun n hn' => ?_) (toRes_idem hidem)
      rw [valueSwitch_bracket]
      exact hN n hn'
    have hcl : Clean rest := hc.suffix (Derives.suffix fl hfl (.bracket h1 h2))
    exact ⟨fun _ => hv, loopOk_of_operand fl lookup hcl rfl hv rfl (fun _ => by decide)⟩
  | @fn f e c cs r1 r2 rest h1 h2 h3 h4 ih =>
    intro hc hp hf
    have hidem := (keyword_suffix h4 (by decide)).2.2
    have hs1 := keyword_suffix h2 (by have := f.code_range.1; omega)
    have hc1 : Clean (skipWhite r1) := (hc.suffix hs1.1).tail.skip
    obtain ⟨N, hN⟩ := loops_bracket fl lookup (ih hc1 hp hf.2).2 hf.1 h4 e.level_pos
    have hop : operationUnary (c :: cs) = .ok f.code (91 :: r1) := (operationUnary_ok_iff hc _ _).2 ⟨h2, f.code_range.1⟩
    have hv : Values fl lookup (c :: cs) (toRes (Tree.eval fl lookup (.fn f e)) rest) := by
      refine values_of_switch fl lookup N (fun n hn' => ?_) (toRes_idem hidem)
      rw [valueSwitch_alpha fl lookup h1]
      have hN' := hN n hn'
      simp only [unary, hop, Res.bind, if_true, unaryArgument, skipWhite_idem, hN']
      cases he : e.eval fl lookup with
      | none => simp [toRes, Tree.eval, he]
      | some v =>
        simp only [toRes, if_neg f.code_range.2, executeUnary_code, Tree.eval, he]
        cases hx : f.apply fl v with
        | none => simp [hx]
        | some w => simp [hx, hidem]
    have hcl : Clean rest := hc.suffix (Derives.suffix fl hfl (.fn h1 h2 h3 h4))
    refine ⟨fun _ => hv, loopOk_of_operand fl lookup hcl rfl hv rfl (fun _ => ?_)⟩
    intro e; rw [e] at h1; revert h1; decide
  | @atan y x c cs r1 r2 r3 r4 rest h1 h2 h3 h4 h5 h6 ih1 ih2 =>
    intro hc hp hf
    have hidem := (keyword_suffix h6 (by decide)).2.2
    have hs1 := keyword_suffix h2 (by decide)
    have hc1 : Clean (skipWhite r1) := (hc.suffix hs1.1).tail.skip
    have hs2 := keyword_suffix h4 (by decide)
    have hc2 : Clean r2 := hc1.suffix (Derives.suffix fl hfl h3)
    have hc3 : Clean r3 := (hc2.suffix hs2.1).tail.tail
    obtain ⟨N1, hN1⟩ := loops_bracket fl lookup (ih1 hc1 hp.1 hf.1.2).2 hf.1.1 h4 y.level_pos
    obtain ⟨N2, hN2⟩ := loops_bracket fl lookup (ih2 hc3.skip hp.2 hf.2.2).2 hf.2.1 h6 x.level_pos
    have hop : operationUnary (c :: cs) = .ok ATAN (91 :: r1) := (operationUnary_ok_iff hc _ _).2 ⟨h2, by decide⟩
    have hw : skipWhite (47 :: 91 :: r3) = 47 :: 91 :: r3 := skipWhite_of_head (by decide)
    have hv : Values fl lookup (c :: cs) (toRes (Tree.eval fl lookup (.atan y x)) rest) := by
      refine values_of_switch fl lookup (max N1 N2) (fun n hn' => ?_) (toRes_idem hidem)
      rw [valueSwitch_alpha fl lookup h1]
      have hN1' := hN1 n (by omega)
      have hN2' := hN2 n (by omega)
      simp only [unary, hop, Res.bind, if_true, unaryArgument, skipWhite_idem, hN1']
      cases he : y.eval fl lookup with
      | none => simp [toRes, Tree.eval, he]
      | some v =>
        simp only [toRes, hw, atan, and_self, if_true, hN2', Tree.eval, he]
        cases hx : x.eval fl lookup with
        | none => simp [Res.bind]
        | some w => simp [Res.bind, hidem]
    have hcl : Clean rest := hc.suffix (Derives.suffix fl hfl (.atan h1 h2 h3 h4 h5 h6))
    refine ⟨fun _ => hv, loopOk_of_operand fl lookup hcl rfl hv rfl (fun _ => ?_)⟩
    intro e; rw [e] at h1; revert h1; decide
  | @neg e cs rest h1 h2 h3 ih =>
    intro hc hp hf
    refine ⟨fun h => by simp [Tree.level] at h, ?_⟩
    intro S o r2 res hk h0 ho hS hlev hneg _ hst
    simp only [Tree.depth] at hS
    have hopow : o ≠ POWER := hneg rfl
    have hpo : precedence o ≤ 4 := precedence_pow hopow
    refine loops_of_minus fl lookup (by simp only [MAX_STACK]; omega) h1 h2 ?_
    refine (ih hc.tail.skip hp.1 hf).2 _ o r2 res hk h0 ho (by simp only [List.length_cons]; omega) ?_
      (fun _ => hopow) ?_ ?_
    · have := hp.2; omega
    · intro op l r ht p hpS
      simp only [List.head?_cons, Option.mem_def, Option.some.injEq] at hpS
      subst hpS
      have := hp.2
      rw [ht] at this
      simpa [precedence_times, Tree.level] using this
    · simp only [Tree.eval] at hst
      cases he : e.eval fl lookup with
      | none => rw [he] at hst; exact hst
      | some v =>
        rw [he] at hst
        simp only
        refine steps_collapse fl lookup (by rw [precedence_times]; exact hpo) (by omega) ?_
        have : executeBinary fl fl.minusOne TIMES v = BinOp.mul.apply fl fl.minusOne v := executeBinary_code fl .mul _ _
        rw [this]
        exact hst
  | @bin op l r line r1 r2 rest h1 h2 h3 ih1 ih2 =>
    intro hc hp hf
    have hlev6 : op.level < 6 := by cases op <;> decide
    refine ⟨fun h => by simp only [Tree.level] at h; omega, ?_⟩
    obtain ⟨p1, p2, p3, p4, p5⟩ := hp
    have hcr1 : Clean r1 := hc.suffix (Derives.suffix fl hfl h1)
    have hcr2 : Clean r2 := hcr1.suffix (keyword_suffix h2 op.code_range.1).1
    intro S o r3 res hk h0 ho hS hlev hneg hw hst
    simp only [Tree.depth] at hS
    have hW : Waits S op.level := hw op l r rfl
    have hun : op.code < UNARY_OP_START := Nat.lt_trans op.code_range.2 (by decide)
    refine (ih1 hc p1 hf.1).2 S op.code r2 res h2 op.code_range.1 hun (by omega) ?_ ?_ ?_ ?_
    · rw [op.precedence_code]; exact p3
    · intro hn e
      have := p5 (op.code_pow.1 e)
      rw [this] at hn; cases hn
    · intro op' l' r' ht p hpS
      have a := hW p hpS
      have b := p3
      rw [ht] at b
      simp only [Tree.level] at b
      omega
    · simp only [Tree.eval] at hst
      cases he : l.eval fl lookup with
      | none => rw [he] at hst; exact hst
      | some a =>
        rw [he] at hst
        simp only
        unfold Steps
        rw [push_waits fl (by rw [op.precedence_code]; exact hW) (by omega)]
        have hfin : finished ((a, op.code) :: S) = none := by
          cases S with
          | nil => simp only [finished]; rw [if_neg (Nat.ne_of_lt op.code_range.2)]
          | cons p S => rfl
        simp only [hfin]
        refine (ih2 hcr2 p2 hf.2).2 _ o r3 res hk h0 ho (by simp only [List.length_cons]; omega) ?_ ?_ ?_ ?_
        · rcases p4 with hn | hn
          · cases r with
            | neg e =>
              have : o ≠ POWER := hneg rfl
              simpa [Tree.level] using precedence_pow this
            | _ => simp [Tree.isNeg] at hn
          · simp only [Tree.level] at hlev; omega
        · exact hneg
        · intro op' l' r' ht p hpS
          simp only [List.head?_cons, Option.mem_def, Option.some.injEq] at hpS
          subst hpS
          rw [ht] at p4
          simpa [Tree.isNeg, Tree.level, op.precedence_code] using p4
        · cases hr : r.eval fl lookup with
          | none => rw [hr] at hst; exact hst
          | some b =>
            rw [hr] at hst
            simp only
            refine steps_collapse fl lookup (by rw [op.precedence_code]; exact hlev) (by omega) ?_
            rw [executeBinary_code]
            exact hst

end BeagleG.Expr
