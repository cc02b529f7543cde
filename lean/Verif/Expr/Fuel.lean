import Verif.Expr.Lemmas
/-!
# The bound on the recursion given to the model is always enough
-/
namespace BeagleG.Expr
open Text

theorem Res.bind_ok {α β : Type} {r : Res α} {f : α → List Byte → Res β} {v : β} {rest : List Byte} :
    r.bind f = .ok v rest ↔ ∃ w mid, r = .ok w mid ∧ f w mid = .ok v rest := by
  cases r with
  | ok w mid => exact ⟨fun h => ⟨w, mid, rfl, h⟩, by rintro ⟨_, _, h1, h2⟩; injection h1 with e1 e2; subst e1; subst e2; exact h2⟩
  | null => simp [Res.bind]
  | undef => simp [Res.bind]
  | outOfFuel => simp [Res.bind]

/-- The two results that are not a proper behaviour. -/
inductive Bad where
  | undef
  | outOfFuel

/-- As result of a function. -/
def Bad.res {α : Type} : Bad → Res α
  | .undef => .undef
  | .outOfFuel => .outOfFuel

theorem Bad.ne_ok {α : Type} (b : Bad) {v : α} {r : List Byte} : Res.ok v r ≠ b.res := by cases b <;> simp [Bad.res]

theorem Bad.ne_null {α : Type} (b : Bad) : (Res.null : Res α) ≠ b.res := by cases b <;> simp [Bad.res]

theorem Res.bind_bad {α β : Type} {r : Res α} {f : α → List Byte → Res β} {b : Bad} (h : r.bind f = b.res) :
    r = b.res ∨ ∃ w mid, r = .ok w mid ∧ f w mid = b.res := by
  cases r with
  | ok w mid => exact Or.inr ⟨w, mid, rfl, h⟩
  | null => exact absurd h b.ne_null
  | undef => left; cases b <;> simp_all [Res.bind, Bad.res]
  | outOfFuel => left; cases b <;> simp_all [Res.bind, Bad.res]

/-- The second result is the first one, unless that only shows that the bound was too small. -/
def Res.Le {α : Type} (r r' : Res α) : Prop := r = .outOfFuel ∨ r' = r

theorem Res.Le.refl {α : Type} (r : Res α) : r.Le r := Or.inr rfl

theorem Res.Le.trans {α : Type} {a b c : Res α} (h : a.Le b) (h' : b.Le c) : a.Le c := by
  rcases h with h | h
  · exact Or.inl h
  · subst h; exact h'

theorem Res.Le.bind {α β : Type} {r r' : Res α} {f f' : α → List Byte → Res β} (h : r.Le r')
    (hf : ∀ v rest, (f v rest).Le (f' v rest)) : (r.bind f).Le (r'.bind f') := by
  rcases h with h | h
  · subst h; exact Or.inl rfl
  · subst h
    cases r' with
    | ok v rest => exact hf v rest
    | null => exact Or.inr rfl
    | undef => exact Or.inr rfl
    | outOfFuel => exact Or.inl rfl

variable {F : Type} (fl : Float_ F) (lookup : List Byte → F)

/-! ### More fuel does not change the result -/

theorem readParamName_le {f g : List Byte → Res F} (h : ∀ l, (f l).Le (g l)) (line : List Byte) :
    (readParamName fl f line).Le (readParamName fl g line) := by
  unfold readParamName
  cases skipWhite line with
  | nil => exact Res.Le.refl _
  | cons c cs =>
    simp only
    by_cases hb : c = 60
    · rw [if_pos hb, if_pos hb]; exact Res.Le.refl _
    · rw [if_neg hb, if_neg hb]
      by_cases hn : startsNumeric (c :: cs) = true
      · rw [if_pos hn, if_pos hn]; exact Res.Le.bind (h _) fun _ _ => Res.Le.refl _
      · rw [if_neg hn, if_neg hn]; exact Res.Le.refl _

theorem parameter_le {f g : List Byte → Res F} (h : ∀ l, (f l).Le (g l)) (line : List Byte) :
    (parameter fl lookup f line).Le (parameter fl lookup g line) :=
  Res.Le.bind (readParamName_le fl h line) fun _ _ => Res.Le.refl _

theorem atan_le {f g : List Byte → Res F} (h : ∀ l, (f l).Le (g l)) (y : F) :
    ∀ line : List Byte, (atan fl f line y).Le (atan fl g line y)
  | [] => Res.Le.refl _
  | [_] => Res.Le.refl _
  | a :: b :: line => by
    simp only [atan]
    by_cases hb : a = 47 ∧ b = 91
    · rw [if_pos hb, if_pos hb]; exact Res.Le.bind (h _) fun _ _ => Res.Le.refl _
    · rw [if_neg hb, if_neg hb]; exact Res.Le.refl _

theorem unaryArgument_le {f g : List Byte → Res F} (h : ∀ l, (f l).Le (g l)) (op : Nat) (line : List Byte) :
    (unaryArgument fl f op line).Le (unaryArgument fl g op line) := by
  unfold unaryArgument
  refine Res.Le.bind (h _) fun v rest => ?_
  by_cases ho : op = ATAN
  · rw [if_pos ho, if_pos ho]; exact Res.Le.bind (atan_le fl h _ _) fun _ _ => Res.Le.refl _
  · rw [if_neg ho, if_neg ho]; exact Res.Le.refl _

theorem unary_le {f g : List Byte → Res F} (h : ∀ l, (f l).Le (g l)) (line : List Byte) :
    (unary fl f line).Le (unary fl g line) := by
  unfold unary
  refine Res.Le.bind (Res.Le.refl _) fun op line => ?_
  cases line with
  | nil => exact Res.Le.refl _
  | cons c cs =>
    simp only
    by_cases hb : c = 91
    · rw [if_pos hb, if_pos hb]; exact unaryArgument_le fl h _ _
    · rw [if_neg hb, if_neg hb]; exact Res.Le.refl _

theorem valueSwitch_le {f g f' g' : List Byte → Res F} (h : ∀ l, (f l).Le (g l)) (h' : ∀ l, (f' l).Le (g' l)) :
    ∀ line, (valueSwitch fl lookup f f' line).Le (valueSwitch fl lookup g g' line)
  | [] => Res.Le.refl _
  | c :: cs => by
    simp only [valueSwitch]
    by_cases h1 : isAlpha (toUpper c) = true
    · rw [if_pos h1, if_pos h1]; exact unary_le fl h _
    · rw [if_neg h1, if_neg h1]
      by_cases h2 : c = 91
      · rw [if_pos h2, if_pos h2]; exact h _
      · rw [if_neg h2, if_neg h2]
        by_cases h3 : c = 35
        · rw [if_pos h3, if_pos h3]; exact parameter_le fl lookup h' _
        · rw [if_neg h3, if_neg h3]; exact Res.Le.refl _

theorem afterValue_le {f g : List (F × Nat) → List Byte → Res F} (h : ∀ S l, (f S l).Le (g S l))
    (S : List (F × Nat)) (v : F) (line : List Byte) : (afterValue fl f S v line).Le (afterValue fl g S v line) := by
  unfold afterValue
  refine Res.Le.bind (Res.Le.refl _) fun o rest => ?_
  cases push fl S v o with
  | none => exact Res.Le.refl _
  | some S' =>
    simp only
    cases finished S' with
    | none => exact h _ _
    | some w => exact Res.Le.refl _

theorem afterNull_le {f g : List (F × Nat) → List Byte → Res F} (h : ∀ S l, (f S l).Le (g S l))
    (S : List (F × Nat)) : ∀ line : List Byte, (afterNull fl f S line).Le (afterNull fl g S line)
  | [] => Res.Le.refl _
  | c :: cs => by
    simp only [afterNull]
    by_cases h1 : c = 45
    · rw [if_pos h1, if_pos h1]
      by_cases h2 : (skipWhite cs).head? = some 45
      · rw [if_pos h2, if_pos h2]; exact Res.Le.refl _
      · rw [if_neg h2, if_neg h2]; exact h _ _
    · rw [if_neg h1, if_neg h1]; exact Res.Le.refl _

theorem fuel_succ : ∀ n,
    (∀ line, (value fl lookup n line).Le (value fl lookup (n + 1) line)) ∧
    (∀ S line, (loop fl lookup n S line).Le (loop fl lookup (n + 1) S line))
  | 0 => ⟨fun _ => Or.inl (by simp [value]), fun _ _ => Or.inl (by simp [loop])⟩
  | n + 1 => by
    obtain ⟨hv, hl⟩ := fuel_succ n
    constructor
    · intro line
      have e1 : value fl lookup (n + 1) line = (valueSwitch fl lookup (fun l => loop fl lookup n [] (skipWhite l))
        (fun l => value fl lookup n l) line).bind fun v rest => .ok v (skipWhite rest) := by simp only [value]
      have e2 : value fl lookup (n + 1 + 1) line = (valueSwitch fl lookup
        (fun l => loop fl lookup (n + 1) [] (skipWhite l)) (fun l => value fl lookup (n + 1) l) line).bind
          fun v rest => .ok v (skipWhite rest) := by rw [value]
      rw [e1, e2]
      exact Res.Le.bind (valueSwitch_le fl lookup (fun l => hl [] _) hv line) fun _ _ => Res.Le.refl _
    · intro S line
      have e1 := loop.eq_2 fl lookup S line n
      have e2 := loop.eq_2 fl lookup S line (n + 1)
      rw [e1, e2]
      by_cases h0 : S.length ≥ MAX_STACK
      · rw [if_pos h0, if_pos h0]; exact Res.Le.refl _
      · rw [if_neg h0, if_neg h0]
        have hv' := hv line
        cases hr : value fl lookup n line with
        | outOfFuel => exact Or.inl rfl
        | undef =>
          rw [hr] at hv'
          rcases hv' with h | h
          · cases h
          · rw [h]; exact Res.Le.refl _
        | null =>
          rw [hr] at hv'
          rcases hv' with h | h
          · cases h
          · rw [h]; exact afterNull_le fl hl S line
        | ok v rest =>
          rw [hr] at hv'
          rcases hv' with h | h
          · cases h
          · rw [h]; exact afterValue_le fl hl S v rest

theorem value_le {n m : Nat} (h : n ≤ m) (line : List Byte) :
    (value fl lookup n line).Le (value fl lookup m line) := by
  induction m with
  | zero => have : n = 0 := by omega
            subst this; exact Res.Le.refl _
  | succ m ih =>
    by_cases e : n = m + 1
    · subst e; exact Res.Le.refl _
    · exact (ih (by omega)).trans ((fuel_succ fl lookup m).1 line)

theorem loop_le {n m : Nat} (h : n ≤ m) (S : List (F × Nat)) (line : List Byte) :
    (loop fl lookup n S line).Le (loop fl lookup m S line) := by
  induction m with
  | zero => have : n = 0 := by omega
            subst this; exact Res.Le.refl _
  | succ m ih =>
    by_cases e : n = m + 1
    · subst e; exact Res.Le.refl _
    · exact (ih (by omega)).trans ((fuel_succ fl lookup m).2 S line)

/-! ### What the functions do, case by case -/

theorem scanName_spec (br : Bool) : ∀ l : List Byte, ∃ body, l = body ++ (scanName br l).2 ∧
    (scanName br l).1 = body.filter (fun d => !isSpace d) ∧ (∀ d ∈ body, isNameChar br d = true) ∧
    (∀ d, (scanName br l).2.head? = some d → isNameChar br d = false)
  | [] => ⟨[], by simp [scanName]⟩
  | c :: cs => by
    by_cases h : isNameChar br c = true
    · obtain ⟨body, h1, h2, h3, h4⟩ := scanName_spec br cs
      refine ⟨c :: body, ?_⟩
      simp only [scanName, h, if_true]
      refine ⟨by simpa using h1, ?_, ?_, h4⟩
      · rw [h2]
        cases hs : isSpace c <;> simp [hs]
      · intro d hd
        rcases List.mem_cons.1 hd with e | e
        · rw [e]; exact h
        · exact h3 d e
    · refine ⟨[], ?_⟩
      simp only [scanName, h]
      refine ⟨by simp, by simp, by simp, ?_⟩
      intro d hd
      simp at hd
      subst hd
      simpa using h

theorem readParamName_ok {g : List Byte → Res F} {line name rest : List Byte}
    (h : readParamName fl g line = .ok name rest) :
    (∃ ws r, skipWhite line = 60 :: ws ∧ startsNumeric ws = false ∧ (scanName true ws).2 = 62 :: r ∧
      (scanName true ws).1 = name ∧ name ≠ [] ∧ rest = skipWhite r) ∨
    (∃ c ws i r, skipWhite line = c :: ws ∧ c ≠ 60 ∧ startsNumeric (c :: ws) = true ∧ g (c :: ws) = .ok i r ∧
      fl.decimal i ≠ [] ∧ name = fl.decimal i ∧ rest = skipWhite r) ∨
    (∃ c ws, skipWhite line = c :: ws ∧ c ≠ 60 ∧ startsNumeric (c :: ws) = false ∧
      (scanName false (c :: ws)).1 = name ∧ name ≠ [] ∧ rest = skipWhite (scanName false (c :: ws)).2) := by
  unfold readParamName at h
  cases hs : skipWhite line with
  | nil => simp [hs] at h
  | cons c cs =>
    simp only [hs] at h
    by_cases hb : c = 60
    · left
      rw [if_pos hb] at h
      by_cases hn : startsNumeric cs = true
      · rw [if_pos hn] at h; cases h
      · rw [if_neg hn] at h
        cases hr : (scanName true cs).2 with
        | nil => simp [hr] at h
        | cons d r =>
          simp only [hr] at h
          by_cases hd : d = 62
          · rw [if_neg (by simpa using hd)] at h
            by_cases he : (scanName true cs).1 = []
            · rw [if_pos he] at h; cases h
            · rw [if_neg he] at h
              injection h with e1 e2
              exact ⟨cs, r, by rw [hb], by simpa using hn, by rw [hr, hd], e1, by rw [← e1]; exact he, e2.symm⟩
          · rw [if_pos (by simpa using hd)] at h; cases h
    · right
      rw [if_neg hb] at h
      by_cases hn : startsNumeric (c :: cs) = true
      · left
        rw [if_pos hn] at h
        obtain ⟨i, r, h1, h2⟩ := Res.bind_ok.1 h
        by_cases he : fl.decimal i = []
        · rw [if_pos he] at h2; cases h2
        · rw [if_neg he] at h2
          injection h2 with e1 e2
          exact ⟨c, cs, i, r, rfl, hb, hn, h1, he, e1.symm, e2.symm⟩
      · right
        rw [if_neg hn] at h
        by_cases he : (scanName false (c :: cs)).1 = []
        · rw [if_pos he] at h; cases h
        · rw [if_neg he] at h
          injection h with e1 e2
          exact ⟨c, cs, rfl, hb, by simpa using hn, e1, by rw [← e1]; exact he, e2.symm⟩

theorem readParamName_bad {g : List Byte → Res F} {line : List Byte} {b : Bad}
    (h : readParamName fl g line = b.res) :
    ∃ c ws, skipWhite line = c :: ws ∧ startsNumeric (c :: ws) = true ∧ g (c :: ws) = b.res := by
  unfold readParamName at h
  cases hs : skipWhite line with
  | nil => simp only [hs] at h; exact absurd h b.ne_null
  | cons c cs =>
    simp only [hs] at h
    by_cases hb : c = 60
    · rw [if_pos hb] at h
      by_cases hn : startsNumeric cs = true
      · rw [if_pos hn] at h; exact absurd h b.ne_null
      · rw [if_neg hn] at h
        cases hr : (scanName true cs).2 with
        | nil => simp only [hr] at h; exact absurd h b.ne_null
        | cons d r =>
          simp only [hr] at h
          split at h
          · exact absurd h b.ne_null
          · split at h
            · exact absurd h b.ne_null
            · exact absurd h b.ne_ok
    · rw [if_neg hb] at h
      by_cases hn : startsNumeric (c :: cs) = true
      · rw [if_pos hn] at h
        rcases Res.bind_bad h with h1 | ⟨i, r, h1, h2⟩
        · exact ⟨c, cs, rfl, hn, h1⟩
        · split at h2
          · exact absurd h2 b.ne_null
          · exact absurd h2 b.ne_ok
      · rw [if_neg hn] at h
        split at h
        · exact absurd h b.ne_null
        · exact absurd h b.ne_ok

theorem atan_ok {f : List Byte → Res F} {line rest : List Byte} {y v : F} (h : atan fl f line y = .ok v rest) :
    ∃ l x, line = 47 :: 91 :: l ∧ f l = .ok x rest ∧ v = fl.atan2Deg y x := by
  rcases line with _ | ⟨a, _ | ⟨b, l⟩⟩
  · simp [atan] at h
  · simp [atan] at h
  · simp only [atan] at h
    by_cases hab : a = 47 ∧ b = 91
    · rw [if_pos hab] at h
      obtain ⟨x, r, h1, h2⟩ := Res.bind_ok.1 h
      injection h2 with e1 e2
      exact ⟨l, x, by rw [hab.1, hab.2], by rw [h1, e2], e1.symm⟩
    · rw [if_neg hab] at h; cases h

theorem atan_bad {f : List Byte → Res F} {line : List Byte} {y : F} {b : Bad} (h : atan fl f line y = b.res) :
    ∃ l, line = 47 :: 91 :: l ∧ f l = b.res := by
  rcases line with _ | ⟨c, _ | ⟨d, l⟩⟩
  · exact absurd h b.ne_null
  · exact absurd h b.ne_null
  · simp only [atan] at h
    by_cases hab : c = 47 ∧ d = 91
    · rw [if_pos hab] at h
      rcases Res.bind_bad h with h1 | ⟨x, r, h1, h2⟩
      · exact ⟨l, by rw [hab.1, hab.2], h1⟩
      · exact absurd h2 b.ne_ok
    · rw [if_neg hab] at h; exact absurd h b.ne_null

theorem unary_ok {f : List Byte → Res F} {line rest : List Byte} {v : F} (h : unary fl f line = .ok v rest) :
    ∃ op r1 x r2, operationUnary line = .ok op (91 :: r1) ∧ f (skipWhite r1) = .ok x r2 ∧
      ((op = ATAN ∧ ∃ r3 y r4, skipWhite r2 = 47 :: 91 :: r3 ∧ f r3 = .ok y r4 ∧ v = fl.atan2Deg x y ∧
          rest = skipWhite r4) ∨
        (op ≠ ATAN ∧ executeUnary fl x op = some v ∧ rest = skipWhite r2)) := by
  unfold unary at h
  obtain ⟨op, l1, h1, h2⟩ := Res.bind_ok.1 h
  rcases l1 with _ | ⟨c, r1⟩
  · cases h2
  · simp only at h2
    by_cases hc : c = 91
    · rw [if_pos hc] at h2
      unfold unaryArgument at h2
      obtain ⟨x, r2, h3, h4⟩ := Res.bind_ok.1 h2
      refine ⟨op, r1, x, r2, by rw [h1, hc], h3, ?_⟩
      by_cases ho : op = ATAN
      · rw [if_pos ho] at h4
        obtain ⟨w, r3, h5, h6⟩ := Res.bind_ok.1 h4
        obtain ⟨l, y, h7, h8, h9⟩ := atan_ok fl h5
        injection h6 with e1 e2
        exact Or.inl ⟨ho, l, y, r3, h7, h8, by rw [← e1, h9], e2.symm⟩
      · rw [if_neg ho] at h4
        right
        refine ⟨ho, ?_⟩
        cases he : executeUnary fl x op with
        | none => simp [he] at h4
        | some w =>
          simp only [he] at h4
          injection h4 with e1 e2
          exact ⟨by rw [e1], e2.symm⟩
    · rw [if_neg hc] at h2; cases h2

theorem unary_bad {f : List Byte → Res F} {line : List Byte} {b : Bad} (hc : Clean line)
    (h : unary fl f line = b.res) :
    ∃ op r1, operationUnary line = .ok op (91 :: r1) ∧
      (f (skipWhite r1) = b.res ∨ ∃ x r2 r3, f (skipWhite r1) = .ok x r2 ∧ skipWhite r2 = 47 :: 91 :: r3 ∧ f r3 = b.res) := by
  unfold unary at h
  rcases Res.bind_bad h with h1 | ⟨op, l1, h1, h2⟩
  · rcases operationUnary_cases hc with h | ⟨_, _, h⟩ <;> rw [h] at h1
    · exact absurd h1 b.ne_null
    · exact absurd h1 b.ne_ok
  · rcases l1 with _ | ⟨c, r1⟩
    · exact absurd h2 b.ne_null
    · simp only at h2
      by_cases hc : c = 91
      · rw [if_pos hc] at h2
        refine ⟨op, r1, by rw [h1, hc], ?_⟩
        unfold unaryArgument at h2
        rcases Res.bind_bad h2 with h3 | ⟨x, r2, h3, h4⟩
        · exact Or.inl h3
        · right
          by_cases ho : op = ATAN
          · rw [if_pos ho] at h4
            rcases Res.bind_bad h4 with h5 | ⟨_, _, _, h5⟩
            · obtain ⟨r3, h6, h7⟩ := atan_bad fl h5
              exact ⟨x, r2, r3, h3, h6, h7⟩
            · exact absurd h5 b.ne_ok
          · rw [if_neg ho] at h4
            split at h4
            · exact absurd h4 b.ne_ok
            · exact absurd h4 b.ne_null
      · rw [if_neg hc] at h2; exact absurd h2 b.ne_null

theorem valueSwitch_ok {f g : List Byte → Res F} {line rest : List Byte} {v : F}
    (h : valueSwitch fl lookup f g line = .ok v rest) :
    ∃ c cs, line = c :: cs ∧
      ((isAlpha c = true ∧ unary fl f line = .ok v rest) ∨
        (c = 91 ∧ f cs = .ok v rest) ∨
        (c = 35 ∧ ∃ name, readParamName fl g cs = .ok name rest ∧ v = lookup name) ∨
        (isAlpha c = false ∧ c ≠ 91 ∧ c ≠ 35 ∧ fl.strtof (skipWhite line) = some (v, rest))) := by
  rcases line with _ | ⟨c, cs⟩
  · cases h
  · refine ⟨c, cs, rfl, ?_⟩
    simp only [valueSwitch, isAlpha_toUpper] at h
    by_cases h1 : isAlpha c = true
    · rw [if_pos h1] at h; exact Or.inl ⟨h1, h⟩
    · rw [if_neg h1] at h
      by_cases h2 : c = 91
      · rw [if_pos h2] at h; exact Or.inr (Or.inl ⟨h2, h⟩)
      · rw [if_neg h2] at h
        by_cases h3 : c = 35
        · rw [if_pos h3] at h
          obtain ⟨name, r, h4, h5⟩ := Res.bind_ok.1 h
          injection h5 with e1 e2
          exact Or.inr (Or.inr (Or.inl ⟨h3, name, by rw [h4, e2], e1.symm⟩))
        · rw [if_neg h3] at h
          refine Or.inr (Or.inr (Or.inr ⟨by simpa using h1, h2, h3, ?_⟩))
          unfold number at h
          cases hs : fl.strtof (skipWhite (c :: cs)) with
          | none => simp only [hs] at h; split at h <;> cases h
          | some p =>
            simp only [hs] at h
            injection h with e1 e2
            rw [← e1, ← e2]

theorem valueSwitch_bad {f g : List Byte → Res F} {line : List Byte} {b : Bad}
    (h : valueSwitch fl lookup f g line = b.res) :
    ∃ c cs, line = c :: cs ∧
      (unary fl f line = b.res ∨ (c = 91 ∧ f cs = b.res) ∨ (c = 35 ∧ readParamName fl g cs = b.res) ∨
        (b = .undef ∧ isSpace c = true)) := by
  rcases line with _ | ⟨c, cs⟩
  · exact absurd h b.ne_null
  · refine ⟨c, cs, rfl, ?_⟩
    simp only [valueSwitch, isAlpha_toUpper] at h
    by_cases h1 : isAlpha c = true
    · rw [if_pos h1] at h; exact Or.inl h
    · rw [if_neg h1] at h
      by_cases h2 : c = 91
      · rw [if_pos h2] at h; exact Or.inr (Or.inl ⟨h2, h⟩)
      · rw [if_neg h2] at h
        by_cases h3 : c = 35
        · rw [if_pos h3] at h
          rcases Res.bind_bad h with h4 | ⟨_, _, _, h4⟩
          · exact Or.inr (Or.inr (Or.inl ⟨h3, h4⟩))
          · exact absurd h4 b.ne_ok
        · rw [if_neg h3] at h
          refine Or.inr (Or.inr (Or.inr ?_))
          unfold number at h
          cases hs : fl.strtof (skipWhite (c :: cs)) with
          | some p => simp only [hs] at h; exact absurd h b.ne_ok
          | none =>
            simp only [hs] at h
            by_cases hw : skipWhite (c :: cs) = c :: cs
            · rw [if_pos hw] at h; exact absurd h b.ne_null
            · rw [if_neg hw] at h
              cases b with
              | outOfFuel => cases h
              | undef =>
                refine ⟨rfl, ?_⟩
                by_contra hc
                exact hw (skipWhite_of_head (by simpa using hc))

theorem afterValue_ok {f : List (F × Nat) → List Byte → Res F} {S : List (F × Nat)} {v w : F}
    {line rest : List Byte} (h : afterValue fl f S v line = .ok w rest) :
    ∃ o mid S', operation line = .ok o mid ∧ push fl S v o = some S' ∧
      ((finished S' = some w ∧ rest = skipWhite mid) ∨
        (finished S' = none ∧ f S' (skipWhite mid) = .ok w rest)) := by
  unfold afterValue at h
  obtain ⟨o, mid, h1, h2⟩ := Res.bind_ok.1 h
  cases hp : push fl S v o with
  | none => simp [hp] at h2
  | some S' =>
    simp only [hp] at h2
    refine ⟨o, mid, S', h1, hp, ?_⟩
    cases hf : finished S' with
    | none => simp only [hf] at h2; exact Or.inr ⟨rfl, h2⟩
    | some x =>
      simp only [hf] at h2
      injection h2 with e1 e2
      exact Or.inl ⟨by rw [e1], e2.symm⟩

theorem afterValue_bad {f : List (F × Nat) → List Byte → Res F} {S : List (F × Nat)} {v : F} {b : Bad}
    {line : List Byte} (hc : Clean line) (h : afterValue fl f S v line = b.res) :
    ∃ o mid S', operation line = .ok o mid ∧ push fl S v o = some S' ∧ finished S' = none ∧
      f S' (skipWhite mid) = b.res := by
  unfold afterValue at h
  rcases Res.bind_bad h with h1 | ⟨o, mid, h1, h2⟩
  · rcases operation_cases hc with h | ⟨_, _, h⟩ <;> rw [h] at h1
    · exact absurd h1 b.ne_null
    · exact absurd h1 b.ne_ok
  · cases hp : push fl S v o with
    | none => simp only [hp] at h2; exact absurd h2 b.ne_null
    | some S' =>
      simp only [hp] at h2
      refine ⟨o, mid, S', h1, hp, ?_⟩
      cases hf : finished S' with
      | none => simp only [hf] at h2; exact ⟨rfl, h2⟩
      | some x => simp only [hf] at h2; exact absurd h2 b.ne_ok

theorem afterNull_ok {f : List (F × Nat) → List Byte → Res F} {S : List (F × Nat)} {line : List Byte} {r : Res F}
    (h : afterNull fl f S line = r) (hr : r ≠ .null) :
    ∃ cs, line = 45 :: cs ∧ (skipWhite cs).head? ≠ some 45 ∧ f ((fl.minusOne, TIMES) :: S) (skipWhite cs) = r := by
  rcases line with _ | ⟨c, cs⟩
  · exact absurd h.symm hr
  · simp only [afterNull] at h
    by_cases h1 : c = 45
    · rw [if_pos h1] at h
      by_cases h2 : (skipWhite cs).head? = some 45
      · rw [if_pos h2] at h; exact absurd h.symm hr
      · rw [if_neg h2] at h; exact ⟨cs, by rw [h1], h2, h⟩
    · rw [if_neg h1] at h; exact absurd h.symm hr

/-- One round of the loop that ends well. -/
theorem loop_ok {n : Nat} {S : List (F × Nat)} {line rest : List Byte} {v : F}
    (h : loop fl lookup (n + 1) S line = .ok v rest) :
    S.length < MAX_STACK ∧
    ((value fl lookup n line = .null ∧ ∃ cs, line = 45 :: cs ∧ (skipWhite cs).head? ≠ some 45 ∧
        loop fl lookup n ((fl.minusOne, TIMES) :: S) (skipWhite cs) = .ok v rest) ∨
      ∃ w mid, value fl lookup n line = .ok w mid ∧
        afterValue fl (fun S' l => loop fl lookup n S' l) S w mid = .ok v rest) := by
  rw [loop.eq_2] at h
  by_cases h0 : S.length ≥ MAX_STACK
  · rw [if_pos h0] at h; cases h
  · rw [if_neg h0] at h
    refine ⟨by omega, ?_⟩
    cases hr : value fl lookup n line with
    | outOfFuel => simp [hr] at h
    | undef => simp [hr] at h
    | null => simp only [hr] at h; exact Or.inl ⟨rfl, afterNull_ok fl h (by simp)⟩
    | ok w mid => simp only [hr] at h; exact Or.inr ⟨w, mid, rfl, h⟩

theorem loop_bad {n : Nat} {S : List (F × Nat)} {line : List Byte} {b : Bad}
    (h : loop fl lookup (n + 1) S line = b.res) :
    (MAX_STACK ≤ S.length ∧ b = .undef) ∨ value fl lookup n line = b.res ∨
    (value fl lookup n line = .null ∧ ∃ cs, line = 45 :: cs ∧ (skipWhite cs).head? ≠ some 45 ∧
        S.length < MAX_STACK ∧ loop fl lookup n ((fl.minusOne, TIMES) :: S) (skipWhite cs) = b.res) ∨
      ∃ w mid, S.length < MAX_STACK ∧ value fl lookup n line = .ok w mid ∧
        afterValue fl (fun S' l => loop fl lookup n S' l) S w mid = b.res := by
  rw [loop.eq_2] at h
  by_cases h0 : S.length ≥ MAX_STACK
  · rw [if_pos h0] at h
    left
    refine ⟨h0, ?_⟩
    cases b with
    | undef => rfl
    | outOfFuel => cases h
  · rw [if_neg h0] at h
    right
    cases hr : value fl lookup n line with
    | outOfFuel => rw [hr] at h; exact Or.inl h
    | undef => rw [hr] at h; exact Or.inl h
    | null =>
      rw [hr] at h
      obtain ⟨cs, h1, h2, h3⟩ := afterNull_ok fl h fun e => b.ne_null e.symm
      exact Or.inr (Or.inl ⟨rfl, cs, h1, h2, by omega, h3⟩)
    | ok w mid => rw [hr] at h; exact Or.inr (Or.inr ⟨w, mid, by omega, rfl, h⟩)

/-! ### The rest is shorter than the text -/

/-- A proper end of the text. -/
def Shrinks (rest line : List Byte) : Prop := rest <:+ line ∧ rest.length < line.length

theorem Shrinks.trans_le {a b c : List Byte} (h : a <:+ b) (h' : Shrinks b c) : Shrinks a c :=
  ⟨h.trans h'.1, Nat.lt_of_le_of_lt h.length_le h'.2⟩

theorem Shrinks.le_trans {a b c : List Byte} (h : Shrinks a b) (h' : b <:+ c) : Shrinks a c :=
  ⟨h.1.trans h', Nat.lt_of_lt_of_le h.2 h'.length_le⟩

theorem Shrinks.cons {a b : List Byte} {c : Byte} (h : a <:+ b) : Shrinks a (c :: b) :=
  ⟨h.trans (List.suffix_cons _ _), by have := h.length_le; simp; omega⟩

theorem scanName_suffix (br : Bool) (l : List Byte) : (scanName br l).2 <:+ l := by
  obtain ⟨body, h, _⟩ := scanName_spec br l
  exact ⟨body, h.symm⟩

theorem readParamName_shrinks {g : List Byte → Res F} {line : List Byte}
    (hg : ∀ l v rest, l <:+ line → g l = .ok v rest → Shrinks rest l)
    {name rest : List Byte} (h : readParamName fl g line = .ok name rest) :
    Shrinks rest line ∧ skipWhite rest = rest := by
  rcases readParamName_ok fl h with ⟨ws, r, h1, _, h3, _, _, h6⟩ | ⟨c, ws, i, r, h1, _, _, h4, _, _, h7⟩ |
      ⟨c, ws, h1, _, _, h4, h5, h6⟩
  · have hs : 60 :: ws <:+ line := h1 ▸ skipWhite_suffix line
    subst h6
    refine ⟨?_, skipWhite_idem _⟩
    have a : r <:+ ws := (List.suffix_cons 62 r).trans (h3 ▸ scanName_suffix true ws)
    exact Shrinks.le_trans (Shrinks.cons ((skipWhite_suffix _).trans a)) hs
  · have hs : c :: ws <:+ line := h1 ▸ skipWhite_suffix line
    subst h7
    exact ⟨Shrinks.le_trans (Shrinks.trans_le (skipWhite_suffix _) (hg _ _ _ hs h4)) hs, skipWhite_idem _⟩
  · have hs : c :: ws <:+ line := h1 ▸ skipWhite_suffix line
    subst h6
    refine ⟨?_, skipWhite_idem _⟩
    obtain ⟨body, b1, b2, _⟩ := scanName_spec false (c :: ws)
    have hbne : body ≠ [] := by
      intro e
      rw [e] at b2
      simp at b2
      exact h5 (by rw [← h4, b2])
    have hlt : ((scanName false (c :: ws)).2).length < (c :: ws).length := by
      have e := congrArg List.length b1
      rw [List.length_append] at e
      have := List.length_pos_iff.2 hbne
      omega
    exact Shrinks.le_trans (Shrinks.trans_le (skipWhite_suffix _) ⟨scanName_suffix _ _, hlt⟩) hs

/-- All texts a function looks at while it reads a function call are proper ends of it. -/
theorem unary_suffix {f : List Byte → Res F} {line : List Byte} (hc : Clean line)
    (hf : ∀ l v rest, Clean l → f l = .ok v rest → rest <:+ l) {op : Nat} {r1 : List Byte}
    (h : operationUnary line = .ok op (91 :: r1)) :
    Shrinks (skipWhite r1) line ∧ ∀ x r2, f (skipWhite r1) = .ok x r2 → Shrinks r2 line ∧
      ∀ r3, skipWhite r2 = 47 :: 91 :: r3 → Shrinks r3 line ∧ ∀ y r4, f r3 = .ok y r4 → Shrinks r4 line := by
  have hk := (operationUnary_ok_iff hc _ _).1 h
  have hs := keyword_suffix hk.1 (by omega)
  have s1 : Shrinks r1 line := Shrinks.trans_le (List.suffix_cons _ _) ⟨hs.1, hs.2.1⟩
  have s1' : Shrinks (skipWhite r1) line := Shrinks.trans_le (skipWhite_suffix _) s1
  refine ⟨s1', ?_⟩
  intro x r2 h2
  have s2 : Shrinks r2 line := Shrinks.trans_le (hf _ _ _ (hc.suffix s1'.1) h2) s1'
  refine ⟨s2, ?_⟩
  intro r3 h3
  have s3 : Shrinks r3 line := by
    have : (47 :: 91 :: r3) <:+ r2 := h3 ▸ skipWhite_suffix r2
    exact Shrinks.trans_le (((List.suffix_cons 91 r3).trans (List.suffix_cons 47 _)).trans this) s2
  exact ⟨s3, fun y r4 h4 => Shrinks.trans_le (hf _ _ _ (hc.suffix s3.1) h4) s3⟩

theorem unary_shrinks {f : List Byte → Res F} {line : List Byte} (hc : Clean line)
    (hf : ∀ l v rest, Clean l → f l = .ok v rest → rest <:+ l)
    {v : F} {rest : List Byte} (h : unary fl f line = .ok v rest) : Shrinks rest line := by
  obtain ⟨op, r1, x, r2, h1, h2, h3⟩ := unary_ok fl h
  obtain ⟨_, s⟩ := unary_suffix hc hf h1
  obtain ⟨s2, s⟩ := s x r2 h2
  rcases h3 with ⟨_, r3, y, r4, h4, h5, _, h6⟩ | ⟨_, _, h6⟩
  · subst h6; exact Shrinks.trans_le (skipWhite_suffix _) ((s r3 h4).2 y r4 h5)
  · subst h6; exact Shrinks.trans_le (skipWhite_suffix _) s2

theorem value_ok_switch {n : Nat} {line rest : List Byte} {v : F} (h : value fl lookup (n + 1) line = .ok v rest) :
    ∃ mid, valueSwitch fl lookup (fun l => loop fl lookup n [] (skipWhite l)) (fun l => value fl lookup n l) line =
      .ok v mid ∧ rest = skipWhite mid := by
  rw [value.eq_2] at h
  obtain ⟨w, mid, h1, h2⟩ := Res.bind_ok.1 h
  injection h2 with e1 e2
  exact ⟨mid, by rw [h1, e1], e2.symm⟩

theorem value_bad_switch {n : Nat} {line : List Byte} {b : Bad} (h : value fl lookup (n + 1) line = b.res) :
    valueSwitch fl lookup (fun l => loop fl lookup n [] (skipWhite l)) (fun l => value fl lookup n l) line =
      b.res := by
  rw [value.eq_2] at h
  rcases Res.bind_bad h with h1 | ⟨_, _, _, h1⟩
  · exact h1
  · exact absurd h1 b.ne_ok

theorem shrinks (hfl : fl.Ok) : ∀ n,
    (∀ line v rest, Clean line → value fl lookup n line = .ok v rest → Shrinks rest line ∧ skipWhite rest = rest) ∧
    (∀ S line v rest, Clean line → loop fl lookup n S line = .ok v rest →
      Shrinks rest line ∧ skipWhite rest = rest)
  | 0 => ⟨fun _ _ _ _ h => by simp [value] at h, fun _ _ _ _ _ h => by simp [loop] at h⟩
  | n + 1 => by
    obtain ⟨hv, hl⟩ := shrinks hfl n
    have hf : ∀ l v rest, Clean l → loop fl lookup n [] (skipWhite l) = .ok v rest → rest <:+ l :=
      fun l v r c' h => ((hl _ _ _ _ c'.skip h).1.1).trans (skipWhite_suffix _)
    constructor
    · intro line v rest hc h
      obtain ⟨mid, h1, h2⟩ := value_ok_switch fl lookup h
      subst h2
      refine ⟨Shrinks.trans_le (skipWhite_suffix _) ?_, skipWhite_idem _⟩
      obtain ⟨c, cs, hcs, h3⟩ := valueSwitch_ok fl lookup h1
      subst hcs
      rcases h3 with ⟨_, h3⟩ | ⟨_, h3⟩ | ⟨_, name, h3, _⟩ | ⟨_, _, _, h3⟩
      · exact unary_shrinks fl hc hf h3
      · exact Shrinks.cons (hf _ _ _ hc.tail h3)
      · exact Shrinks.cons (readParamName_shrinks fl
          (fun l v r hs h => (hv l v r (hc.tail.suffix hs) h).1) h3).1.1
      · have := hfl.suffix _ _ _ h3
        exact Shrinks.le_trans this (skipWhite_suffix _)
    · intro S line v rest hc h
      rcases (loop_ok fl lookup h).2 with ⟨_, cs, h1, _, h3⟩ | ⟨w, mid, h1, h2⟩
      · subst h1
        have := hl _ _ _ _ hc.tail.skip h3
        exact ⟨Shrinks.le_trans this.1 ((skipWhite_suffix _).trans (List.suffix_cons _ _)), this.2⟩
      · have s1 := (hv line w mid hc h1).1
        have c1 := hc.suffix s1.1
        obtain ⟨o, mid', S', h3, h4, h5⟩ := afterValue_ok fl h2
        have hk := (operation_ok_iff c1 _ _).1 h3
        have hs := keyword_suffix hk.1 hk.2.1
        have s2 : Shrinks mid' line := Shrinks.trans_le hs.1 s1
        rcases h5 with ⟨_, h6⟩ | ⟨_, h6⟩
        · subst h6; exact ⟨Shrinks.trans_le (skipWhite_suffix _) s2, skipWhite_idem _⟩
        · have := hl _ _ _ _ (c1.suffix hs.1).skip h6
          exact ⟨Shrinks.trans_le (this.1.1.trans (skipWhite_suffix _)) s2, this.2⟩

/-! ### Enough fuel -/

theorem enough (hfl : fl.Ok) : ∀ n,
    (∀ line, Clean line → 2 * line.length + 1 ≤ n → value fl lookup n line ≠ .outOfFuel) ∧
    (∀ S line, Clean line → 2 * line.length + 2 ≤ n → loop fl lookup n S line ≠ .outOfFuel)
  | 0 => ⟨fun _ _ h => by omega, fun _ _ _ h => by omega⟩
  | n + 1 => by
    obtain ⟨hv, hl⟩ := enough hfl n
    have sh := shrinks fl lookup hfl n
    have hf : ∀ l v rest, Clean l → loop fl lookup n [] (skipWhite l) = .ok v rest → rest <:+ l :=
      fun l v r c' h => ((sh.2 _ _ _ _ c'.skip h).1.1).trans (skipWhite_suffix _)
    constructor
    · intro line hc hn h
      have key : ∀ l, Shrinks l line → loop fl lookup n [] (skipWhite l) ≠ .outOfFuel := by
        intro l hs
        have a := hs.2
        have b := skipWhite_length l
        exact hl [] _ (hc.suffix hs.1).skip (by omega)
      have h1 := value_bad_switch fl lookup (b := .outOfFuel) h
      obtain ⟨c, cs, hcs, h3⟩ := valueSwitch_bad fl lookup h1
      subst hcs
      rcases h3 with h3 | ⟨_, h3⟩ | ⟨_, h3⟩ | ⟨h3, _⟩
      · obtain ⟨op, r1, h4, h5⟩ := unary_bad fl hc h3
        obtain ⟨s1, s⟩ := unary_suffix hc hf h4
        rcases h5 with h5 | ⟨x, r2, r3, h5, h6, h7⟩
        · exact key _ s1 h5
        · exact key _ ((s x r2 h5).2 r3 h6).1 h7
      · exact key cs (Shrinks.cons (List.suffix_refl _)) h3
      · obtain ⟨d, ws, h4, _, h5⟩ := readParamName_bad fl h3
        have hs : d :: ws <:+ cs := h4 ▸ skipWhite_suffix cs
        have := hs.length_le
        simp only [List.length_cons] at hn
        exact hv _ (hc.tail.suffix hs) (by omega) h5
      · cases h3
    · intro S line hc hn h
      rcases loop_bad fl lookup (b := .outOfFuel) h with ⟨_, h1⟩ | h1 | ⟨_, cs, h1, _, _, h3⟩ | ⟨w, mid, _, h1, h2⟩
      · cases h1
      · exact hv line hc (by omega) h1
      · subst h1
        have := skipWhite_length cs
        simp only [List.length_cons] at hn
        exact hl _ _ hc.tail.skip (by omega) h3
      · have s1 := (sh.1 line w mid hc h1).1
        have c1 := hc.suffix s1.1
        obtain ⟨o, mid', S', h3, _, _, h4⟩ := afterValue_bad fl c1 h2
        have hk := (operation_ok_iff c1 _ _).1 h3
        have hs := keyword_suffix hk.1 hk.2.1
        have a := skipWhite_length mid'
        have b := s1.2
        have c := hs.2.1
        exact hl _ _ (c1.suffix hs.1).skip (by omega) h4

/-- The bound used in `valueOf` is enough for every text. -/
theorem valueOf_fuel (hfl : fl.Ok) {line : List Byte} (hc : Clean line) : valueOf fl lookup line ≠ .outOfFuel :=
  (enough fl lookup hfl _).1 line hc (by unfold fuel; omega)

/-- The bound used in `expression` is enough for every text. -/
theorem expression_fuel (hfl : fl.Ok) {line : List Byte} (hc : Clean line) :
    expression fl lookup line ≠ .outOfFuel := by
  have := skipWhite_length line
  exact (enough fl lookup hfl _).2 [] _ hc.skip (by unfold fuel; omega)

end BeagleG.Expr
