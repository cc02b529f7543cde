import Verif.Expr.Complete
/-!
# Whatever is accepted is the value of a tree; what happens before the stack overruns
-/
namespace BeagleG.Expr
open Text

variable {F : Type} (fl : Float_ F) (lookup : List Byte → F)

/-- An operator that waits for its right operand. -/
inductive Frame (F : Type) where
  | left (l : Tree F) (op : BinOp)
  | minus

/-- Is it the sign of a term? -/
def Frame.isMinus : Frame F → Bool
  | .left _ _ => false
  | .minus => true

/-- The text between the two positions consists of operators that wait for their right operand, each with its
left operand; the last one first. -/
inductive Pend : List (Frame F) → List Byte → List Byte → Prop
  | nil {s : List Byte} : Pend [] s s
  | left {fs : List (Frame F)} {l : Tree F} {op : BinOp} {s m m' cur : List Byte} : Pend fs s m →
      Derives fl l m m' → Keyword op.code m' cur → Pend (.left l op :: fs) s cur
  | minus {fs : List (Frame F)} {s cs : List Byte} : Pend fs s (45 :: cs) → fl.strtof (45 :: cs) = none →
      (skipWhite cs).head? ≠ some 45 → Pend (.minus :: fs) s (skipWhite cs)

/-- The binding strength of the operator at the top. -/
def Frame.level : Frame F → Nat
  | .left _ op => op.level
  | .minus => 4

/-- A tree can be the right operand of the top operator. -/
def Ready (fs : List (Frame F)) (t : Tree F) : Prop :=
  match fs with
  | [] => True
  | .left _ op :: _ => t.isNeg = true ∨ op.level < t.level
  | .minus :: _ => 4 < t.level

/-- The waiting operators are as binding strength demands. -/
def Good : List (Frame F) → Prop
  | [] => True
  | .left l op :: fs =>
    l.Proper ∧ op.level ≤ l.level ∧ (op = .pow → l.endsNeg = false) ∧
      (∀ f ∈ fs.head?, f.level < op.level) ∧ Good fs
  | .minus :: fs => (∀ f ∈ fs.head?, f.isMinus = false) ∧ Good fs

/-- What the evaluation stack holds for a waiting operator. -/
def Holds : Frame F → F × Nat → Prop
  | .left l op, p => l.eval fl lookup = some p.1 ∧ p.2 = op.code
  | .minus, p => p = (fl.minusOne, TIMES)

/-- The stack holds exactly the waiting operators. -/
inductive Rel : List (Frame F) → List (F × Nat) → Prop
  | nil : Rel [] []
  | cons {f : Frame F} {p : F × Nat} {fs : List (Frame F)} {S : List (F × Nat)} : Holds fl lookup f p →
      Rel fs S → Rel (f :: fs) (p :: S)

theorem Rel.length {fs : List (Frame F)} {S : List (F × Nat)} (h : Rel fl lookup fs S) : fs.length = S.length := by
  induction h with
  | nil => rfl
  | cons _ _ ih => simp [ih]

theorem Holds.precedence {f : Frame F} {p : F × Nat} (h : Holds fl lookup f p) : precedence p.2 = f.level := by
  cases f with
  | left l op => rw [h.2, op.precedence_code]; rfl
  | minus => rw [show p = (fl.minusOne, TIMES) from h]; exact precedence_times

/-- The state after the pending operators that bind at least as tight as `o` have been executed. -/
structure Collapsed (s r1 : List Byte) (o : Nat) (S' : List (F × Nat)) : Prop where
  exists_ : ∃ (fs : List (Frame F)) (S : List (F × Nat)) (t : Tree F) (v : F) (m : List Byte),
    S' = (v, o) :: S ∧ Pend fl fs s m ∧ Derives fl t m r1 ∧ t.Proper ∧ t.eval fl lookup = some v ∧
      Rel fl lookup fs S ∧ Good fs ∧ precedence o ≤ t.level ∧ (t.endsNeg = true → o ≠ POWER) ∧
      (∀ f ∈ fs.head?, f.level < precedence o)

theorem collapse_sound : ∀ (fs : List (Frame F)) (S : List (F × Nat)) (t : Tree F) (v : F) (o : Nat)
    (s m r1 : List Byte) (S' : List (F × Nat)), collapse fl S v o = some S' → Pend fl fs s m →
    Derives fl t m r1 → t.Proper → t.eval fl lookup = some v → Rel fl lookup fs S → Good fs →
    precedence o ≤ t.level → (t.endsNeg = true → o ≠ POWER) → Ready fs t → Collapsed fl lookup s r1 o S'
  | [], S, t, v, o, s, m, r1, S', h, hp, hd, hpr, he, hr, hg, hl, hn, _ => by
    cases hr
    simp only [collapse] at h
    injection h with h
    exact ⟨⟨[], [], t, v, m, h.symm, hp, hd, hpr, he, .nil, trivial, hl, hn, by simp⟩⟩
  | f :: fs, S, t, v, o, s, m, r1, S', h, hp, hd, hpr, he, hr, hg, hl, hn, hready => by
    cases hr with
    | @cons _ p _ S h1 h2 =>
      obtain ⟨u, q⟩ := p
      simp only [collapse] at h
      have hpq := Holds.precedence fl lookup h1
      simp only at hpq
      by_cases hq : precedence o ≤ precedence q
      · rw [if_pos hq] at h
        cases f with
        | left l op =>
          obtain ⟨hev, hcode⟩ := h1
          simp only at hev hcode
          subst hcode
          rw [executeBinary_code] at h
          cases hx : op.apply fl u v with
          | none => simp [hx] at h
          | some w =>
            simp only [hx] at h
            obtain ⟨g1, g2, g3, g4, g5⟩ := hg
            cases hp with
            | @left _ _ _ _ m0 m1 _ hp' hd' hk' =>
              refine collapse_sound fs S (.bin op l t) w o s m0 r1 S' h hp' (.bin hd' hk' hd)
                ⟨g1, hpr, g2, hready, g3⟩ ?_ h2 g5 ?_ hn ?_
              · simp [Tree.eval, hev, he, hx]
              · rw [hpq] at hq; exact hq
              · cases fs with
                | nil => trivial
                | cons f' fs' =>
                  have := g4 f' (by simp)
                  cases f' with
                  | left l' op' => exact Or.inr this
                  | minus => exact this
        | minus =>
          have e : ((u, q) : F × Nat) = (fl.minusOne, TIMES) := h1
          injection e with e1 e2
          subst e1; subst e2
          have hb : executeBinary fl fl.minusOne TIMES v = BinOp.mul.apply fl fl.minusOne v := executeBinary_code fl .mul _ _
          rw [hb] at h
          cases hx : BinOp.mul.apply fl fl.minusOne v with
          | none => simp [hx] at h
          | some w =>
            simp only [hx] at h
            cases hp with
            | @minus _ _ cs hp' hs' hh' =>
              rw [precedence_times] at hq
              refine collapse_sound fs S (.neg t) w o s (45 :: cs) r1 S' h hp' (.neg hs' hh' hd)
                ⟨hpr, hready⟩ ?_ h2 hg.2 hq ?_ ?_
              · simp [Tree.eval, he, hx]
              · intro _ e
                rw [e] at hq
                revert hq; decide
              · cases fs with
                | nil => trivial
                | cons f' fs' =>
                  have := hg.1 f' (by simp)
                  cases f' with
                  | left l' op' => exact Or.inl rfl
                  | minus => cases this
      · rw [if_neg hq] at h
        injection h with h
        refine ⟨⟨f :: fs, (u, q) :: S, t, v, m, h.symm, hp, hd, hpr, he, .cons h1 h2, hg, hl, hn, ?_⟩⟩
        intro f' hf'
        simp only [List.head?_cons, Option.mem_def, Option.some.injEq] at hf'
        subst hf'
        omega

theorem push_sound {fs : List (Frame F)} {S : List (F × Nat)} {t : Tree F} {v : F} {o : Nat}
    {s m r1 : List Byte} {S' : List (F × Nat)} (h : push fl S v o = some S') (hp : Pend fl fs s m)
    (hd : Derives fl t m r1) (hpr : t.Proper) (he : t.eval fl lookup = some v) (hr : Rel fl lookup fs S)
    (hg : Good fs) (hl : 6 ≤ t.level) (hn : t.endsNeg = false) (hlen : S.length ≤ 5) :
    Collapsed fl lookup s r1 o S' ∧ S'.length ≤ 5 := by
  have hlo : precedence o ≤ t.level := by have := precedence_le o; omega
  have hno : t.endsNeg = true → o ≠ POWER := by rw [hn]; intro h; cases h
  have hready : Ready fs t := by
    cases fs with
    | nil => trivial
    | cons f fs =>
      cases f with
      | left l op =>
        have : op.level < 6 := by cases op <;> decide
        exact Or.inr (by omega)
      | minus => show 4 < t.level; omega
  have hcl : ∀ (S : List (F × Nat)) (v : F) (S' : List (F × Nat)), collapse fl S v o = some S' → S'.length ≤ S.length + 1 ∧
      (S.length ≠ 0 → (∀ p ∈ S.head?, precedence o ≤ precedence p.2) → S'.length ≤ S.length) := by
    intro S
    induction S with
    | nil => intro v S' h; simp only [collapse] at h; injection h with h; subst h; simp
    | cons p S ih =>
      intro v S' h
      obtain ⟨u, q⟩ := p
      simp only [collapse] at h
      by_cases hq : precedence o ≤ precedence q
      · rw [if_pos hq] at h
        cases hx : executeBinary fl u q v with
        | none => simp [hx] at h
        | some w =>
          simp only [hx] at h
          have := (ih w S' h).1
          simp only [List.length_cons]
          exact ⟨by omega, fun _ _ => this⟩
      · rw [if_neg hq] at h
        injection h with h
        subst h
        refine ⟨by simp, fun _ hh => absurd (hh (u, q) (by simp)) hq⟩
  cases S with
  | nil =>
    have hc : collapse fl ([] : List (F × Nat)) v o = some S' := h
    refine ⟨collapse_sound fl lookup fs [] t v o s m r1 S' hc hp hd hpr he hr hg hlo hno hready, ?_⟩
    have := (hcl [] v S' hc).1
    simp only [List.length_nil] at this
    omega
  | cons p S =>
    obtain ⟨u, q⟩ := p
    simp only [push] at h
    by_cases hq : precedence o > precedence q
    · rw [if_pos hq] at h
      by_cases ho : ((u, q) :: S).length + 1 ≥ MAX_STACK
      · rw [if_pos ho] at h; cases h
      · rw [if_neg ho] at h
        have hc : collapse fl ((u, q) :: S) v o = some S' := by
          simp only [collapse]; rw [if_neg (by omega)]; exact h
        refine ⟨collapse_sound fl lookup fs _ t v o s m r1 S' hc hp hd hpr he hr hg hlo hno hready, ?_⟩
        injection h with h
        subst h
        simp only [MAX_STACK] at ho
        simp only [List.length_cons] at ho ⊢
        omega
    · rw [if_neg hq] at h
      refine ⟨collapse_sound fl lookup fs _ t v o s m r1 S' h hp hd hpr he hr hg hlo hno hready, ?_⟩
      have := (hcl _ v S' h).2 (by simp) (by simp; omega)
      omega

theorem Collapsed.frame {s r1 r2 : List Byte} {o : Nat} {S' : List (F × Nat)} (h : Collapsed fl lookup s r1 o S')
    (hk : Keyword o r1 r2) (h0 : 0 < o) (h1 : o < UNARY_OP_START) :
    (∃ t w, finished S' = some w ∧ Derives fl t s r1 ∧ t.Proper ∧ t.eval fl lookup = some w ∧ o = RIGHT_BRACKET) ∨
    (finished S' = none ∧ ∃ fs l op, Rel fl lookup (.left l op :: fs) S' ∧ Good (.left l op :: fs) ∧
      Pend fl (.left l op :: fs) s r2) := by
  obtain ⟨fs, S, t, v, m, e1, e2, e3, e4, e5, e6, e7, e8, e9, e10⟩ := h.exists_
  rcases code_cases hk h0 h1 with ho | ⟨op, ho⟩
  · left
    subst ho
    have hfs : fs = [] := by
      cases fs with
      | nil => rfl
      | cons f fs =>
        have := e10 f (by simp)
        rw [precedence_rb] at this
        have hpos : 1 ≤ f.level := by
          cases f with
          | left l op => have : 2 ≤ op.level := by cases op <;> decide
                         show 1 ≤ op.level; omega
          | minus => show 1 ≤ 4; omega
        omega
    subst hfs
    cases e6
    cases e2
    refine ⟨t, v, ?_, e3, e4, e5, rfl⟩
    rw [e1]; simp [finished]
  · right
    subst ho
    refine ⟨?_, fs, t, op, ?_, ?_, .left e2 e3 hk⟩
    · rw [e1]
      cases S with
      | nil => simp only [finished]; rw [if_neg (Nat.ne_of_lt op.code_range.2)]
      | cons p S => rfl
    · rw [e1]; exact .cons ⟨e5, rfl⟩ e6
    · rw [op.precedence_code] at e8 e10
      refine ⟨e4, e8, ?_, e10, e7⟩
      intro hp
      cases hn : t.endsNeg with
      | false => rfl
      | true => exact absurd (op.code_pow.2 hp) (e9 hn)

/-- The text does not begin with white space. -/
def Trimmed (l : List Byte) : Prop := skipWhite l = l

theorem Trimmed.head {c : Byte} {cs : List Byte} (h : Trimmed (c :: cs)) : isSpace c = false := skipWhite_head h

/-- The tree of an operand. -/
def HasOperand (line rest : List Byte) (v : F) : Prop :=
  ∃ t, 6 ≤ t.level ∧ t.endsNeg = false ∧ Derives fl t line rest ∧ t.Proper ∧ t.eval fl lookup = some v

theorem sound_value {n : Nat} (hfl : fl.Ok)
    (hv : ∀ line v rest, Clean line → Trimmed line → value fl lookup n line = .ok v rest → HasOperand fl lookup line rest v)
    (hl : ∀ line v rest, Clean line → loop fl lookup n [] (skipWhite line) = .ok v rest →
      ∃ t r1, Derives fl t (skipWhite line) r1 ∧ t.Proper ∧ t.eval fl lookup = some v ∧ Keyword RIGHT_BRACKET r1 rest)
    {line rest : List Byte} {v : F} (hc : Clean line) (ht : Trimmed line)
    (h : value fl lookup (n + 1) line = .ok v rest) : HasOperand fl lookup line rest v := by
  obtain ⟨mid, h1, h2⟩ := value_ok_switch fl lookup h
  obtain ⟨c, cs, hcs, h3⟩ := valueSwitch_ok fl lookup h1
  subst hcs
  have sh := shrinks fl lookup hfl n
  rcases h3 with ⟨ha, h3⟩ | ⟨h91, h3⟩ | ⟨h35, name, h3, h4⟩ | ⟨ha, hb, hd, h3⟩
  · obtain ⟨op, r1, x, r2, h4, h5, h6⟩ := unary_ok fl h3
    have hk := (operationUnary_ok_iff hc _ _).1 h4
    have hs1 := keyword_suffix hk.1 (by omega)
    have hc1 : Clean r1 := (hc.suffix hs1.1).tail
    obtain ⟨t, q1, d1, d2, d3, d4⟩ := hl _ _ _ hc1.skip h5
    rw [skipWhite_idem] at d1
    have hr2 : skipWhite r2 = r2 := (keyword_suffix d4 (by decide)).2.2
    rcases h6 with ⟨ho, r3, y, r4, h7, h8, h9, h10⟩ | ⟨ho, h7, h8⟩
    · subst ho
      rw [hr2] at h7
      subst h7
      have hc3 : Clean r3 := ((hc1.skip.suffix (Derives.suffix fl hfl d1)).suffix
        (keyword_suffix d4 (by decide)).1).tail.tail
      obtain ⟨t', q2, b1, b2, b3, b4⟩ := hl _ _ _ hc3 h8
      have hr4 : skipWhite r4 = r4 := (keyword_suffix b4 (by decide)).2.2
      rw [hr4] at h10
      subst h10
      rw [h2, hr4]
      exact ⟨.atan t t', by simp [Tree.level], rfl, .atan ha hk.1 d1 d4 b1 b4, ⟨d2, b2⟩, by
        simp [Tree.eval, d3, b3, h9]⟩
    · rcases fun_cases hk.1 hk.2 with e | ⟨f, e⟩
      · exact absurd e ho
      · subst e
        rw [executeUnary_code] at h7
        rw [h2, h8, skipWhite_idem, hr2]
        exact ⟨.fn f t, by simp [Tree.level], rfl, .fn ha hk.1 d1 d4, d2, by simp [Tree.eval, d3, h7]⟩
  · subst h91
    obtain ⟨t, q1, d1, d2, d3, d4⟩ := hl _ _ _ hc.tail h3
    rw [h2, (keyword_suffix d4 (by decide)).2.2]
    exact ⟨.bracket t, by simp [Tree.level], rfl, .bracket d1 d4, d2, d3⟩
  · subst h35
    rcases readParamName_ok fl h3 with ⟨ws, r, e1, e2, e3, e4, e5, e6⟩ | ⟨c, ws, i, r, e1, e2, e3, e4, e5, e6, e7⟩ |
        ⟨c, ws, e1, e2, e3, e4, e5, e6⟩
    · obtain ⟨body, b1, b2, b3, b4⟩ := scanName_spec true ws
      rw [e3] at b1
      rw [e4] at b2
      subst b2
      rw [h2, e6, skipWhite_idem]
      refine ⟨.named _, by simp [Tree.level], rfl, .angled e1 b1 b3 ?_ e5, trivial, by simp [Tree.eval, h4]⟩
      intro d hd
      cases body with
      | nil => simp at hd
      | cons x xs =>
        simp only [List.head?_cons, Option.some.injEq] at hd
        subst hd
        rw [b1] at e2
        simp [startsNumeric] at e2
        simpa using e2.2
    · have hs : c :: ws <:+ cs := e1 ▸ skipWhite_suffix cs
      have hcw : Clean (c :: ws) := hc.tail.suffix hs
      have htw : Trimmed (c :: ws) := by
        show skipWhite _ = _
        rw [← e1, skipWhite_idem]
      obtain ⟨t, t1, t2, t3, t4, t5⟩ := hv _ _ _ hcw htw e4
      have hr : skipWhite r = r := Derives.rest_white fl t3
      rw [h2, e7, skipWhite_idem, hr]
      refine ⟨.numbered t, by simp [Tree.level], rfl, .numbered e1 ?_ t1 t3, t4, ?_⟩
      · simpa [startsNumeric] using e3
      · simp [Tree.eval, t5, e5, h4, e6]
    · obtain ⟨body, b1, b2, b3, b4⟩ := scanName_spec false (c :: ws)
      have hfil : (body.filter fun d => !isSpace d) = body := by
        rw [List.filter_eq_self]
        intro d hd
        simp [(isNameChar_facts d (b3 d hd)).1]
      rw [hfil, e4] at b2
      subst b2
      rw [h2, e6, skipWhite_idem]
      refine ⟨.named name, by simp [Tree.level], rfl, .named e1 ?_ e5 b1 b3 b4, trivial, by simp [Tree.eval, h4]⟩
      simp [startsNumeric] at e3
      simpa using e3.2
  · have hsp := ht.head
    rw [skipWhite_of_head hsp] at h3
    rw [h2]
    exact ⟨.num v, by simp [Tree.level], rfl, .num ⟨c, cs, rfl, ha, hb, hd, hsp⟩ h3, trivial, rfl⟩

theorem strtof_none_of_null {n : Nat} {cs : List Byte} (h : value fl lookup (n + 1) (45 :: cs) = .null) :
    fl.strtof (45 :: cs) = none := by
  rw [value.eq_2] at h
  have hw : skipWhite (45 :: cs) = 45 :: cs := skipWhite_of_head (by decide)
  cases hs : fl.strtof (45 :: cs) with
  | none => rfl
  | some p =>
    have : valueSwitch fl lookup (fun l => loop fl lookup n [] (skipWhite l)) (fun l => value fl lookup n l) (45 :: cs) =
        .ok p.1 p.2 := by
      simp only [valueSwitch]
      rw [if_neg (by decide), if_neg (by decide), if_neg (by decide)]
      simp only [number, hw, hs]
    rw [this] at h
    cases h

theorem Pend.top_minus {fs : List (Frame F)} {s cur : List Byte} (h : Pend fl fs s cur) {cs : List Byte}
    (e : cur = 45 :: cs) : ∀ f ∈ fs.head?, f.isMinus = false := by
  intro f hf
  cases h with
  | nil => simp at hf
  | left => simp only [List.head?_cons, Option.mem_def, Option.some.injEq] at hf; subst hf; rfl
  | minus _ _ hh => rw [e] at hh; simp at hh

/-- The tree of a bracketed expression from the position where the bracket level starts. -/
def HasTree (s rest : List Byte) (v : F) : Prop :=
  ∃ t r1, Derives fl t s r1 ∧ t.Proper ∧ t.eval fl lookup = some v ∧ Keyword RIGHT_BRACKET r1 rest

theorem sound (hfl : fl.Ok) : ∀ n,
    (∀ line v rest, Clean line → Trimmed line → value fl lookup n line = .ok v rest → HasOperand fl lookup line rest v) ∧
    (∀ fs S s cur v rest, Clean cur → Trimmed cur → Rel fl lookup fs S → Good fs → Pend fl fs s cur →
      loop fl lookup n S cur = .ok v rest → HasTree fl lookup s rest v)
  | 0 => ⟨fun _ _ _ _ _ h => by simp [value] at h, fun _ _ _ _ _ _ _ _ _ _ _ h => by simp [loop] at h⟩
  | n + 1 => by
    obtain ⟨hv, hl⟩ := sound hfl n
    constructor
    · intro line v rest hc ht h
      refine sound_value fl lookup hfl hv ?_ hc ht h
      intro l w r hcl hloop
      exact hl [] [] (skipWhite l) (skipWhite l) w r hcl.skip (skipWhite_idem _) .nil trivial .nil hloop
    · intro fs S s cur v rest hc ht hr hg hp h
      obtain ⟨hlen, h1⟩ := loop_ok fl lookup h
      simp only [MAX_STACK] at hlen
      rcases h1 with ⟨hnull, cs, e, hh, hloop⟩ | ⟨w, mid, hval, hafter⟩
      · subst e
        have hs : fl.strtof (45 :: cs) = none := by
          cases n with
          | zero => simp [value] at hnull
          | succ n => exact strtof_none_of_null fl lookup hnull
        exact hl (.minus :: fs) _ s _ v rest hc.tail.skip (skipWhite_idem _) (.cons rfl hr)
          ⟨Pend.top_minus fl hp rfl, hg⟩ (.minus hp hs hh) hloop
      · obtain ⟨t, t1, t2, t3, t4, t5⟩ := hv cur w mid hc ht hval
        have cm : Clean mid := hc.suffix (Derives.suffix fl hfl t3)
        obtain ⟨o, r2, S', hop, hpush, h5⟩ := afterValue_ok fl hafter
        have hk := (operation_ok_iff cm _ _).1 hop
        have hr2 := keyword_suffix hk.1 hk.2.1
        have hcol := (push_sound fl lookup hpush hp t3 t4 t5 hr hg t1 t2 (by omega)).1
        rcases hcol.frame fl lookup hk.1 hk.2.1 hk.2.2 with ⟨t', w', f1, f2, f3, f4, f5⟩ | ⟨f1, fs', l, op, f2, f3, f4⟩
        · rcases h5 with ⟨g1, g2⟩ | ⟨g1, _⟩
          · rw [f1] at g1
            injection g1 with g1
            subst g1
            subst f5
            rw [g2, hr2.2.2]
            exact ⟨t', mid, f2, f3, f4, hk.1⟩
          · rw [f1] at g1; cases g1
        · rcases h5 with ⟨g1, _⟩ | ⟨_, g2⟩
          · rw [f1] at g1; cases g1
          · rw [hr2.2.2] at g2
            exact hl _ S' s r2 v rest (cm.suffix hr2.1) hr2.2.2 f2 f3 f4 g2

/-! ### Overruns -/

/-- Six operators are waiting at one bracket level of the text, at least two of them minus signs in front of an
operand. -/
def Overrun (line : List Byte) : Prop :=
  ∃ (fs : List (Frame F)) (s cur : List Byte), s <:+ line ∧ Pend fl fs s cur ∧ Good fs ∧ fs.length = 6 ∧
    2 ≤ (fs.filter Frame.isMinus).length

theorem Overrun.mono {l line : List Byte} (h : Overrun fl l) (hs : l <:+ line) : Overrun fl line := by
  obtain ⟨fs, s, cur, h1, h2⟩ := h
  exact ⟨fs, s, cur, h1.trans hs, h2⟩

theorem Good.length_le : ∀ fs : List (Frame F), Good fs → (∀ f ∈ fs, f.isMinus = false) →
    fs.length ≤ 4 ∧ ∀ f ∈ fs.head?, fs.length + 1 ≤ f.level
  | [], _, _ => by simp
  | .minus :: fs, _, h => by have := h .minus (by simp); cases this
  | .left l op :: fs, hg, h => by
    obtain ⟨_, _, _, g4, g5⟩ := hg
    have ih := Good.length_le fs g5 fun f hf => h f (by simp [hf])
    have hop5 : op.level ≤ 5 := by cases op <;> decide
    have hop2 : 2 ≤ op.level := by cases op <;> decide
    have key : fs.length + 1 + 1 ≤ op.level := by
      cases fs with
      | nil => simpa using hop2
      | cons f fs =>
        have a := ih.2 f (by simp)
        have b := g4 f (by simp)
        simp only [List.length_cons] at a ⊢
        omega
    refine ⟨by simp only [List.length_cons]; omega, ?_⟩
    intro f hf
    simp only [List.head?_cons, Option.mem_def, Option.some.injEq] at hf
    subst hf
    exact key

theorem Good.overrun {fs : List (Frame F)} (hg : Good (.minus :: fs)) (h : fs.length = 5) :
    2 ≤ ((Frame.minus :: fs).filter Frame.isMinus).length := by
  have e : (Frame.minus :: fs).filter Frame.isMinus = .minus :: fs.filter Frame.isMinus := by
    simp [List.filter, Frame.isMinus]
  rw [e, List.length_cons]
  have : fs.filter Frame.isMinus ≠ [] := by
    intro e
    rw [List.filter_eq_nil_iff] at e
    have := (Good.length_le fs hg.2 fun f hf => by simpa using e f hf).1
    omega
  have := List.length_pos_iff.2 this
  omega

theorem undef_overrun (hfl : fl.Ok) : ∀ n,
    (∀ line, Clean line → Trimmed line → value fl lookup n line = .undef → Overrun fl line) ∧
    (∀ fs S s cur, Clean cur → Trimmed cur → Rel fl lookup fs S → Good fs → Pend fl fs s cur → cur <:+ s →
      (S.length ≤ 5 ∨ (S.length = 6 ∧ ∃ fs', fs = .minus :: fs')) →
      loop fl lookup n S cur = .undef → Overrun fl s)
  | 0 => ⟨fun _ _ _ h => by simp [value] at h, fun _ _ _ _ _ _ _ _ _ _ _ h => by simp [loop] at h⟩
  | n + 1 => by
    obtain ⟨hv, hl⟩ := undef_overrun hfl n
    have sh := shrinks fl lookup hfl n
    have snd := sound fl lookup hfl n
    have hf : ∀ l v rest, Clean l → loop fl lookup n [] (skipWhite l) = .ok v rest → rest <:+ l :=
      fun l v r c' h => ((sh.2 _ _ _ _ c'.skip h).1.1).trans (skipWhite_suffix _)
    constructor
    · intro line hc ht h
      have key : ∀ l, l <:+ line → loop fl lookup n [] (skipWhite l) = .undef → Overrun fl line := by
        intro l hs hu
        exact Overrun.mono fl (hl [] [] _ _ (hc.suffix hs).skip (skipWhite_idem _) .nil trivial .nil
          (List.suffix_refl _) (Or.inl (by simp)) hu) ((skipWhite_suffix l).trans hs)
      have h1 := value_bad_switch fl lookup (b := .undef) h
      obtain ⟨c, cs, hcs, h3⟩ := valueSwitch_bad fl lookup h1
      subst hcs
      rcases h3 with h3 | ⟨_, h3⟩ | ⟨_, h3⟩ | ⟨_, h3⟩
      · obtain ⟨op, r1, h4, h5⟩ := unary_bad fl hc h3
        obtain ⟨s1, s⟩ := unary_suffix hc hf h4
        rcases h5 with h5 | ⟨x, r2, r3, h5, h6, h7⟩
        · exact key _ s1.1 h5
        · exact key _ ((s x r2 h5).2 r3 h6).1.1 h7
      · exact key cs (List.suffix_cons _ _) h3
      · obtain ⟨d, ws, h4, _, h5⟩ := readParamName_bad fl h3
        have hs : d :: ws <:+ cs := h4 ▸ skipWhite_suffix cs
        refine Overrun.mono fl (hv _ (hc.tail.suffix hs) ?_ h5) (hs.trans (List.suffix_cons _ _))
        show skipWhite _ = _
        rw [← h4, skipWhite_idem]
      · rw [ht.head] at h3; cases h3
    · intro fs S s cur hc ht hr hg hp hsuf hlen h
      rcases loop_bad fl lookup (b := .undef) h with ⟨h1, _⟩ | h1 | ⟨hnull, cs, h1, hh, hlt, h3⟩ | ⟨w, mid, hlt, h1, h2⟩
      · simp only [MAX_STACK] at h1
        rcases hlen with h5 | ⟨h6, fs', e⟩
        · omega
        · subst e
          have hl5 := hr.length
          simp only [List.length_cons] at hl5
          exact ⟨_, s, cur, List.suffix_refl _, hp, hg, by simp only [List.length_cons]; omega,
            Good.overrun hg (by omega)⟩
      · exact Overrun.mono fl (hv cur hc ht h1) hsuf
      · subst h1
        have hs : fl.strtof (45 :: cs) = none := by
          cases n with
          | zero => simp [value] at hnull
          | succ n => exact strtof_none_of_null fl lookup hnull
        simp only [MAX_STACK] at hlt
        refine hl (.minus :: fs) _ s _ hc.tail.skip (skipWhite_idem _) (.cons rfl hr)
          ⟨Pend.top_minus fl hp rfl, hg⟩ (.minus hp hs hh)
          (((skipWhite_suffix _).trans (List.suffix_cons _ _)).trans hsuf) ?_ h3
        simp only [List.length_cons]
        by_cases h5 : S.length = 5
        · exact Or.inr ⟨by omega, fs, rfl⟩
        · exact Or.inl (by omega)
      · simp only [MAX_STACK] at hlt
        obtain ⟨t, t1, t2, t3, t4, t5⟩ := snd.1 cur w mid hc ht h1
        have ms := Derives.suffix fl hfl t3
        have cm : Clean mid := hc.suffix ms
        obtain ⟨o, r2, S', hop, hpush, hfin, hloop⟩ := afterValue_bad fl cm h2
        have hk := (operation_ok_iff cm _ _).1 hop
        have hr2 := keyword_suffix hk.1 hk.2.1
        have hcol := push_sound fl lookup hpush hp t3 t4 t5 hr hg t1 t2 (by omega)
        rcases hcol.1.frame fl lookup hk.1 hk.2.1 hk.2.2 with ⟨t', w', f1, _⟩ | ⟨f1, fs', l, op, f2, f3, f4⟩
        · rw [f1] at hfin; cases hfin
        · rw [hr2.2.2] at hloop
          exact hl _ S' s r2 (cm.suffix hr2.1) hr2.2.2 f2 f3 f4 ((hr2.1.trans ms).trans hsuf) (Or.inl hcol.2) hloop

end BeagleG.Expr
