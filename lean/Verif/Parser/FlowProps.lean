import Verif.Parser.CurveProps
/-!
# The parser: IF and WHILE (C49), and assignments within commands (C54)
-/
namespace BeagleG.Parser
open Text Expr

variable {F : Type} {fl : Num F} {rc : Receiver F} {Q : Fault → Prop} {T : List Byte → Prop}

theorem fromRes_ok {α β : Type} {r : Res α} {onNull : Out β} {f : α → List Byte → Out β} {b : β}
    (h : fromRes r onNull f = .ok b) : (r = .null ∧ onNull = .ok b) ∨ ∃ v rest, r = .ok v rest ∧ f v rest = .ok b := by
  cases r with
  | ok v rest => exact .inr ⟨v, rest, rfl, h⟩
  | null => exact .inl ⟨rfl, h⟩
  | undef => cases h
  | outOfFuel => cases h

theorem bind_ok {α β : Type} {r : Out α} {f : α → Out β} {b : β} (h : r.bind f = .ok b) :
    ∃ a, r = .ok a ∧ f a = .ok b := by
  cases r with
  | ok a => exact ⟨a, rfl, h⟩
  | fault _ => cases h
  | outOfFuel => cases h

/-- `expect` on a text without NUL. -/
theorem expect_yes {β : Type} {line rest : List Byte} (hc : Clean line) {k : Nat} {yes : List Byte → Out β} {no : Out β}
    (h : Control k line rest) : expect line k yes no = yes rest := by
  obtain ⟨⟨v, r⟩, h1, h2⟩ := control_matchNext hc
  have := matchSpec_unique controlTable_ok h h2
  injection this with e1 e2
  subst e1; subst e2
  unfold expect
  rw [C07_expect_next _ _ _ _ _ h1]
  simp

theorem expect_no {β : Type} {line : List Byte} (hc : Clean line) {k : Nat} {yes : List Byte → Out β} {no : Out β}
    (h : ∀ rest, ¬ Control k line rest) : expect line k yes no = no := by
  obtain ⟨⟨v, r⟩, h1, h2⟩ := control_matchNext hc
  unfold expect
  rw [C07_expect_next _ _ _ _ _ h1]
  by_cases e : v = k
  · subst e; exact absurd h2 (h r)
  · simp [e]

theorem expect_ok {β : Type} {line : List Byte} (hc : Clean line) {k : Nat} {yes : List Byte → Out β} {no : Out β} {b : β}
    (h : expect line k yes no = .ok b) :
    (∃ rest, Control k line rest ∧ yes rest = .ok b) ∨ ((∀ rest, ¬ Control k line rest) ∧ no = .ok b) := by
  by_cases hx : ∃ rest, Control k line rest
  · obtain ⟨rest, hr⟩ := hx
    rw [expect_yes hc hr] at h
    exact .inl ⟨rest, hr, h⟩
  · have hx' : ∀ rest, ¬ Control k line rest := fun rest hr => hx ⟨rest, hr⟩
    rw [expect_no hc hx'] at h
    exact .inr ⟨hx', h⟩

/-! ### IF -/

/-- The word ELSE, in any case. -/
def IsElse (w : List Byte) : Prop := w.map toUpper = [69, 76, 83, 69]

/-- The word IF, in any case. -/
def IsIf (w : List Byte) : Prop := w.map toUpper = [73, 70]

/-- A condition followed by THEN: its value and the text behind THEN. -/
def Arm (fl : Num F) (st : State F) (line : List Byte) (v : F) (body : List Byte) : Prop :=
  ∃ l rest r, line = 91 :: l ∧ expression fl.toFloat_ (lookup fl st) l = .ok v rest ∧
    Control CK_THEN (skipWhite rest) r ∧ body = skipWhite r

/-- The text does not contain ELSE. -/
def NoElse (l : List Byte) : Prop := ∀ a e b, l = a ++ e ++ b → ¬ IsElse e

/-- The text behind the first ELSE. -/
def FirstElse (l rest : List Byte) : Prop :=
  ∃ a e b, l = a ++ e ++ b ∧ IsElse e ∧ rest = skipWhite b ∧
    ∀ a' e' b', l = a' ++ e' ++ b' → IsElse e' → a.length ≤ a'.length

/-- What an IF selects: `some` text behind THEN or ELSE, or nothing. -/
inductive Selects (fl : Num F) (st : State F) : List Byte → Option (List Byte) → Prop
  | then {line body : List Byte} {v : F} : Arm fl st line v body → fl.eq v fl.one = true →
      Selects fl st line (some body)
  | none {line body : List Byte} {v : F} : Arm fl st line v body → fl.eq v fl.one = false → NoElse body →
      Selects fl st line none
  | else {line body l : List Byte} {v : F} : Arm fl st line v body → fl.eq v fl.one = false → FirstElse body l →
      (∀ w r, l = w ++ r → ¬ IsIf w) → Selects fl st line (some l)
  | elseif {line body l w r : List Byte} {v : F} {c : Option (List Byte)} : Arm fl st line v body →
      fl.eq v fl.one = false → FirstElse body l → l = w ++ r → IsIf w → Selects fl st (skipWhite r) c →
      Selects fl st line c

theorem afterElse_some {l r : List Byte} (h : afterElse l = some r) : ∃ e, l = e ++ r ∧ IsElse e := by
  rcases l with _ | ⟨a, _ | ⟨b, _ | ⟨c, _ | ⟨d, l⟩⟩⟩⟩
  all_goals try (simp [afterElse] at h; done)
  simp only [afterElse] at h
  split at h
  · rename_i hc
    injection h with h
    subst h
    exact ⟨[a, b, c, d], rfl, by simp [IsElse, hc]⟩
  · cases h

theorem afterElse_of {e r : List Byte} (h : IsElse e) : afterElse (e ++ r) = some r := by
  unfold IsElse at h
  rcases e with _ | ⟨a, _ | ⟨b, _ | ⟨c, _ | ⟨d, _ | ⟨x, e⟩⟩⟩⟩⟩
  all_goals simp at h
  simp [afterElse, h]

theorem findElse_first : ∀ {l r : List Byte}, findElse l = some r → FirstElse l r
  | [], r, h => by simp [findElse] at h
  | c :: cs, r, h => by
    simp only [findElse] at h
    split at h
    · rename_i l' e
      injection h with h
      obtain ⟨w, h1, h2⟩ := afterElse_some e
      exact ⟨[], w, l', h1, h2, h.symm, fun _ _ _ _ _ => Nat.zero_le _⟩
    · rename_i e
      obtain ⟨a, w, b, h1, h2, h3, h4⟩ := findElse_first h
      refine ⟨c :: a, w, b, by rw [h1]; rfl, h2, h3, ?_⟩
      intro a' e' b' h5 h6
      rcases a' with _ | ⟨x, a'⟩
      · rw [List.nil_append] at h5
        rw [h5, afterElse_of h6] at e
        cases e
      · simp only [List.cons_append, List.cons.injEq] at h5
        have := h4 a' e' b' h5.2 h6
        simpa using this

theorem findElse_none : ∀ {l : List Byte}, findElse l = none → NoElse l
  | [], _ => by
    intro a e b h he
    have : e = [] := by
      have := congrArg List.length h
      simp at this
      exact List.length_eq_zero_iff.1 (by omega)
    subst this
    cases he
  | c :: cs, h => by
    simp only [findElse] at h
    split at h
    · cases h
    · rename_i e
      intro a w b h1 h2
      rcases a with _ | ⟨x, a⟩
      · rw [List.nil_append] at h1
        rw [h1, afterElse_of h2] at e
        cases e
      · simp only [List.cons_append, List.cons.injEq] at h1
        exact findElse_none h a w b h1.2 h2

theorem afterIf_some {l r : List Byte} (h : afterIf l = some r) : ∃ w, l = w ++ r ∧ IsIf w := by
  rcases l with _ | ⟨a, _ | ⟨b, l⟩⟩
  all_goals try (simp [afterIf] at h; done)
  simp only [afterIf] at h
  split at h
  · rename_i hc
    injection h with h
    subst h
    exact ⟨[a, b], rfl, by simp [IsIf, hc]⟩
  · cases h

theorem afterIf_of {w r : List Byte} (h : IsIf w) : afterIf (w ++ r) = some r := by
  unfold IsIf at h
  rcases w with _ | ⟨a, _ | ⟨b, _ | ⟨x, e⟩⟩⟩
  all_goals simp at h
  simp [afterIf, h]

theorem Arm.unique {st : State F} {line body body' : List Byte} {v v' : F} (h : Arm fl st line v body)
    (h' : Arm fl st line v' body') : v = v' ∧ body = body' := by
  obtain ⟨l, rest, r, e, hv, hr, rfl⟩ := h
  obtain ⟨l', rest', r', e', hv', hr', rfl⟩ := h'
  rw [e] at e'
  injection e' with _ e'
  subst e'
  rw [hv] at hv'
  injection hv' with e1 e2
  subst e1; subst e2
  have := matchSpec_unique controlTable_ok hr hr'
  injection this with _ e
  subst e
  exact ⟨rfl, rfl⟩

theorem IsElse.length {e : List Byte} (h : IsElse e) : e.length = 4 := by
  have := congrArg List.length h
  simpa using this

theorem FirstElse.unique {l r r' : List Byte} (h : FirstElse l r) (h' : FirstElse l r') : r = r' := by
  obtain ⟨a, e, b, h1, h2, rfl, h4⟩ := h
  obtain ⟨a', e', b', h1', h2', rfl, h4'⟩ := h'
  have k1 := h4 a' e' b' h1' h2'
  have k2 := h4' a e b h1 h2
  have hl := h2.length
  have hl' := h2'.length
  have : a ++ e ++ b = a' ++ e' ++ b' := h1 ▸ h1'
  have := List.append_inj_right this (by simp; omega)
  rw [this]

theorem FirstElse.not_none {l r : List Byte} (h : FirstElse l r) (h' : NoElse l) : False := by
  obtain ⟨a, e, b, h1, h2, _⟩ := h
  exact h' a e b h1 h2

theorem IsIf.unique {w r w' r' : List Byte} (h : IsIf w) (h' : IsIf w') (e : w ++ r = w' ++ r') : r = r' := by
  have hl : w.length = 2 := by have := congrArg List.length h; simpa using this
  have hl' : w'.length = 2 := by have := congrArg List.length h'; simpa using this
  exact List.append_inj_right e (by omega)

/-- **C49.** A branch is an assignment, it begins with `#`; anything else is an error. -/
theorem C49_branch (st : State F) (line : List Byte) :
    (∀ l, line = 35 :: l → branch fl st line = (setParameter fl st l).bind fun r => .ok r.1) ∧
    ((∀ l, line ≠ 35 :: l) → branch fl st line = .ok (st.say .error)) := by
  refine ⟨?_, fun h => ?_⟩
  · rintro l rfl
    rfl
  · unfold branch
    cases e : after1 35 line with
    | none => rfl
    | some l => exact absurd (after1_suffix e) (h l)

/-- **C49, IF: exactly the selected branch is carried out** - one assignment - or nothing if no branch is selected;
an error is reported if it cannot be told which branch to take. -/
theorem C49_if (hfl : fl.toFloat_.Ok) : ∀ (n : Nat) (st st' : State F) (line : List Byte), Clean line →
    conditional fl n st line = .ok st' →
    (∃ c, Selects fl st line c ∧ match c with
      | none => st' = st
      | some body => branch fl st body = .ok st') ∨
    ((∀ c, ¬ Selects fl st line c) ∧ st' = st.say .error)
  | 0, _, _, _, _, h => by cases h
  | n + 1, st, st', line, hc, h => by
    have noArm : (∀ v body, ¬ Arm fl st line v body) → ∀ c, ¬ Selects fl st line c := by
      intro hno c hs
      cases hs with
      | «then» a => exact hno _ _ a
      | none a => exact hno _ _ a
      | «else» a => exact hno _ _ a
      | elseif a => exact hno _ _ a
    simp only [conditional] at h
    split at h
    · rename_i hn
      injection h with h
      refine .inr ⟨noArm ?_, h.symm⟩
      rintro v body ⟨l, rest, r, e, _⟩
      rw [e] at hn
      simp [after1] at hn
    · rename_i l e
      have e' := after1_suffix e
      have hcl : Clean l := hc.suffix (e' ▸ List.suffix_cons _ _)
      rcases fromRes_ok h with ⟨hv, h⟩ | ⟨v, rest, hv, h⟩
      · injection h with h
        refine .inr ⟨noArm ?_, h.symm⟩
        rintro v body ⟨l2, rest, r, e2, hv2, _⟩
        rw [e'] at e2
        injection e2 with _ e2
        subst e2
        rw [hv] at hv2
        cases hv2
      have hs : rest <:+ l := ((shrinks _ _ hfl _).2 _ _ _ _ hcl.skip hv).1.1.trans (skipWhite_suffix l)
      have hcr : Clean (skipWhite rest) := hcl.suffix ((skipWhite_suffix _).trans hs)
      rcases expect_ok hcr h with ⟨r, hr, h⟩ | ⟨hno, h⟩
      · have arm : Arm fl st line v (skipWhite r) := ⟨l, rest, r, e', hv, hr, rfl⟩
        have hcb : Clean (skipWhite r) := hcr.suffix ((skipWhite_suffix _).trans (control_suffix hr (by decide)).1.1)
        split at h
        · rename_i hone
          exact .inl ⟨_, .then arm hone, h⟩
        · rename_i hone
          have hone : fl.eq v fl.one = false := by simpa using hone
          split at h
          · rename_i hf
            injection h with h
            exact .inl ⟨_, .none arm hone (findElse_none hf), h.symm⟩
          · rename_i l' hf
            have hcl' : Clean l' := hcb.suffix (findElse_suffix hf).1
            have hfe := findElse_first hf
            split at h
            · rename_i r' hif
              obtain ⟨w, hw1, hw2⟩ := afterIf_some hif
              have hcr' : Clean (skipWhite r') := hcl'.suffix ((skipWhite_suffix _).trans (afterIf_suffix hif))
              rcases C49_if hfl n st st' _ hcr' h with ⟨c, hsel, hres⟩ | ⟨hnot, h⟩
              · exact .inl ⟨c, .elseif arm hone hfe hw1 hw2 hsel, hres⟩
              · refine .inr ⟨?_, h⟩
                intro c hsel
                cases hsel with
                | «then» a hone' => rw [(arm.unique a).1, hone'] at hone; cases hone
                | none a _ hn => exact hfe.not_none ((arm.unique a).2 ▸ hn)
                | «else» a _ hfe' hnif =>
                  have := hfe.unique ((arm.unique a).2 ▸ hfe')
                  subst this
                  exact hnif w r' hw1 hw2
                | elseif a _ hfe' hw hwif hs' =>
                  have := hfe.unique ((arm.unique a).2 ▸ hfe')
                  subst this
                  have := hw2.unique hwif (hw1 ▸ hw)
                  subst this
                  exact hnot c hs'
            · rename_i hif
              refine .inl ⟨_, .else arm hone hfe ?_, h⟩
              intro w r' hw hw2
              rw [hw, afterIf_of hw2] at hif
              cases hif
      · injection h with h
        refine .inr ⟨noArm ?_, h.symm⟩
        rintro v2 body ⟨l2, rest2, r, e2, hv2, hr2, _⟩
        rw [e'] at e2
        injection e2 with _ e2
        subst e2
        rw [hv] at hv2
        injection hv2 with _ e3
        subst e3
        exact hno _ hr2

/-- The first character of a text that starts with a control keyword is a letter. -/
theorem control_head {k : Nat} (hk : 0 < k) {line rest : List Byte} (h : Control k line rest) :
    ∃ c cs, skipWhite line = c :: cs ∧ c ≠ 59 ∧ c ≠ 37 ∧ c ≠ 40 := by
  rcases h with ⟨w, v, h1, hkw, _, h4⟩ | ⟨_, h2⟩
  · have hne : w ≠ [] := controlTable_nonempty _ h1
    obtain ⟨x, xs, rfl⟩ := List.exists_cons_of_ne_nil hne
    unfold IsKeywordOf upper at hkw
    cases he : skipWhite line with
    | nil =>
      rw [he] at hkw
      simp at hkw
    | cons c cs =>
      rw [he] at hkw
      simp only [List.map_cons, List.cons_prefix_cons] at hkw
      have hx : ∀ p ∈ controlTable, ∀ y ∈ p.1.head?, toUpper y ≠ 59 ∧ toUpper y ≠ 37 ∧ toUpper y ≠ 40 := by
        decide +kernel
      obtain ⟨a1, a2, a3⟩ := hx _ h1 x rfl
      rw [hkw.1] at a1 a2 a3
      exact ⟨c, cs, rfl, by rintro rfl; exact a1 rfl, by rintro rfl; exact a2 rfl, by rintro rfl; exact a3 rfl⟩
  · injection h2 with h2 _; omega

theorem control_skip {k : Nat} {line rest : List Byte} (hk : 0 < k) (h : Control k line rest) :
    Control k (skipWhite line) rest := by
  unfold Control MatchSpec at h ⊢
  rw [skipWhite_idem]
  rcases h with h | ⟨h1, h2⟩
  · exact .inl h
  · injection h2 with h2 _; omega

theorem control_other {k k' : Nat} {line rest rest' : List Byte} (h : Control k line rest) (h' : Control k' line rest') :
    k = k' ∧ rest = rest' := by
  have := matchSpec_unique controlTable_ok h h'
  injection this with e1 e2
  exact ⟨e1, e2⟩

/-- **C49, an IF line**: the effect of a line that starts with IF is that of its condition, whatever else is on the
line. -/
theorem C49_if_line (n : Nat) {st : State F} {line rest : List Byte} (hc : Clean line) (hd : st.doWhile = false)
    (hk : Control CK_IF line rest) : parseBlock fl rc n st line =
      (conditional fl (rest.length + 1) st (skipWhite rest)).bind fun st => .ok (st.say .blockDone) := by
  obtain ⟨c, cs, he, h1, h2, h3⟩ := control_head (by decide) hk
  have hk' := control_skip (by decide) hk
  rw [he] at hk'
  have hcl : Clean (c :: cs) := he ▸ hc.suffix (skipWhite_suffix _)
  simp only [parseBlock, blockWith, wordFuel, blockLoop, parsePair, pairLoop, he, pairStart]
  rw [if_neg (by tauto), if_neg (by rw [hd]; simp), if_neg h3]
  unfold pairBody
  rw [expect_yes hcl hk']
  cases conditional fl (rest.length + 1) st (skipWhite rest) <;> rfl

/-! ### WHILE: recording -/

/-- **C49, the WHILE line** only remembers the condition and that a loop is being recorded. -/
theorem C49_while_line (n : Nat) {st : State F} {line rest : List Byte} (hc : Clean line) (hd : st.doWhile = false)
    (hk : Control CK_WHILE line rest) :
    parseBlock fl rc n st line = .ok ((whileStart st (skipWhite rest)).say .blockDone) := by
  obtain ⟨c, cs, he, h1, h2, h3⟩ := control_head (by decide) hk
  have hk' := control_skip (by decide) hk
  rw [he] at hk'
  have hcl : Clean (c :: cs) := he ▸ hc.suffix (skipWhite_suffix _)
  simp only [parseBlock, blockWith, wordFuel, blockLoop, parsePair, pairLoop, he, pairStart]
  rw [if_neg (by tauto), if_neg (by rw [hd]; simp), if_neg h3]
  unfold pairBody
  rw [expect_no hcl (fun r hr => absurd (control_other hr hk').1 (by decide)), expect_yes hcl hk']
  rfl

/-- **C49, a line of the body** has no effect but being remembered. (Empty lines and lines that start with a
semicolon or percent sign are forgotten.) -/
theorem C49_record (n : Nat) {st : State F} {line : List Byte} (hc : Clean line) (hd : st.doWhile = true)
    (hk : ∀ rest, ¬ Control CK_END (skipWhite line) rest) : parseBlock fl rc n st line = .ok
      ((if (skipWhite line).head? ∈ [none, some 59, some 37] then st
        else { st with whileBody := st.whileBody ++ skipWhite line, whileGen := st.whileGen + 1 } : State F).say .blockDone) := by
  simp only [parseBlock, blockWith, wordFuel, blockLoop]
  have hcl : Clean (skipWhite line) := hc.suffix (skipWhite_suffix _)
  rcases parsePair_recording (fl := fl) (whileEnd fl rc n) st line hd with ⟨e, h⟩ | ⟨h, e⟩
  · rw [e, if_pos h]; rfl
  · rw [e, if_neg h]
    unfold whileDo
    rw [expect_no hcl hk]
    rfl

/-- **C49, the END line** carries out the loop. -/
theorem C49_end (n : Nat) {st : State F} {line rest : List Byte} (hc : Clean line) (hd : st.doWhile = true)
    (hk : Control CK_END line rest) : parseBlock fl rc n st line =
      (whileEnd fl rc n { st with doWhile := false }).bind fun st => .ok (st.say .blockDone) := by
  obtain ⟨c, cs, he, h1, h2, h3⟩ := control_head (by decide) hk
  have hk' := control_skip (by decide) hk
  simp only [parseBlock, blockWith, wordFuel, blockLoop]
  have hcl : Clean (skipWhite line) := hc.suffix (skipWhite_suffix _)
  rcases parsePair_recording (fl := fl) (whileEnd fl rc n) st line hd with ⟨_, h⟩ | ⟨_, e⟩
  · rw [he] at h
    simp at h
    tauto
  · rw [e]
    unfold whileDo
    rw [expect_yes hcl hk']
    cases whileEnd fl rc n { st with doWhile := false } <;> rfl

/-! ### WHILE: the loop -/

/-- The condition of the loop can be read and is not zero, and DO follows. -/
def LoopTrue (fl : Num F) (st : State F) (cond : List Byte) : Prop :=
  ∃ v rest r, expression fl.toFloat_ (lookup fl st) cond = .ok v rest ∧ fl.eq v fl.zero = false ∧
    Control CK_DO (skipWhite rest) r

/-- The condition of the loop can be read and is zero. -/
def LoopFalse (fl : Num F) (st : State F) (cond : List Byte) : Prop :=
  ∃ v rest, expression fl.toFloat_ (lookup fl st) cond = .ok v rest ∧ fl.eq v fl.zero = true

/-- The lines of the body are carried out one after the other, with at most `n` iterations of inner loops. -/
def BodyRuns (fl : Num F) (rc : Receiver F) (n : Nat) (st st' : State F) : Prop :=
  runPieces (parseBlock fl rc n) st.whileGen (splitString st.whileBody [10]) st = .ok st'

/-- A loop: as long as the condition is true the body is carried out. -/
inductive LoopRuns (fl : Num F) (rc : Receiver F) : State F → State F → Prop
  | stop {st : State F} : LoopFalse fl st st.whileCond → LoopRuns fl rc st st
  | again {st st1 st' : State F} {n : Nat} : LoopTrue fl st st.whileCond → BodyRuns fl rc n st st1 →
      LoopRuns fl rc st1 st' → LoopRuns fl rc st st'
  /-- the condition cannot be read -/
  | bad {st : State F} : ¬ LoopTrue fl st st.whileCond → ¬ LoopFalse fl st st.whileCond →
      LoopRuns fl rc st (st.say .error)

/-- **C49, WHILE: the body is carried out exactly as long as the condition is not zero.** (Condition and body are
those that are remembered at the time; an inner loop replaces them.) -/
theorem C49_loop (hfl : fl.toFloat_.Ok) : ∀ (n : Nat) (st st' : State F), Texts Clean st →
    whileEnd fl rc n st = .ok st' → LoopRuns fl rc st st'
  | 0, _, _, _, h => by cases h
  | n + 1, st, st', hx, h => by
    simp only [whileEnd] at h
    have hs : Safer fl (fun _ => True) Clean := clean_safer
    have hcl : Clean st.whileCond := hx.1
    rcases fromRes_ok h with ⟨hv, h⟩ | ⟨v, rest, hv, h⟩
    · injection h with h
      subst h
      refine .bad ?_ ?_
      · rintro ⟨v, rest, r, h, _⟩; rw [hv] at h; cases h
      · rintro ⟨v, rest, h, _⟩; rw [hv] at h; cases h
    · have hsuf : rest <:+ st.whileCond :=
        ((shrinks _ _ hfl _).2 _ _ _ _ hcl.skip hv).1.1.trans (skipWhite_suffix _)
      have hcr : Clean (skipWhite rest) := hcl.suffix ((skipWhite_suffix _).trans hsuf)
      split at h
      · rename_i hz
        injection h with h
        subst h
        exact .stop ⟨v, rest, hv, hz⟩
      · rename_i hz
        have hz : fl.eq v fl.zero = false := by simpa using hz
        rcases expect_ok hcr h with ⟨r, hr, h⟩ | ⟨hno, h⟩
        · obtain ⟨st1, h1, h2⟩ := bind_ok h
          have hsteps := runPieces_sat (Q := fun _ => True) (O := True) hs.dangling (steps_blockRel (rc := rc) hs) (fun st l hl hx =>
            parseBlock_sat hfl hs (steps_blockRel (rc := rc) hs) (commands_steps (fun _ => trivial) hs.suffix) n hl hx) st.whileGen
            (splitString st.whileBody [10]) st (hs.pieces _ hx.2) hx
          have h1' : runPieces (parseBlock fl rc n) st.whileGen (splitString st.whileBody [10]) st = .ok st1 := h1
          rw [h1'] at hsteps
          exact .again ⟨v, rest, r, hv, hz, hr⟩ h1' (C49_loop hfl n st1 st'
            ((steps_blockRel (rc := rc) hs).texts hsteps hx) h2)
        · injection h with h
          subst h
          refine .bad ?_ ?_
          · rintro ⟨v2, rest2, r, h, _, hr⟩
            rw [hv] at h
            injection h with _ e
            subst e
            exact hno r hr
          · rintro ⟨v2, rest2, h, hz2⟩
            rw [hv] at h
            injection h with e _
            subst e
            rw [hz2] at hz
            cases hz

/-! ### WHILE: loops without loops inside -/

/-- Texts over a set of characters are closed under what the parser does with texts. -/
theorem chars_safer {P : Byte → Prop} (h0 : ∀ c, P c → c ≠ 0) :
    Safer fl (fun _ => True) (fun l => ∀ c ∈ l, P c) where
  clean l h c hc := h0 c (h c hc)
  suffix _ _ h hs c hc := h c (hs.subset hc)
  stack _ _ _ := trivial
  comment _ _ _ _ := trivial
  printf _ _ _ := trivial
  nil := by intro c hc; cases hc
  append a b ha hb := by
    intro c hc
    rcases List.mem_append.1 hc with h | h
    · exact ha c h
    · exact hb c h
  pieces l hl p hp := by
    intro c hc
    obtain ⟨-, -, h⟩ := C06_split l [10]
    refine hl c ?_
    rw [← h]
    exact interleave_mem _ _ hp hc
  dangling := trivial

/-- No character of the text is a W (or NUL): there is no WHILE in it. -/
def NoW (l : List Byte) : Prop := ∀ c ∈ l, c ≠ 0 ∧ c ≠ 87 ∧ c ≠ 119

theorem noW_control {l r : List Byte} (h : NoW l) : ¬ Control CK_WHILE l r := by
  rintro (⟨w, v, h1, hkw, _, h4⟩ | ⟨_, h2⟩)
  · have hv : v = CK_WHILE := by injection h4 with h4 _; exact h4.symm
    subst hv
    have hw : ∀ p ∈ controlTable, p.2 = CK_WHILE → p.1.head?.map toUpper = some 87 := by decide +kernel
    have hw := hw _ h1 rfl
    unfold IsKeywordOf upper at hkw
    cases w with
    | nil => cases hw
    | cons x xs =>
      cases he : skipWhite l with
      | nil =>
        rw [he] at hkw
        simp at hkw
      | cons c cs =>
        rw [he] at hkw
        simp only [List.map_cons, List.cons_prefix_cons] at hkw
        simp only [List.head?_cons, Option.map_some, Option.some.injEq] at hw
        have hc : c ∈ l := (skipWhite_suffix l).subset (by rw [he]; simp)
        have hcc := h c hc
        rw [hw] at hkw
        have key : ∀ c : Fin 256, toUpper (UInt8.ofNat c) = 87 → (UInt8.ofNat c) = 87 ∨ (UInt8.ofNat c) = 119 := by
          decide +kernel
        have := key ⟨c.toNat, c.toNat_lt⟩ (by simpa only [UInt8.ofNat_toNat] using hkw.1.symm)
        simp only [UInt8.ofNat_toNat] at this
        rcases this with e | e
        · exact hcc.2.1 e
        · exact hcc.2.2 e
  · injection h2 with h2 _
    exact absurd h2 (by decide)

/-- What a body without loops keeps. -/
structure LoopKept (st st' : State F) : Prop where
  cond : st'.whileCond = st.whileCond
  body : st'.whileBody = st.whileBody
  gen : st'.whileGen = st.whileGen
  doWhile : st'.doWhile = false

theorem micro_loopKept {st st' : State F} (hT : ∀ w r, T w → ¬ Control CK_WHILE w r) (hd : st.doWhile = false)
    (h : Micro fl rc T st st') : LoopKept st st' := by
  cases h with
  | quiet h => rw [h.eq]; exact ⟨rfl, rfl, rfl, hd⟩
  | start l hl => obtain ⟨_, w, r, h1, h2, _⟩ := hl; exact absurd h2 (hT w r h1)
  | collect l _ h => rw [hd] at h; cases h
  | say e _ => exact ⟨rfl, rfl, rfl, hd⟩
  | modal h =>
    refine ⟨h.rest.whileCond, h.rest.whileBody, h.rest.whileGen, ?_⟩
    cases hb : st'.doWhile with
    | false => rfl
    | true => rw [h.rest.doWhile hb] at hd; cases hd
  | shift name h hn =>
    rename_i s
    refine ⟨h.whileCond, h.whileBody, h.whileGen, ?_⟩
    show s.doWhile = false
    cases hb : s.doWhile with
    | false => rfl
    | true => rw [h.doWhile hb] at hd; cases hd
  | load => exact ⟨rfl, rfl, rfl, hd⟩
  | moved e p _ _ => exact ⟨rfl, rfl, rfl, hd⟩
  | refused e p _ _ => exact ⟨rfl, rfl, rfl, hd⟩
  | curve feed ps target _ =>
    obtain ⟨k, _, e⟩ := moves_asked (rc := rc) feed (ps ++ [target]) st
    rw [e]; exact ⟨rfl, rfl, rfl, hd⟩
  | curveRefused feed ps _ =>
    obtain ⟨k, _, e⟩ := moves_asked (rc := rc) feed ps st
    rw [e]; exact ⟨rfl, rfl, rfl, hd⟩
  | ignored _ _ _ _ _ => exact ⟨rfl, rfl, rfl, hd⟩
  | bareRefused a v e p _ _ => exact ⟨rfl, rfl, rfl, hd⟩
  | home flags => exact ⟨rfl, rfl, rfl, hd⟩
  | probed feed z _ => exact ⟨rfl, rfl, rfl, hd⟩
  | notProbed feed _ => exact ⟨rfl, rfl, rfl, hd⟩

theorem steps_loopKept {st st' : State F} (hT : ∀ w r, T w → ¬ Control CK_WHILE w r) (hd : st.doWhile = false)
    (h : Steps fl rc T st st') : LoopKept st st' := by
  induction h with
  | refl => exact ⟨rfl, rfl, rfl, hd⟩
  | tail _ hm ih =>
    have := micro_loopKept hT ih.doWhile hm
    exact ⟨this.cond.trans ih.cond, this.body.trans ih.body, this.gen.trans ih.gen, this.doWhile⟩
  | program _ ih =>
    unfold startProgram
    split
    · exact ih
    · exact ⟨ih.cond, ih.body, ih.gen, ih.doWhile⟩
  | finish _ ih => exact ⟨ih.cond, ih.body, ih.gen, rfl⟩

theorem runPieces_lines {n : Nat} {gen : Nat} : ∀ {ls : List (List Byte)} {st st' : State F},
    runPieces (parseBlock fl rc n) gen ls st = .ok st' → runLines fl rc n st ls = .ok st'
  | [], _, _, h => h
  | l :: ls, st, st', h => by
    simp only [runPieces] at h
    split at h
    · cases h
    · obtain ⟨st1, h1, h2⟩ := bind_ok h
      simp only [runLines, h1, Out.bind]
      exact runPieces_lines h2

/-- **C49, a loop without loops inside**: there are states `s 0`, `s 1`, …, `s k`; the loop starts in the first one
and ends in the last one; in each but the last the condition is true and the lines of the body lead to the next
one; in the last one the condition is false, or cannot be read, which is reported. -/
theorem C49_simple_loop (hfl : fl.toFloat_.Ok) {n : Nat} {st st' : State F} (hc : NoW st.whileCond)
    (hb : NoW st.whileBody) (hd : st.doWhile = false) (h : whileEnd fl rc n st = .ok st') :
    ∃ (k : Nat) (s : Nat → State F), s 0 = st ∧
      (∀ i < k, LoopTrue fl (s i) st.whileCond ∧
        ∃ m, runLines fl rc m (s i) (splitString st.whileBody [10]) = .ok (s (i + 1))) ∧
      ((LoopFalse fl (s k) st.whileCond ∧ st' = s k) ∨
        (¬ LoopTrue fl (s k) st.whileCond ∧ ¬ LoopFalse fl (s k) st.whileCond ∧ st' = (s k).say .error)) := by
  have hs : Safer fl (fun _ => True) NoW := chars_safer (fun c hc => hc.1)
  have hcl : ∀ l, NoW l → Clean l := fun l hl c hc => (hl c hc).1
  have hloop := C49_loop (rc := rc) hfl n st st' ⟨hcl _ hc, hcl _ hb⟩ h
  clear h
  induction hloop with
  | @stop st h => exact ⟨0, fun _ => st, rfl, fun i hi => by omega, .inl ⟨h, rfl⟩⟩
  | @bad st h1 h2 => exact ⟨0, fun _ => st, rfl, fun i hi => by omega, .inr ⟨h1, h2, rfl⟩⟩
  | @again st st1 st' m h1 h2 h3 ih =>
    have hx : Texts NoW st := ⟨hc, hb⟩
    have hsteps := runPieces_sat (Q := fun _ => True) (O := True) hs.dangling (steps_blockRel (rc := rc) hs) (fun st l hl hx =>
      parseBlock_sat hfl hs (steps_blockRel (rc := rc) hs) (commands_steps (fun _ => trivial) hs.suffix) m hl hx)
      st.whileGen (splitString st.whileBody [10]) st (hs.pieces _ hx.2) hx
    have h2' : runPieces (parseBlock fl rc m) st.whileGen (splitString st.whileBody [10]) st = .ok st1 := h2
    rw [h2'] at hsteps
    have hk := steps_loopKept (fun w r hw => noW_control hw) hd hsteps
    obtain ⟨k, s, e0, hi, hend⟩ := ih (by rw [hk.cond]; exact hc) (by rw [hk.body]; exact hb) hk.doWhile
    rw [hk.cond] at hi hend
    rw [hk.body] at hi
    refine ⟨k + 1, fun i => if i = 0 then st else s (i - 1), rfl, ?_, ?_⟩
    · intro i hik
      cases i with
      | zero =>
        refine ⟨h1, m, ?_⟩
        simp only [if_true, Nat.zero_add, Nat.one_ne_zero, if_false, Nat.sub_self, e0]
        exact runPieces_lines h2'
      | succ i =>
        have := hi i (by omega)
        simpa using this
    · simpa using hend

/-! ### Examples and counterexamples -/

/-- What a program leaves in a parameter. -/
def leaves (lines : List String) (name : String) (v : Int) : Prop :=
  ∃ st, runLines exNum (exReceiver true) 50 exState (lines.map text) = .ok st ∧ lookup exNum st (text name) = v

/-- Non-vacuity: a condition with three branches, and a loop. -/
example : leaves ["#1=2", "IF [#1==1] THEN #2=10 ELSEIF [#1==2] THEN #2=20 ELSE #2=30"] "2" 20 ∧
    leaves ["#1=3", "IF [#1==1] THEN #2=10 ELSEIF [#1==2] THEN #2=20 ELSE #2=30"] "2" 30 ∧
    leaves ["#1=0", "#2=1", "WHILE [#1<5] DO", "#1++ ", "#2*=2", "END", "#3=#2"] "3" 32 :=
  ⟨⟨_, rfl, by decide +kernel⟩, ⟨_, rfl, by decide +kernel⟩, ⟨_, rfl, by decide +kernel⟩⟩

/-- Non-vacuity of `C10_choice` and `C10_compound`. -/
example : leaves ["#1=3", "#2=#1?10:20"] "2" 10 ∧ leaves ["#1=0", "#2=#1 ? 10 : 20"] "2" 20 ∧
    leaves ["#1=7", "#1-=2", "#1*=#1"] "1" 25 ∧ leaves ["#1=7", "#1+=2", "#1/=3"] "1" 3 :=
  ⟨⟨_, rfl, by decide +kernel⟩, ⟨_, rfl, by decide +kernel⟩, ⟨_, rfl, by decide +kernel⟩, ⟨_, rfl, by decide +kernel⟩⟩

/-- A true condition whose value is not 1 does not select the branch, though it would keep a loop going. -/
theorem C49_if_two : leaves ["#1=0", "IF [2] THEN #1=1"] "1" 0 :=
  ⟨_, rfl, by decide +kernel⟩

/-- ELSE is found within a name: the branch that should not be taken is taken in part, and the other one is not. -/
theorem C49_else_in_name : leaves ["#2=0", "IF [0] THEN #<elsewhere>=1 ELSE #2=1"] "2" 0 :=
  ⟨_, rfl, by decide +kernel⟩

/-- The lines of a body that come from the streamer are joined without anything between them: after an assignment
that ends in a number, a word starts with the next line only because `#` or a letter follows; after a comment
nothing follows. Here the increment of the counter is lost, and the loop does not end. -/
theorem C49_body_joined : runLines exNum (exReceiver true) 50 exState
      (["#1=0", "WHILE [#1<2] DO", "#2=1 ; a comment", "#1++", "END"].map text) = .outOfFuel ∧
    leaves ["#1=0", "WHILE [#1<2] DO", "#2=1", "#1++", "END"] "1" 2 :=
  ⟨rfl, ⟨_, rfl, by decide +kernel⟩⟩

/-! ### C54: assignments take effect once -/

/-- The assignments of a text that contains nothing else, one after the other. -/
inductive Assigns (fl : Num F) : State F → List Byte → State F → Prop
  | done {st : State F} {line : List Byte} : skipWhite line = [] → Assigns fl st line st
  | next {st st1 st' : State F} {line l rest : List Byte} : skipWhite line = 35 :: l →
      setParameter fl st l = .ok (st1, some rest) → Assigns fl st1 rest st' → Assigns fl st line st'

theorem not_control_hash {k : Nat} {l r : List Byte} (hk : 0 < k) : ¬ Control k (35 :: l) r := by
  intro h
  rcases h with ⟨w, v, h1, hkw, _, h4⟩ | ⟨_, h2⟩
  · have hne : w ≠ [] := controlTable_nonempty _ h1
    obtain ⟨x, xs, rfl⟩ := List.exists_cons_of_ne_nil hne
    unfold IsKeywordOf upper at hkw
    have hsk : skipWhite (35 :: l) = 35 :: l := by
      unfold skipWhite; rfl
    rw [hsk] at hkw
    simp only [List.map_cons, List.cons_prefix_cons] at hkw
    have hx : ∀ p ∈ controlTable, ∀ y ∈ p.1.head?, toUpper y ≠ 35 := by decide +kernel
    exact hx _ h1 x rfl hkw.1
  · injection h2 with h2 _; omega

theorem assigns_pair (hfl : fl.toFloat_.Ok) {e : State F → Out (State F)} {st st' : State F} {line : List Byte}
    (h : Assigns fl st line st') : ∀ n, line.length < n → Clean line → st.doWhile = false →
      pairLoop fl e n st line = .ok (st', none) := by
  induction h with
  | @done st line h =>
    intro n hn _ _
    cases n with
    | zero => omega
    | succ n => simp only [pairLoop, h, pairStart]
  | @next st st1 st' line l rest h1 h2 _ ih =>
    intro n hn hc hd
    cases n with
    | zero => omega
    | succ n =>
      have hcl : Clean (35 :: l) := h1 ▸ hc.suffix (skipWhite_suffix _)
      have hlen : (35 :: l).length ≤ line.length := h1 ▸ (skipWhite_suffix line).length_le
      simp only [pairLoop, h1, pairStart]
      rw [if_neg (by decide), if_neg (by rw [hd]; simp), if_neg (by decide)]
      unfold pairBody
      rw [expect_no hcl (fun r => not_control_hash (by decide)), expect_no hcl (fun r => not_control_hash (by decide))]
      have ha : after1 35 ((35 : Byte) :: l) = some l := by simp [after1]
      rw [ha]
      simp only [h2, Out.bind]
      have hsat := setParameter_sat (Q := fun _ => True) (T := Clean) (st := st) hfl clean_safer.toSafe
        (hcl.suffix (List.suffix_cons _ _))
      rw [h2] at hsat
      obtain ⟨hq, hr⟩ := hsat
      obtain ⟨h3, h4⟩ := hr rest rfl
      have h5 := h3.1.length_le
      simp only [List.length_cons] at hlen
      have hd1 : st1.doWhile = false := by
        have : st1 = _ := hq.eq
        rw [this]; exact hd
      exact ih n (by omega) h4 hd1

/-- **C54, lines with nothing but assignments**: each one is made once, from left to right. (On a line with a
command the last ones can be made twice, see `C54_twice`.) -/
theorem C54_assignments_partial (hfl : fl.toFloat_.Ok) (n : Nat) {st st' : State F} {line : List Byte}
    (hc : Clean line) (hd : st.doWhile = false) (h : Assigns fl st line st') :
    parseBlock fl rc n st line = .ok (st'.say .blockDone) := by
  simp only [parseBlock, blockWith, wordFuel, blockLoop, parsePair]
  rw [assigns_pair hfl h _ (by omega) hc hd]
  rfl

/-- Non-vacuity: a line with three assignments. -/
example : leaves ["#1=5 #2=#1 #1++"] "1" 6 ∧ ∃ st, Assigns exNum exState (text "#1=5 #2=#1 #1++") st ∧
    lookup exNum st (text "1") = 6 := by
  refine ⟨⟨_, rfl, by decide +kernel⟩, _, .next rfl rfl (.next rfl rfl (.next rfl rfl (.done rfl))), ?_⟩
  decide +kernel

/-- **An assignment at the end of a line with a move is made twice.** -/
theorem C54_twice : leaves ["#1=0", "G0 X1 #1++"] "1" 2 ∧ leaves ["#1=0", "#1++ G0 X1"] "1" 1 :=
  ⟨⟨_, rfl, by decide +kernel⟩, ⟨_, rfl, by decide +kernel⟩⟩

end BeagleG.Parser
