import Verif.Parser.FlowProps
/-!
# C75: what cannot be read is reported

`ParsePair` returns null at the end of a line, and when it does not understand the text. After that the rest of the
line is not looked at. So the user has to be told in the second case.
-/
namespace BeagleG.Parser
open Text Expr

variable {F : Type} {fl : Num F} {rc : Receiver F}

/-- The text without the comment in front of it, if there is one. -/
inductive Bare : List Byte → List Byte → Prop
  | plain {line : List Byte} : (∀ cs, skipWhite line ≠ 40 :: cs) → Bare line (skipWhite line)
  | comment {line a b : List Byte} : skipWhite line = 40 :: (a ++ 41 :: b) → 41 ∉ a → Bare line (skipWhite b)

/-- The assignments at the start of a text have been made; `l` is what follows. -/
inductive AssignsThen (fl : Num F) : State F → List Byte → State F → List Byte → Prop
  | here {st : State F} {line l : List Byte} : Bare line l → AssignsThen fl st line st l
  | next {st st1 st' : State F} {line l rest l' : List Byte} : Bare line (35 :: l) →
      setParameter fl st l = .ok (st1, some rest) → AssignsThen fl st1 rest st' l' → AssignsThen fl st line st' l'

/-- Nothing is left, or only a comment. -/
def LineEnds (l : List Byte) : Prop := l = [] ∨ l.head? = some 59 ∨ l.head? = some 37

/-- A checksum: the rest of the line is not meant to be read. -/
def Checksum (l : List Byte) : Prop := ∃ c cs, l = 42 :: c :: cs

/-- The question for the value of a parameter. -/
def Query (fl : Num F) (st : State F) (l : List Byte) : Prop :=
  ∃ cs name, l = 35 :: cs ∧ readParamName fl.toFloat_ (valueOf fl.toFloat_ (lookup fl st)) cs = .ok name []

/-- A number sign without name. -/
def NoName (l : List Byte) : Prop := ∃ cs, l = 35 :: cs ∧
  ((∃ c ws, skipWhite cs = c :: ws ∧ c ≠ 60 ∧ c ≠ 35 ∧ isDigit c = false ∧ isNameChar false c = false) ∨
   ∃ ws r, skipWhite cs = 60 :: (ws ++ 62 :: r) ∧ ∀ c ∈ ws, isSpace c = true)

theorem nameless_spec {cs : List Byte} (h : nameless cs = true) : NoName (35 :: cs) := by
  refine ⟨cs, rfl, ?_⟩
  unfold nameless at h
  cases hs : skipWhite cs with
  | nil => rw [hs] at h; cases h
  | cons c ws =>
    rw [hs] at h
    simp only at h
    split at h
    · rename_i hc
      subst hc
      simp only [Bool.and_eq_true, Bool.not_eq_true', List.isEmpty_iff, beq_iff_eq] at h
      obtain ⟨⟨_, h2⟩, h3⟩ := h
      obtain ⟨body, e1, e2, _⟩ := scanName_spec true ws
      obtain ⟨r, hr⟩ : ∃ r, (scanName true ws).2 = 62 :: r := by
        cases hx : (scanName true ws).2 with
        | nil => rw [hx] at h3; cases h3
        | cons d r => rw [hx] at h3; injection h3 with h3; exact ⟨r, by rw [h3]⟩
      refine .inr ⟨body, r, by rw [← hr, ← e1], fun c hc => ?_⟩
      rw [h2] at e2
      have := List.filter_eq_nil_iff.1 e2.symm c hc
      simpa using this
    · rename_i hc
      simp only [Bool.and_eq_true, Bool.not_eq_true', List.isEmpty_iff, startsNumeric, Bool.or_eq_false_iff,
        decide_eq_false_iff_not] at h
      obtain ⟨⟨h1, h2⟩, h3⟩ := h
      refine .inl ⟨c, ws, rfl, hc, h1, h2, ?_⟩
      by_contra hn
      have hn : isNameChar false c = true := by simpa using hn
      have hsp : isSpace c = false := by
        have := skipWhite_head hs
        simpa using this
      unfold scanName at h3
      rw [if_pos hn] at h3
      simp [hsp] at h3

theorem comment_closed : ∀ {l r : List Byte}, afterComment l = some r → ∃ a, l = a ++ 41 :: r ∧ 41 ∉ a
  | [], r, h => by cases h
  | c :: cs, r, h => by
    unfold afterComment at h
    split at h
    · rename_i hc
      injection h with h
      exact ⟨[], by rw [hc, h]; rfl, by simp⟩
    · rename_i hc
      obtain ⟨a, h1, h2⟩ := comment_closed h
      refine ⟨c :: a, by rw [h1]; rfl, ?_⟩
      simp only [List.mem_cons, not_or]
      exact ⟨fun e => hc e.symm, h2⟩

theorem toUpper_star {c : Byte} (h : toUpper c = 42) : c = 42 := by
  unfold toUpper at h
  split at h
  · rename_i hc
    obtain ⟨h1, h2⟩ := hc
    rw [UInt8.le_iff_toNat_le] at h1 h2
    have := congrArg UInt8.toNat h
    rw [UInt8.toNat_sub_of_le _ _ (by rw [UInt8.le_iff_toNat_le]; simp at h1 ⊢; omega)] at this
    simp at this h1
    omega
  · exact h

theorem bare_nil {line : List Byte} (h : skipWhite line = []) : Bare line [] := by
  have := Bare.plain (line := line) (by intro cs hc; rw [h] at hc; cases hc)
  rwa [h] at this

theorem pairLoop_none (hfl : fl.toFloat_.Ok) {e : State F → Out (State F)} : ∀ (n : Nat) (st st' : State F)
    (line : List Byte), Clean line → st.doWhile = false → pairLoop fl e n st line = .ok (st', none) →
    ∃ st1 l, AssignsThen fl st line st1 l ∧
      ((st' = st1 ∧ (LineEnds l ∨ Checksum l ∨ Query fl st1 l ∨ NoName l)) ∨
       st' = st1.say .error ∨
       (∃ rest, Control CK_IF l rest ∧ conditional fl (rest.length + 1) st1 (skipWhite rest) = .ok st') ∨
       ∃ rest, Control CK_WHILE l rest ∧ st' = whileStart st1 (skipWhite rest))
  | 0, _, _, _, _, _, h => by cases h
  | n + 1, st, st', line, hcl, hd, h => by
    have body : ∀ l, Bare line l → Clean l → pairBody fl (pairLoop fl e n) st l = .ok (st', none) →
        ∃ st1 l, AssignsThen fl st line st1 l ∧
      ((st' = st1 ∧ (LineEnds l ∨ Checksum l ∨ Query fl st1 l ∨ NoName l)) ∨
       st' = st1.say .error ∨
       (∃ rest, Control CK_IF l rest ∧ conditional fl (rest.length + 1) st1 (skipWhite rest) = .ok st') ∨
       ∃ rest, Control CK_WHILE l rest ∧ st' = whileStart st1 (skipWhite rest)) := by
      intro l hb hc h
      unfold pairBody at h
      rcases expect_ok hc h with ⟨rest, hk, h⟩ | ⟨_, h⟩
      · obtain ⟨st2, h1, h2⟩ := bind_ok h
        injection h2 with h2
        injection h2 with h2 _
        subst h2
        exact ⟨st, l, .here hb, .inr (.inr (.inl ⟨rest, hk, h1⟩))⟩
      rcases expect_ok hc h with ⟨rest, hk, h⟩ | ⟨_, h⟩
      · injection h with h
        injection h with h _
        exact ⟨st, l, .here hb, .inr (.inr (.inr ⟨rest, hk, h.symm⟩))⟩
      split at h
      · rename_i cs h35
        have e35 := after1_suffix h35
        subst e35
        obtain ⟨⟨st2, o⟩, h1, h2⟩ := bind_ok h
        cases o with
        | some rest =>
          have hsat := setParameter_sat (Q := fun _ => True) (T := Clean) (st := st) hfl clean_safer.toSafe
            (hc.suffix (List.suffix_cons _ _))
          rw [h1] at hsat
          obtain ⟨hq, hr⟩ := hsat
          have hd1 : st2.doWhile = false := by
            have : st2 = _ := hq.eq
            rw [this]; exact hd
          obtain ⟨st1, l', ha, hres⟩ := pairLoop_none hfl n st2 st' rest (hr rest rfl).2 hd1 h2
          exact ⟨st1, l', .next hb h1 ha, hres⟩
        | none =>
          simp only at h2
          injection h2 with h2
          injection h2 with h2 _
          subst h2
          unfold setParameter at h1
          rcases fromRes_ok h1 with ⟨_, h1⟩ | ⟨name, rest, hn, h1⟩
          · injection h1 with h1
            injection h1 with h1 _
            unfold nameFails at h1
            split at h1
            · rename_i hnl
              exact ⟨st, _, .here hb, .inl ⟨h1.symm, .inr (.inr (.inr (nameless_spec hnl)))⟩⟩
            · exact ⟨st, _, .here hb, .inr (.inl h1.symm)⟩
          · unfold assignName at h1
            split at h1
            · cases h1
            split at h1
            · cases h1
            split at h1
            · injection h1 with h1
              injection h1 with h1 _
              split at h1
              · rename_i hr
                subst hr
                exact ⟨st, _, .here hb, .inl ⟨h1.symm, .inr (.inr (.inl ⟨cs, name, rfl, hn⟩))⟩⟩
              · exact ⟨st, _, .here hb, .inr (.inl h1.symm)⟩
            · rcases fromRes_ok h1 with ⟨_, h1⟩ | ⟨v, rest2, _, h1⟩
              · injection h1 with h1
                injection h1 with h1 _
                exact ⟨st, _, .here hb, .inr (.inl h1.symm)⟩
              · unfold assignValue at h1
                split at h1
                · split at h1
                  · injection h1 with h1
                    injection h1 with h1 _
                    exact ⟨st, _, .here hb, .inr (.inl h1.symm)⟩
                  · unfold assign at h1
                    injection h1 with h1
                    injection h1 with _ h1
                    cases h1
                · split at h1
                  · unfold ternary at h1
                    rcases fromRes_ok h1 with ⟨_, h1⟩ | ⟨v, rest2, _, h1⟩
                    · cases h1
                    split at h1
                    · cases h1
                    rcases fromRes_ok h1 with ⟨_, h1⟩ | ⟨v, rest2, _, h1⟩
                    · cases h1
                    unfold assign at h1
                    injection h1 with h1
                    injection h1 with _ h1
                    cases h1
                  · unfold assign at h1
                    injection h1 with h1
                    injection h1 with _ h1
                    cases h1
      · unfold letterValue at h
        split at h
        · injection h with h
          injection h with h _
          exact ⟨st, _, .here hb, .inr (.inl h.symm)⟩
        · rename_i c cs h35
          split at h
          · injection h with h
            injection h with h _
            exact ⟨st, _, .here hb, .inr (.inl h.symm)⟩
          · rename_i hne
            split at h
            · rename_i h42
              injection h with h1
              injection h1 with h1 _
              obtain ⟨d, ds, rfl⟩ := List.exists_cons_of_ne_nil hne
              obtain rfl := toUpper_star h42
              exact ⟨st, _, .here hb, .inl ⟨h1.symm, .inr (.inl ⟨d, ds, rfl⟩)⟩⟩
            · rcases fromRes_ok h with ⟨_, h⟩ | ⟨v, rest, _, h⟩
              · injection h with h
                injection h with h _
                exact ⟨st, _, .here hb, .inr (.inl h.symm)⟩
              · injection h with h
                injection h with _ h
                cases h
    simp only [pairLoop] at h
    cases hs : skipWhite line with
    | nil =>
      rw [hs] at h
      injection h with h
      injection h with h _
      exact ⟨st, [], .here (bare_nil hs), .inl ⟨h.symm, .inl (.inl rfl)⟩⟩
    | cons c cs =>
      rw [hs] at h
      have hcc : Clean (c :: cs) := hs ▸ hcl.suffix (skipWhite_suffix _)
      simp only [pairStart] at h
      split at h
      · rename_i hc
        injection h with h
        injection h with h _
        have hb : Bare line (skipWhite line) := .plain (by
          intro cs' e; rw [hs] at e; injection e with e _; rcases hc with rfl | rfl <;> cases e)
        refine ⟨st, _, .here hb, .inl ⟨h.symm, .inl ?_⟩⟩
        rw [hs]
        rcases hc with rfl | rfl
        · exact .inr (.inl rfl)
        · exact .inr (.inr rfl)
      split at h
      · rename_i hdw; rw [hd] at hdw; cases hdw
      split at h
      · rename_i hc
        subst hc
        split at h
        · cases h
        · rename_i l hl
          have hl' : afterComment cs = some l := by
            unfold afterComment at hl
            rwa [if_neg (by decide)] at hl
          obtain ⟨a, h1, h2⟩ := comment_closed hl'
          have hb : Bare line (skipWhite l) := .comment (by rw [hs, h1]) h2
          split at h
          · rename_i hnil
            injection h with h
            injection h with h _
            exact ⟨st, _, .here hb, .inl ⟨h.symm, .inl (.inl hnil)⟩⟩
          · refine body _ hb ?_ h
            refine hcc.suffix ((skipWhite_suffix _).trans ⟨40 :: (a ++ [41]), ?_⟩)
            rw [h1]; simp
      · rename_i hc
        have hb : Bare line (skipWhite line) := .plain (by
          intro cs' e; rw [hs] at e; injection e with e _; exact hc e)
        rw [hs] at hb
        exact body _ hb hcc h

/-- **C75, no word is given up in silence.** When the parser stops reading a line, then because nothing or only a
comment or a checksum is left, or the value of a parameter was asked for, or an IF or WHILE has been reached (see
`C49_if`: what cannot be understood there is reported as well); otherwise an error has been reported. The
exception is a number sign without a name. -/
theorem C75_reported_partial (hfl : fl.toFloat_.Ok) {e : State F → Out (State F)} {st st' : State F}
    {line : List Byte} (hc : Clean line) (hd : st.doWhile = false)
    (h : parsePair fl e st line = .ok (st', none)) :
    ∃ st1 l, AssignsThen fl st line st1 l ∧
      ((st' = st1 ∧ (LineEnds l ∨ Checksum l ∨ Query fl st1 l ∨ NoName l)) ∨
       st' = st1.say .error ∨
       (∃ rest, Control CK_IF l rest ∧ conditional fl (rest.length + 1) st1 (skipWhite rest) = .ok st') ∨
       ∃ rest, Control CK_WHILE l rest ∧ st' = whileStart st1 (skipWhite rest)) :=
  pairLoop_none hfl _ st st' line hc hd h

/-! ### Examples and counterexamples -/

/-- The number of error messages of a program, and where the X and Y axis are at its end. -/
def reports (lines : List String) : Option (Nat × Int × Int) :=
  match runLines exNum (exReceiver true) 50 exState (lines.map text) with
  | .ok st => some (st.log.countP (fun | .error => true | _ => false), st.pos .X, st.pos .Y)
  | _ => none

/-- Non-vacuity: lines that end in each of these ways, and mistakes. -/
example : reports ["G1 X1 Y2 ; end", "G1 X3 (comment)", "N3 G1 X4 *57", "#1", "G1 X5 #2=6 Y#2"] = some (0, 5, 6) ∧
    reports ["#1=[1+"] = some (1, 0, 0) ∧ reports ["#<1>=5"] = some (1, 0, 0) ∧ reports ["#1 5"] = some (1, 0, 0) ∧
    reports ["#1=1", "#1/=0"] = some (1, 0, 0) ∧ reports ["IF [1"] = some (1, 0, 0) ∧
    reports ["WHILE 1"] = some (1, 0, 0) ∧ reports ["X"] = some (1, 0, 0) := by decide +kernel

/-- **A number sign without a name ends the line without a message**: here the machine goes to X1 Y0, and nobody is
told that the second half of the line was dropped. -/
theorem C75_noname_silent : reports ["G1 X1 #=5 Y2"] = some (0, 1, 0) ∧ reports ["G1 X1 #<>=5 Y2"] = some (0, 1, 0) ∧
    reports ["G1 X1 #5=5 Y2"] = some (0, 1, 2) ∧ NoName (text "#=5 Y2") ∧ NoName (text "#<>=5 Y2") := by
  refine ⟨by decide +kernel, by decide +kernel, by decide +kernel, ⟨_, rfl, .inl ⟨_, _, rfl, ?_⟩⟩,
    ⟨_, rfl, .inr ⟨[], _, rfl, by simp⟩⟩⟩
  decide +kernel

/-- After a comment, a second one is taken for a word: an error is reported where there is none, and what follows is
dropped. -/
theorem C75_second_comment : reports ["G1 (one) X1 (two) Y2"] = some (0, 1, 2) ∧
    reports ["G1 (one) (two) X1 Y2"] = some (2, 0, 0) ∧ reports ["G1 X1 (one) ; two"] = some (2, 1, 0) := by decide +kernel

end BeagleG.Parser
