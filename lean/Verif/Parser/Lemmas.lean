import Verif.Parser.Model
import Verif.Expr.Sound
import Mathlib.Tactic.Tauto
/-!
# The parser: what reading words can do
-/
namespace BeagleG.Parser
open Text Expr

/-- A result satisfies `P`, a fault `Q`; `outOfFuel` only if `O`. -/
def Out.Sat {α : Type} (r : Out α) (P : α → Prop) (Q : Fault → Prop) (O : Prop) : Prop :=
  match r with
  | .ok a => P a
  | .fault f => Q f
  | .outOfFuel => O

theorem Out.Sat.bind {α β : Type} {r : Out α} {f : α → Out β} {P : α → Prop} {P' : β → Prop} {Q : Fault → Prop}
    {O : Prop} (h : r.Sat P Q O) (hf : ∀ a, P a → (f a).Sat P' Q O) : (r.bind f).Sat P' Q O := by
  cases r with
  | ok a => exact hf a h
  | fault _ => exact h
  | outOfFuel => exact h

theorem Out.Sat.mono {α : Type} {r : Out α} {P P' : α → Prop} {Q : Fault → Prop} {O : Prop} (h : r.Sat P Q O)
    (hp : ∀ a, P a → P' a) : r.Sat P' Q O := by
  cases r with
  | ok a => exact hp a h
  | fault _ => exact h
  | outOfFuel => exact h

theorem Out.Sat.ok {α : Type} {r : Out α} {P : α → Prop} {Q : Fault → Prop} {O : Prop} (h : r.Sat P Q O) {a : α}
    (e : r = .ok a) : P a := by subst e; exact h

theorem Out.Sat.fault {α : Type} {r : Out α} {P : α → Prop} {Q : Fault → Prop} {O : Prop} (h : r.Sat P Q O)
    {f : Fault} (e : r = .fault f) : Q f := by subst e; exact h

theorem Out.Sat.fuel {α : Type} {r : Out α} {P : α → Prop} {Q : Fault → Prop} {O : Prop} (h : r.Sat P Q O)
    (e : r = .outOfFuel) : O := by subst e; exact h

variable {F : Type} (fl : Num F) (rc : Receiver F)

/-! ### Texts -/

/-- A set of texts, closed under what the parser does with texts, together with the faults they may lead to. -/
structure Safe (Q : Fault → Prop) (T : List Byte → Prop) : Prop where
  clean : ∀ l, T l → Clean l
  suffix : ∀ l r, T l → r <:+ l → T r
  stack : ∀ l, T l → Overrun fl.toFloat_ l → Q .stack
  comment : ∀ l, T l → l.head? = some 40 → afterComment l = none → Q .pastEnd
  printf : ∀ l, T l → (63 : Byte) ∈ l → Q .printf

theorem fromRes_sat {α β : Type} {r : Res α} {n : Out β} {f : α → List Byte → Out β} {P : β → Prop}
    {Q : Fault → Prop} {O : Prop} (hn : n.Sat P Q O) (hu : r = .undef → Q .stack) (ho : r ≠ .outOfFuel)
    (hf : ∀ v rest, r = .ok v rest → (f v rest).Sat P Q O) : (fromRes r n f).Sat P Q O := by
  cases r with
  | ok v rest => exact hf v rest rfl
  | null => exact hn
  | undef => exact hu rfl
  | outOfFuel => exact absurd rfl ho

section
variable {fl}
variable {Q : Fault → Prop} {T : List Byte → Prop}

theorem valueOf_sat (hfl : fl.toFloat_.Ok) (hs : Safe fl Q T) {lk : List Byte → F} {line : List Byte} (ht : T line)
    {β : Type} {n : Out β} {f : F → List Byte → Out β} {P : β → Prop} {O : Prop} (hn : n.Sat P Q O)
    (hf : ∀ v rest, Shrinks rest (skipWhite line) → T rest → skipWhite rest = rest → (f v rest).Sat P Q O) :
    (fromRes (valueOf fl.toFloat_ lk (skipWhite line)) n f).Sat P Q O := by
  have hc : Clean (skipWhite line) := (hs.clean _ ht).skip
  refine fromRes_sat hn (fun h => ?_) (valueOf_fuel _ _ hfl hc) (fun v rest h => ?_)
  · exact hs.stack _ (hs.suffix _ _ ht (skipWhite_suffix _)) ((undef_overrun _ _ hfl _).1 _ hc (skipWhite_idem _) h)
  · obtain ⟨h1, h2⟩ := (shrinks _ _ hfl _).1 _ _ _ hc h
    exact hf v rest h1 (hs.suffix _ _ ht (h1.1.trans (skipWhite_suffix _))) h2

theorem expression_sat (hfl : fl.toFloat_.Ok) (hs : Safe fl Q T) {lk : List Byte → F} {line : List Byte} (ht : T line)
    {β : Type} {n : Out β} {f : F → List Byte → Out β} {P : β → Prop} {O : Prop} (hn : n.Sat P Q O)
    (hf : ∀ v rest, expression fl.toFloat_ lk line = .ok v rest → Shrinks rest line → T rest →
      skipWhite rest = rest → (f v rest).Sat P Q O) :
    (fromRes (expression fl.toFloat_ lk line) n f).Sat P Q O := by
  have hc := hs.clean _ ht
  refine fromRes_sat hn (fun h => ?_) (expression_fuel _ _ hfl hc) (fun v rest h => ?_)
  · exact hs.stack _ ht (Overrun.mono _ ((undef_overrun _ _ hfl _).2 [] [] _ _ (Clean.skip hc) (skipWhite_idem _)
      .nil trivial .nil (List.suffix_refl _) (Or.inl (by simp)) h) (skipWhite_suffix line))
  · obtain ⟨h1, h2⟩ := (shrinks _ _ hfl _).2 _ _ _ _ hc.skip h
    have h1' := h1.le_trans (skipWhite_suffix line)
    exact hf v rest h h1' (hs.suffix _ _ ht h1'.1) h2

theorem readParamName_sat (hfl : fl.toFloat_.Ok) (hs : Safe fl Q T) {lk : List Byte → F} {line : List Byte} (ht : T line)
    {β : Type} {n : Out β} {f : List Byte → List Byte → Out β} {P : β → Prop} {O : Prop} (hn : n.Sat P Q O)
    (hf : ∀ v rest, Shrinks rest line → T rest → skipWhite rest = rest → (f v rest).Sat P Q O) :
    (fromRes (readParamName fl.toFloat_ (valueOf fl.toFloat_ lk) line) n f).Sat P Q O := by
  have hc := hs.clean _ ht
  refine fromRes_sat hn (fun h => ?_) (fun h => ?_) (fun v rest h => ?_)
  · obtain ⟨c, ws, h1, _, h3⟩ := readParamName_bad fl.toFloat_ (b := .undef) h
    have hw : c :: ws <:+ line := h1 ▸ skipWhite_suffix line
    exact hs.stack _ (hs.suffix _ _ ht hw) ((undef_overrun _ _ hfl _).1 _ (hc.suffix hw)
      (by show skipWhite _ = _; rw [← h1, skipWhite_idem]) h3)
  · obtain ⟨c, ws, h1, _, h3⟩ := readParamName_bad fl.toFloat_ (b := .outOfFuel) h
    have hw : c :: ws <:+ line := h1 ▸ skipWhite_suffix line
    exact valueOf_fuel _ _ hfl (hc.suffix hw) h3
  · obtain ⟨h1, h2⟩ := readParamName_shrinks fl.toFloat_
      (fun l v rest hl hv => ((shrinks _ _ hfl _).1 _ _ _ (hc.suffix hl) hv).1) h
    exact hf v rest h1 (hs.suffix _ _ ht h1.1) h2

/-! ### Assignments only change parameters -/

/-- Assignments have been made and errors reported. -/
inductive Quiet (fl : Num F) : State F → State F → Prop
  | refl (st : State F) : Quiet fl st st
  | store {st st' : State F} (name : List Byte) (v : F) : Quiet fl st st' → Quiet fl st (storeParameter st' name v)
  | error {st st' : State F} : Quiet fl st st' → Quiet fl st (st'.say .error)
  | done {st st' : State F} (v : F) : Quiet fl st st' → Quiet fl st (st'.say (.commandDone 35 v))

theorem Quiet.trans {a b c : State F} (h : Quiet fl a b) (h' : Quiet fl b c) : Quiet fl a c := by
  induction h' with
  | refl => exact h
  | store n v _ ih => exact .store n v ih
  | error _ ih => exact .error ih
  | done v _ ih => exact .done v ih

theorem storeParameter_eq (st : State F) (name : List Byte) (v : F) :
    storeParameter st name v =
      { st with params := (storeParameter st name v).params, log := (storeParameter st name v).log } := by
  unfold storeParameter
  split
  · rfl
  · split <;> rfl

/-- Nothing but parameters and events differs. -/
theorem Quiet.eq {st st' : State F} (h : Quiet fl st st') :
    st' = { st with params := st'.params, log := st'.log } := by
  induction h with
  | refl => rfl
  | @store st' name v _ ih =>
    rw [storeParameter_eq]
    generalize (storeParameter st' name v).params = p
    generalize (storeParameter st' name v).log = l
    rw [ih]
  | error _ ih =>
    unfold State.say
    rw [ih]
  | done _ _ ih =>
    unfold State.say
    rw [ih]

theorem after2_suffix {a b : Byte} : ∀ {l r : List Byte}, after2 a b l = some r → l = a :: b :: r
  | [], r, h => by simp [after2] at h
  | [_], r, h => by simp [after2] at h
  | x :: y :: l, r, h => by
    simp only [after2] at h
    split at h
    · rename_i e; injection h with h; rw [e.1, e.2, h]
    · cases h

theorem after1_suffix {a : Byte} : ∀ {l r : List Byte}, after1 a l = some r → l = a :: r
  | [], r, h => by simp [after1] at h
  | x :: l, r, h => by
    simp only [after1] at h
    split at h
    · rename_i e; injection h with h; rw [e, h]
    · cases h

theorem assignOp_suffix {l r : List Byte} {op : Nat} (h : assignOp l = some (op, r)) : r <:+ l := by
  unfold assignOp at h
  repeat' split at h
  all_goals first
    | (rename_i e; injection h with h; injection h with _ h; subst h
       first
         | (have := after2_suffix e; subst this; exact (List.suffix_cons _ _).trans (List.suffix_cons _ _))
         | (have := after1_suffix e; subst this; exact List.suffix_cons _ _))
    | cases h

/-- The result of an assignment: only parameters and events change, and text is used up. -/
def Assigned (fl : Num F) (T : List Byte → Prop) (st : State F) (line : List Byte)
    (r : State F × Option (List Byte)) : Prop :=
  Quiet fl st r.1 ∧ ∀ l, r.2 = some l → Shrinks l line ∧ T l

theorem assign_sat {Q : Fault → Prop} {st : State F} {name : List Byte} {v : F} {l line : List Byte}
    (h1 : Shrinks l line) (h2 : T l) : (assign st name v l).Sat (Assigned fl T st line) Q False :=
  ⟨.done _ (.store _ _ (.refl _)), by intro l' h; injection h with h; subst h; exact ⟨h1, h2⟩⟩

theorem ternary_sat (hfl : fl.toFloat_.Ok) (hs : Safe fl Q T) {st : State F} {name : List Byte} {c : Bool}
    {l line : List Byte} (ht : T (63 :: l)) (h : l <:+ line) :
    (ternary fl st name c l).Sat (Assigned fl T st line) Q False := by
  have hp : Q .printf := hs.printf _ ht (by simp)
  have ht' : T l := hs.suffix _ _ ht (List.suffix_cons _ _)
  unfold ternary
  refine valueOf_sat hfl hs ht' hp fun yes l1 h1 t1 _ => ?_
  split
  · exact hp
  · rename_i l2 e
    have e' := after1_suffix e
    refine valueOf_sat hfl hs (hs.suffix _ _ t1 (e' ▸ List.suffix_cons _ _)) hp fun no l3 h3 t3 _ => ?_
    refine assign_sat ?_ t3
    have hl2 : l2 <:+ l1 := e' ▸ List.suffix_cons _ _
    exact ((h3.le_trans (skipWhite_suffix _)).le_trans hl2).le_trans (h1.1.trans ((skipWhite_suffix _).trans h))

theorem assignName_sat (hfl : fl.toFloat_.Ok) (hs : Safe fl Q T) {st : State F} {name : List Byte}
    {l line : List Byte} (ht : T l) (h : l <:+ line) :
    (assignName fl st name l).Sat (Assigned fl T st line) Q False := by
  have inc : ∀ {a b : Byte} {l2 : List Byte} {v : F}, after2 a b l = some l2 →
      Assigned fl T st line (storeParameter st name v, some (skipWhite l2)) := by
    intro a b l2 v e
    have e' := after2_suffix e
    have hl2 : l2 <:+ l := e' ▸ (List.suffix_cons _ _).trans (List.suffix_cons _ _)
    refine ⟨.store _ _ (.refl _), ?_⟩
    intro l' h'
    injection h' with h'
    subst h'
    refine ⟨⟨((skipWhite_suffix _).trans hl2).trans h, ?_⟩, hs.suffix _ _ ht ((skipWhite_suffix _).trans hl2)⟩
    have a1 := skipWhite_length l2
    have a2 := h.length_le
    rw [e'] at a2
    simp only [List.length_cons] at a2
    omega
  unfold assignName
  split
  · rename_i e; exact inc e
  · split
    · rename_i e; exact inc e
    · split
      · refine ⟨?_, by intro l' h'; cases h'⟩
        show Quiet fl st (if l = [] then st else st.say .error)
        split
        · exact .refl _
        · exact .error (.refl _)
      · rename_i op l2 e
        have hl2 := assignOp_suffix e
        refine valueOf_sat hfl hs (hs.suffix _ _ ht hl2) ⟨.error (.refl _), by intro l' h'; cases h'⟩
          fun v l3 h3 t3 _ => ?_
        have h3' : Shrinks l3 line := ((h3.le_trans (skipWhite_suffix _)).le_trans hl2).le_trans h
        unfold assignValue
        split
        · split
          · exact ⟨.error (.refl _), by intro l' h'; cases h'⟩
          · exact assign_sat h3' t3
        · split
          · rename_i l4 e4
            have e4' := after1_suffix e4
            exact ternary_sat hfl hs (e4' ▸ t3) ((e4' ▸ List.suffix_cons _ _ : l4 <:+ l3).trans h3'.1)
          · exact assign_sat h3' t3

theorem nameFails_quiet (st : State F) (line : List Byte) : Quiet fl st (nameFails st line) := by
  unfold nameFails
  split
  · exact .refl _
  · exact .error (.refl _)

theorem setParameter_sat (hfl : fl.toFloat_.Ok) (hs : Safe fl Q T) {st : State F} {line : List Byte} (ht : T line) :
    (setParameter fl st line).Sat (Assigned fl T st line) Q False := by
  unfold setParameter
  refine readParamName_sat hfl hs ht ⟨nameFails_quiet _ _, by intro l h; cases h⟩ fun name l h t _ => ?_
  exact assignName_sat hfl hs t h.1

/-! ### Control words -/

theorem controlTable_ok : TableOk controlTable where
  chars := by decide +kernel
  positive := by decide +kernel
  distinct := by decide +kernel

theorem controlTable_nonempty : ∀ p ∈ controlTable, p.1 ≠ [] := by decide +kernel

theorem control_matchNext {line : List Byte} (hc : Clean line) :
    ∃ r, controlTrie.matchNext line = some r ∧ MatchSpec controlTable line r := by
  obtain ⟨t, r', h1, h2, h3⟩ := C07_match_next controlTable controlTable_ok line hc
  have ht : controlTrie = t := by simp [controlTrie, h1]
  exact ⟨r', by rw [ht, h2], h3⟩

/-- A control keyword stands here. -/
def Control (code : Nat) (line rest : List Byte) : Prop := MatchSpec controlTable line (code, rest)

theorem control_suffix {code : Nat} {line rest : List Byte} (h : Control code line rest) (h0 : 0 < code) :
    Shrinks rest line ∧ skipWhite rest = rest := by
  rcases h with ⟨k, v, h1, hkw, _, h4⟩ | ⟨_, h2⟩
  · injection h4 with _ h4
    have hne : k ≠ [] := controlTable_nonempty _ h1
    have hk : 0 < k.length := List.length_pos_iff.2 hne
    have hpos : (skipWhite line).length ≤ line.length := skipWhite_length line
    subst h4
    refine ⟨⟨((skipWhite_suffix _).trans (List.drop_suffix _ _)).trans (skipWhite_suffix _), ?_⟩, skipWhite_idem _⟩
    have a := skipWhite_length ((skipWhite line).drop k.length)
    simp only [List.length_drop] at a
    have hl := ((isKeyword_iff _ _).1 hkw).1
    omega
  · injection h2 with h2 _; omega

theorem expect_sat (hs : Safe fl Q T) {β : Type} {line : List Byte} (ht : T line) {k : Nat} (hk : 0 < k)
    {yes : List Byte → Out β} {no : Out β} {P : β → Prop} {O : Prop}
    (hy : ∀ rest, Control k line rest → Shrinks rest line → T rest → skipWhite rest = rest → (yes rest).Sat P Q O)
    (hn : (∀ rest, ¬ Control k line rest) → no.Sat P Q O) : (expect line k yes no).Sat P Q O := by
  obtain ⟨⟨v, r⟩, h1, h2⟩ := control_matchNext (hs.clean _ ht)
  unfold expect
  rw [C07_expect_next _ _ _ _ _ h1]
  by_cases h : v = k
  · subst h
    simp only [if_true]
    obtain ⟨a, b⟩ := control_suffix h2 hk
    exact hy r h2 a (hs.suffix _ _ ht a.1) b
  · simp only [if_neg h]
    refine hn fun rest hc => h ?_
    have := matchSpec_unique controlTable_ok hc h2
    injection this with this _
    exact this.symm

theorem afterElse_suffix {l r : List Byte} (h : afterElse l = some r) : Shrinks r l := by
  rcases l with _ | ⟨a, _ | ⟨b, _ | ⟨c, _ | ⟨d, l⟩⟩⟩⟩
  all_goals try (simp [afterElse] at h; done)
  simp only [afterElse] at h
  split at h
  · injection h with h
    subst h
    exact ⟨⟨[a, b, c, d], by simp⟩, by simp; omega⟩
  · cases h

theorem findElse_suffix : ∀ {l r : List Byte}, findElse l = some r → Shrinks r l
  | [], r, h => by simp [findElse] at h
  | c :: cs, r, h => by
    simp only [findElse] at h
    split at h
    · rename_i e
      injection h with h
      subst h
      exact Shrinks.trans_le (skipWhite_suffix _) (afterElse_suffix e)
    · exact (findElse_suffix h).le_trans (List.suffix_cons _ _)

theorem afterIf_suffix {l r : List Byte} (h : afterIf l = some r) : r <:+ l := by
  rcases l with _ | ⟨a, _ | ⟨b, l⟩⟩
  all_goals try (simp [afterIf] at h; done)
  simp only [afterIf] at h
  split at h
  · injection h with h
    subst h
    exact ⟨[a, b], by simp⟩
  · cases h

theorem branch_sat (hfl : fl.toFloat_.Ok) (hs : Safe fl Q T) {st : State F} {line : List Byte} (ht : T line) :
    (branch fl st line).Sat (Quiet fl st) Q False := by
  unfold branch
  split
  · rename_i l e
    have e' := after1_suffix e
    exact (setParameter_sat hfl hs (hs.suffix _ _ ht (e' ▸ List.suffix_cons _ _))).bind fun r h => h.1
  · exact .error (.refl _)

theorem conditional_sat (hfl : fl.toFloat_.Ok) (hs : Safe fl Q T) : ∀ (n : Nat) (st : State F) (line : List Byte),
    T line → line.length < n → (conditional fl n st line).Sat (Quiet fl st) Q False
  | 0, _, _, _, h => by omega
  | n + 1, st, line, ht, h => by
    simp only [conditional]
    split
    · exact .error (.refl _)
    · rename_i l e
      have e' := after1_suffix e
      have hl : Shrinks l line := e' ▸ Shrinks.cons (List.suffix_refl _)
      refine expression_sat hfl hs (hs.suffix _ _ ht hl.1) (Quiet.error (.refl _)) fun v r1 _ s1 t1 w1 => ?_
      refine expect_sat hs (hs.suffix _ _ t1 (skipWhite_suffix _)) (by decide) (fun r2 _ s2 t2 w2 => ?_)
        fun _ => .error (.refl _)
      have t3 : T (skipWhite r2) := hs.suffix _ _ t2 (skipWhite_suffix _)
      split
      · exact branch_sat hfl hs t3
      · split
        · exact .refl _
        · rename_i l3 e3
          have s3 := findElse_suffix e3
          have t4 : T l3 := hs.suffix _ _ t3 s3.1
          split
          · rename_i l4 e4
            refine conditional_sat hfl hs n st _ (hs.suffix _ _ t4 ((skipWhite_suffix _).trans (afterIf_suffix e4))) ?_
            have a1 := skipWhite_length l4
            have a2 := (afterIf_suffix e4).length_le
            have a3 := s3.2
            have a4 := skipWhite_length r2
            have a5 := s2.2
            have a6 := skipWhite_length r1
            have a7 := s1.2
            have a8 := hl.2
            omega
          · exact branch_sat hfl hs t4

/-! ### Words -/

/-- A text that follows the keyword WHILE in a text considered. -/
def AfterWhile (T : List Byte → Prop) (l : List Byte) : Prop :=
  T l ∧ ∃ w r, T w ∧ Control CK_WHILE w r ∧ l = skipWhite r

/-- What reading a word outside of a loop body does: assignments, then a word, or nothing more, or the start of
a loop. -/
def PairOk (fl : Num F) (T : List Byte → Prop) (st : State F) (line : List Byte)
    (r : State F × Option (Word F)) : Prop :=
  ∃ st1, Quiet fl st st1 ∧
    ((∃ w, r = (st1, some w) ∧ Shrinks w.rest line ∧ T w.rest) ∨ r = (st1, none) ∨
      ∃ l, AfterWhile T l ∧ r = (whileStart st1 l, none))

theorem PairOk.mono {st st1 : State F} {line l : List Byte} {r : State F × Option (Word F)}
    (h : PairOk fl T st1 l r) (hq : Quiet fl st st1) (hl : l <:+ line) : PairOk fl T st line r := by
  obtain ⟨st2, h1, h2⟩ := h
  refine ⟨st2, hq.trans h1, ?_⟩
  rcases h2 with ⟨w, h2, h3, h4⟩ | h2 | h2
  · exact Or.inl ⟨w, h2, h3.le_trans hl, h4⟩
  · exact Or.inr (Or.inl h2)
  · exact Or.inr (Or.inr h2)

theorem letterValue_sat (hfl : fl.toFloat_.Ok) (hs : Safe fl Q T) {st : State F} {line : List Byte} (ht : T line) :
    (letterValue fl st line).Sat (PairOk fl T st line) Q False := by
  rcases line with _ | ⟨c, cs⟩
  · exact ⟨_, .error (.refl _), Or.inr (Or.inl rfl)⟩
  · simp only [letterValue]
    split
    · exact ⟨_, .error (.refl _), Or.inr (Or.inl rfl)⟩
    · split
      · exact ⟨_, .refl _, Or.inr (Or.inl rfl)⟩
      · refine valueOf_sat hfl hs (hs.suffix _ _ ht (List.suffix_cons _ _))
          ⟨_, .error (.refl _), Or.inr (Or.inl rfl)⟩ fun v rest h1 h2 _ => ?_
        exact ⟨_, .refl _, Or.inl ⟨_, rfl, (h1.le_trans (skipWhite_suffix _)).le_trans (List.suffix_cons _ _), h2⟩⟩

theorem afterComment_suffix : ∀ {l r : List Byte}, afterComment l = some r → r <:+ l
  | [], r, h => by simp [afterComment] at h
  | c :: cs, r, h => by
    simp only [afterComment] at h
    split at h
    · injection h with h; subst h; exact List.suffix_cons _ _
    · exact (afterComment_suffix h).trans (List.suffix_cons _ _)

theorem pairBody_sat (hfl : fl.toFloat_.Ok) (hs : Safe fl Q T) {again : State F → List Byte → Out (State F × Option (Word F))}
    {st : State F} {line : List Byte} (ht : T line)
    (ha : ∀ st' l, Quiet fl st st' → Shrinks l line → T l → (again st' l).Sat (PairOk fl T st' l) Q False) :
    (pairBody fl again st line).Sat (PairOk fl T st line) Q False := by
  unfold pairBody
  refine expect_sat hs ht (by decide) (fun r _ _ t1 _ => ?_) fun _ => ?_
  · have hlen := skipWhite_length r
    refine (conditional_sat hfl hs _ _ _ (hs.suffix _ _ t1 (skipWhite_suffix _)) (by omega)).bind fun st1 h => ?_
    exact ⟨_, h, Or.inr (Or.inl rfl)⟩
  · refine expect_sat hs ht (by decide) (fun r hc _ t1 _ => ?_) fun _ => ?_
    · exact ⟨_, .refl _, Or.inr (Or.inr ⟨_, ⟨hs.suffix _ _ t1 (skipWhite_suffix _), _, _, ht, hc, rfl⟩, rfl⟩)⟩
    · split
      · rename_i l e
        have e' := after1_suffix e
        have hl : Shrinks l line := e' ▸ Shrinks.cons (List.suffix_refl _)
        refine (setParameter_sat hfl hs (hs.suffix _ _ ht hl.1)).bind fun r h => ?_
        obtain ⟨st1, r2⟩ := r
        obtain ⟨h1, h2⟩ := h
        cases r2 with
        | none => exact ⟨_, h1, Or.inr (Or.inl rfl)⟩
        | some l2 =>
          obtain ⟨h3, h4⟩ := h2 l2 rfl
          have h5 := h3.le_trans hl.1
          exact (ha st1 l2 h1 h5 h4).mono fun r hr => hr.mono h1 h5.1
      · exact letterValue_sat hfl hs ht

theorem pairLoop_sat (hfl : fl.toFloat_.Ok) (hs : Safe fl Q T) (endLoop : State F → Out (State F)) :
    ∀ (n : Nat) (st : State F) (line : List Byte), T line → st.doWhile = false → line.length < n →
      (pairLoop fl endLoop n st line).Sat (PairOk fl T st line) Q False
  | 0, _, _, _, _, h => by omega
  | n + 1, st, line, ht, hd, h => by
    simp only [pairLoop]
    have ht' : T (skipWhite line) := hs.suffix _ _ ht (skipWhite_suffix _)
    have hlen := skipWhite_length line
    have hsuf := skipWhite_suffix line
    cases he : skipWhite line with
    | nil => exact ⟨_, .refl _, Or.inr (Or.inl rfl)⟩
    | cons c cs =>
      rw [he] at ht' hlen hsuf
      have body : ∀ l, l <:+ c :: cs → (pairBody fl (pairLoop fl endLoop n) st l).Sat (PairOk fl T st line) Q False := by
        intro l hl
        have tl := hs.suffix _ _ ht' hl
        refine (pairBody_sat hfl hs tl ?_).mono fun r hr => hr.mono (.refl _) (hl.trans hsuf)
        intro st' l' hq hsh tl'
        refine pairLoop_sat hfl hs endLoop n st' l' tl' ?_ ?_
        · rw [hq.eq]; exact hd
        · have a1 := hsh.2
          have a2 := hl.length_le
          omega
      simp only [pairStart]
      split
      · exact ⟨_, .refl _, Or.inr (Or.inl rfl)⟩
      · rw [if_neg (by rw [hd]; simp)]
        split
        · rename_i hc
          split
          · rename_i e
            exact hs.comment _ ht' (by simp [hc]) e
          · rename_i l e
            have hl := afterComment_suffix e
            split
            · exact ⟨_, .refl _, Or.inr (Or.inl rfl)⟩
            · exact body _ ((skipWhite_suffix _).trans hl)
        · exact body _ (List.suffix_refl _)

theorem parsePair_sat (hfl : fl.toFloat_.Ok) (hs : Safe fl Q T) (endLoop : State F → Out (State F)) (st : State F)
    (line : List Byte) (ht : T line) (hd : st.doWhile = false) :
    (parsePair fl endLoop st line).Sat (PairOk fl T st line) Q False :=
  pairLoop_sat hfl hs endLoop _ st line ht hd (by omega)

/-- While a loop is being recorded. -/
theorem parsePair_recording (endLoop : State F → Out (State F)) (st : State F) (line : List Byte)
    (hd : st.doWhile = true) :
    (parsePair fl endLoop st line = .ok (st, none) ∧
      (skipWhite line).head? ∈ [none, some 59, some 37]) ∨
    ((skipWhite line).head? ∉ [none, some 59, some 37] ∧ parsePair fl endLoop st line =
      (whileDo endLoop st (skipWhite line)).bind fun st => .ok (st, none)) := by
  simp only [parsePair, pairLoop]
  cases he : skipWhite line with
  | nil => left; exact ⟨rfl, by simp⟩
  | cons c cs =>
    simp only [pairStart]
    by_cases hc : c = 59 ∨ c = 37
    · left
      rw [if_pos hc]
      refine ⟨rfl, ?_⟩
      rcases hc with hc | hc <;> simp [hc]
    · right
      rw [if_neg hc, if_pos hd]
      refine ⟨?_, rfl⟩
      simp only [List.head?_cons, List.mem_cons, Option.some.injEq, List.not_mem_nil]
      tauto

/-- Reading words one after the other. `I` is an invariant that reading and using a word keeps. -/
theorem words_sat {pair : State F → List Byte → Out (State F × Option (Word F))}
    (hs : ∀ l r, T l → r <:+ l → T r)
    (hp : ∀ st line, T line → st.doWhile = false → (pair st line).Sat (PairOk fl T st line) Q False)
    {A : Type} {step : State F → A → Byte → F → Option (State F × A)} {I : State F → A → Prop}
    (hquiet : ∀ st st' a, I st a → Quiet fl st st' → I st' a)
    (hstart : ∀ st a l, I st a → AfterWhile T l → I (whileStart st l) a)
    (hstep : ∀ st a l v st' a', I st a → st.doWhile = false → step st a l v = some (st', a') →
      I st' a' ∧ st'.doWhile = false) :
    ∀ (n : Nat) (st : State F) (a : A) (line : List Byte), T line → st.doWhile = false → I st a → line.length < n →
      (words pair step n st a line).Sat (fun r => I r.1 r.2.1 ∧ r.2.2.1 <:+ line) Q False
  | 0, _, _, _, _, _, _, h => by omega
  | n + 1, st, a, line, ht, hd, hi, h => by
    simp only [words]
    refine (hp st line ht hd).bind fun r hr => ?_
    obtain ⟨st1, hq, hr⟩ := hr
    have hd1 : st1.doWhile = false := by rw [hq.eq]; exact hd
    have hi1 := hquiet _ _ _ hi hq
    rcases hr with ⟨w, e, h3, h4⟩ | e | ⟨l, hl, e⟩
    · subst e
      simp only
      cases hst : step st1 a w.letter w.value with
      | none => exact ⟨hi1, List.suffix_refl _⟩
      | some x =>
        obtain ⟨st2, a2⟩ := x
        simp only
        obtain ⟨hi2, hd2⟩ := hstep _ _ _ _ _ _ hi1 hd1 hst
        have := h3.2
        exact (words_sat hs hp hquiet hstart hstep n st2 a2 w.rest h4 hd2 hi2 (by omega)).mono
          fun r hr => ⟨hr.1, hr.2.trans h3.1⟩
    · subst e; exact ⟨hi1, List.suffix_refl _⟩
    · subst e; exact ⟨hstart _ _ _ hi1 hl, List.suffix_refl _⟩

end

end BeagleG.Parser
