import Verif.Setup.Model
import Verif.Config.Props
/-!
# Reading a section of the configuration file

What a reader that treats every pair of a section alike makes of a whole file.
-/
namespace BeagleG.Setup

open Text Config

/-- A pair and the section it is in. -/
structure Entry where
  section_ : List Byte
  name : List Byte
  value : List Byte
  deriving DecidableEq

/-- The pairs in the sections `wants` asks for, in order; the first argument is the current section, if it is one of
these. Names are compared in lower case, values are kept as they are. -/
def entries (wants : List Byte → Bool) : Option (List Byte) → List Shape → List Entry
  | _, [] => []
  | s, .blank :: l => entries wants s l
  | _, .head n :: l => entries wants (if wants (toLowerString n) then some (toLowerString n) else none) l
  | none, .pair _ _ :: l => entries wants none l
  | some s, .pair n v :: l => ⟨s, toLowerString n, v⟩ :: entries wants (some s) l

/-- The pairs are given to `option` one after the other; `none` if one of them is refused. -/
def applyAll {κ : Type} (option : κ → Entry → Bool × κ) : κ → List Entry → Option κ
  | k, [] => some k
  | k, e :: es => if (option k e).1 then applyAll option (option k e).2 es else none

/-- A reader of `R` that configures a `κ`. -/
structure Uniform {ρ κ : Type} (R : Reader ρ) (view : ρ → κ) (wants : List Byte → Bool)
    (option : κ → Entry → Bool × κ) (good : ρ → List Byte → Prop) : Prop where
  answer : ∀ r n name, (R.seenSection r n name).1 = wants name
  view_section : ∀ r n name, view (R.seenSection r n name).2 = view r
  good_section : ∀ r n name, wants name = true → good (R.seenSection r n name).2 name
  pair : ∀ r n s name v, good r s → (R.seenNameValue r n name v).1 = (option (view r) ⟨s, name, v⟩).1 ∧
    view (R.seenNameValue r n name v).2 = (option (view r) ⟨s, name, v⟩).2 ∧ good (R.seenNameValue r n name v).2 s

variable {ρ κ : Type} {R : Reader ρ} {view : ρ → κ} {wants : List Byte → Bool}
  {option : κ → Entry → Bool × κ} {good : ρ → List Byte → Prop}

theorem success_fold (lines : List (List Byte)) : ∀ e : Emit ρ, (lines.foldl (emitLine R) e).success = true →
    e.success = true := by
  induction lines with
  | nil => exact fun _ h => h
  | cons l ls ih =>
    intro e h
    have h1 := ih _ h
    by_cases hs : ∃ s, HasShape l s
    · obtain ⟨s, hs⟩ := hs
      rw [emitLine_shape R e l s hs] at h1
      exact deliver_success R e s h1
    · obtain ⟨m, i, he⟩ := emitLine_malformed R e l hs
      rw [he] at h1; cases h1

/-- The section the parser is in, as far as the reader is interested. -/
def current (e : Emit ρ) : Option (List Byte) := if e.interested then some e.current else none

/-- The shapes of lines, delivered one after the other. -/
theorem deliver_all (u : Uniform R view wants option good) : ∀ (shapes : List Shape) (e : Emit ρ),
    e.success = true → (e.interested = true → good e.reader e.current) →
    ((shapes.foldl (deliver R) e).success = true ↔ (applyAll option (view e.reader) (entries wants (current e) shapes)).isSome) ∧
    ((shapes.foldl (deliver R) e).success = true →
      applyAll option (view e.reader) (entries wants (current e) shapes) = some (view (shapes.foldl (deliver R) e).reader))
  | [], e, hs, _ => by
    simp only [List.foldl_nil]
    have : entries wants (current e) [] = [] := by unfold entries; rfl
    rw [this]
    exact ⟨⟨fun _ => rfl, fun _ => hs⟩, fun _ => rfl⟩
  | .blank :: l, e, hs, hg => by
    rw [List.foldl_cons]
    have := deliver_all u l (deliver R e .blank) hs hg
    have he : entries wants (current e) (.blank :: l) = entries wants (current (deliver R e .blank)) l := by
      show _ = entries wants (current e) l
      cases current e <;> rfl
    rw [he]
    exact this
  | .head n :: l, e, hs, hg => by
    rw [List.foldl_cons]
    have hi : (deliver R e (.head n)).interested = wants (toLowerString n) := u.answer _ _ _
    have hv : view (deliver R e (.head n)).reader = view e.reader := u.view_section _ _ _
    have := deliver_all u l (deliver R e (.head n)) hs (fun h => by
      rw [hi] at h
      exact u.good_section _ _ _ h)
    have he : entries wants (current e) (.head n :: l) = entries wants (current (deliver R e (.head n))) l := by
      unfold current
      rw [hi]
      cases e.interested <;> rfl
    rw [he, ← hv]
    exact this
  | .pair n v :: l, e, hs, hg => by
    rw [List.foldl_cons]
    by_cases hi : e.interested = true
    · obtain ⟨p1, p2, p3⟩ := u.pair e.reader (e.lineNo + 1) e.current (toLowerString n) v (hg hi)
      have hc : current e = some e.current := by unfold current; rw [if_pos hi]
      have he : entries wants (current e) (.pair n v :: l)
          = ⟨e.current, toLowerString n, v⟩ :: entries wants (some e.current) l := by rw [hc]; rfl
      rw [he, applyAll]
      have hd : deliver R e (.pair n v) = { e with
          lineNo := e.lineNo + 1
          success := e.success && (R.seenNameValue e.reader (e.lineNo + 1) (toLowerString n) v).1
          reader := if (R.seenNameValue e.reader (e.lineNo + 1) (toLowerString n) v).1
            then (R.seenNameValue e.reader (e.lineNo + 1) (toLowerString n) v).2
            else R.reportError (R.seenNameValue e.reader (e.lineNo + 1) (toLowerString n) v).2 (e.lineNo + 1)
              (.notHandled e.current (toLowerString n) v) } := by
        unfold deliver
        simp only [hi, if_true]
      by_cases ha : (R.seenNameValue e.reader (e.lineNo + 1) (toLowerString n) v).1 = true
      · rw [← p1, if_pos ha]
        have hs' : (deliver R e (.pair n v)).success = true := by rw [hd, hs, ha]; rfl
        have hr' : (deliver R e (.pair n v)).reader = (R.seenNameValue e.reader (e.lineNo + 1) (toLowerString n) v).2 := by
          rw [hd, if_pos ha]
        have hi' : (deliver R e (.pair n v)).interested = true := by rw [hd]; exact hi
        have hc' : (deliver R e (.pair n v)).current = e.current := by rw [hd]
        have := deliver_all u l (deliver R e (.pair n v)) hs' (fun _ => by rw [hr', hc']; exact p3)
        have hcur : current (deliver R e (.pair n v)) = some e.current := by unfold current; rw [if_pos hi', hc']
        rw [hcur, hr', p2] at this
        exact this
      · rw [← p1, if_neg ha]
        have hs' : (deliver R e (.pair n v)).success = false := by
          rw [hd]
          show (e.success && _) = false
          rw [Bool.eq_false_iff.2 ha, Bool.and_false]
        have hno : ¬(l.foldl (deliver R) (deliver R e (.pair n v))).success = true := by
          intro h
          have : ∀ (l : List Shape) (e : Emit ρ), (l.foldl (deliver R) e).success = true → e.success = true := by
            intro l
            induction l with
            | nil => exact fun _ h => h
            | cons s l ih => exact fun e h => deliver_success R e s (ih _ h)
          rw [this l _ h] at hs'; cases hs'
        exact ⟨⟨fun h => absurd h hno, fun h => by cases h⟩, fun h => absurd h hno⟩
    · have hc : current e = none := by unfold current; rw [if_neg hi]
      have hd : deliver R e (.pair n v) = { e with lineNo := e.lineNo + 1 } := by
        unfold deliver
        dsimp only
        rw [if_neg hi]
      have := deliver_all u l (deliver R e (.pair n v)) (by rw [hd]; exact hs) (fun h => by rw [hd] at h; exact absurd h hi)
      have hcur : current (deliver R e (.pair n v)) = none := by rw [hd]; exact hc
      have he : entries wants (current e) (.pair n v :: l) = entries wants none l := by rw [hc]; rfl
      rw [he]
      rw [hcur] at this
      have hv : view (deliver R e (.pair n v)).reader = view e.reader := by rw [hd]
      rw [hv] at this
      exact this

/-- The shapes of the lines of a text. -/
def Shapes (content : List Byte) (shapes : List Shape) : Prop :=
  ∃ lines last, IsLines content lines last ∧ List.Forall₂ HasShape (seenLines lines last) shapes

theorem fold_shapes {lines : List (List Byte)} {shapes : List Shape} (h : List.Forall₂ HasShape lines shapes) :
    ∀ e : Emit ρ, lines.foldl (emitLine R) e = shapes.foldl (deliver R) e := by
  induction h with
  | nil => intro e; rfl
  | cons hs _ ih =>
    intro e
    rw [List.foldl_cons, List.foldl_cons, emitLine_shape R e _ _ hs, ih]

theorem forall₂_of_exists {α β : Type} {P : α → β → Prop} : ∀ {l : List α}, (∀ a ∈ l, ∃ b, P a b) →
    ∃ m, List.Forall₂ P l m
  | [], _ => ⟨[], .nil⟩
  | a :: l, h => by
    obtain ⟨b, hb⟩ := h a (by simp)
    obtain ⟨m, hm⟩ := forall₂_of_exists (l := l) fun x hx => h x (by simp [hx])
    exact ⟨b :: m, .cons hb hm⟩

theorem shapes_of_success (lines : List (List Byte)) : ∀ e : Emit ρ, (lines.foldl (emitLine R) e).success = true →
    ∀ l ∈ lines, ∃ s, HasShape l s := by
  induction lines with
  | nil => intro _ _ l hl; cases hl
  | cons l ls ih =>
    intro e h k hk
    have h1 := ih _ h
    rcases List.mem_cons.1 hk with rfl | hk
    · by_contra hs
      obtain ⟨m, i, he⟩ := emitLine_malformed R e k hs
      have := success_fold ls _ h
      rw [he] at this; cases this
    · exact h1 k hk

/-- The lines of a text that is well-formed, given their shapes: it is accepted if and only if all the pairs of the
sections concerned are accepted, in order. Then what is configured is the result of these pairs. -/
theorem emit_shapes (u : Uniform R view wants option good) (r : ρ) (content : List Byte) {shapes : List Shape}
    (hs : Shapes content shapes) :
    ((emitConfigValues R r content).1 = true ↔ (applyAll option (view r) (entries wants none shapes)).isSome) ∧
    ((emitConfigValues R r content).1 = true →
      applyAll option (view r) (entries wants none shapes) = some (view (emitConfigValues R r content).2)) := by
  obtain ⟨lines, last, hl, hs⟩ := hs
  rw [C44_lines R r content lines last hl]
  dsimp only
  rw [fold_shapes hs]
  exact deliver_all u shapes (start r) rfl (fun h => by cases h)

/-- A text that is accepted is well-formed. -/
theorem emit_wellformed (r : ρ) (content : List Byte) (h : (emitConfigValues R r content).1 = true) :
    ∃ shapes, Shapes content shapes := by
  obtain ⟨lines, last, hl⟩ := isLines_exists content
  rw [C44_lines R r content lines last hl] at h
  obtain ⟨shapes, hs⟩ := forall₂_of_exists (shapes_of_success _ _ h)
  exact ⟨shapes, lines, last, hl, hs⟩

/-- The last of the entries chosen decides. -/
theorem applyAll_last {α : Type} (get : κ → α) (rel : Entry → Bool) (parse : Entry → Option α)
    (step : ∀ k e, (option k e).1 = true →
      (rel e = true → ∃ v, parse e = some v ∧ get (option k e).2 = v) ∧ (rel e = false → get (option k e).2 = get k)) :
    ∀ (es : List Entry) (k k' : κ), applyAll option k es = some k' →
      (∀ e ∈ es, rel e = true → (parse e).isSome) ∧ get k' = ((es.filter rel).getLast?.bind parse).getD (get k)
  | [], k, k', h => by
    cases h
    exact ⟨fun e he => (by cases he), rfl⟩
  | e :: es, k, k', h => by
    unfold applyAll at h
    by_cases ha : (option k e).1 = true
    · rw [if_pos ha] at h
      obtain ⟨i1, i2⟩ := applyAll_last get rel parse step es _ k' h
      obtain ⟨s1, s2⟩ := step k e ha
      refine ⟨fun x hx hr => ?_, ?_⟩
      · rcases List.mem_cons.1 hx with rfl | hx
        · obtain ⟨v, hv, _⟩ := s1 hr
          rw [hv]; rfl
        · exact i1 x hx hr
      · rw [i2]
        cases hr : rel e with
        | false =>
          rw [List.filter_cons_of_neg (by rw [hr]; decide), s2 hr]
        | true =>
          rw [List.filter_cons_of_pos hr]
          obtain ⟨v, hv, hg⟩ := s1 hr
          rw [hg]
          cases hf : es.filter rel with
          | nil => simp [hv]
          | cons x xs =>
            have : (e :: x :: xs).getLast? = (x :: xs).getLast? := by simp [List.getLast?_cons_cons]
            rw [this]
            have hx : (x :: xs).getLast? = some ((x :: xs).getLast (by simp)) := List.getLast?_eq_getLast_of_ne_nil _
            rw [hx]
            have hm : (x :: xs).getLast (by simp) ∈ es.filter rel := by rw [hf]; exact List.getLast_mem _
            obtain ⟨hm1, hm2⟩ := List.mem_filter.1 hm
            obtain ⟨w, hw⟩ := Option.isSome_iff_exists.1 (i1 _ hm1 hm2)
            simp [hw]
    · rw [if_neg ha] at h; cases h

/-- Pairs whose acceptance does not depend on what was configured before. -/
theorem applyAll_isSome (ok : Entry → Prop) (inv : κ → Prop)
    (step : ∀ k e, inv k → ((option k e).1 = true ↔ ok e) ∧ inv (option k e).2) :
    ∀ (es : List Entry) (k : κ), inv k → ((applyAll option k es).isSome ↔ ∀ e ∈ es, ok e)
  | [], _, _ => by simp [applyAll]
  | e :: es, k, hk => by
    unfold applyAll
    obtain ⟨s1, s2⟩ := step k e hk
    by_cases ha : (option k e).1 = true
    · rw [if_pos ha, applyAll_isSome ok inv step es _ s2]
      simp [s1.1 ha]
    · rw [if_neg ha]
      simp [show ¬ok e from fun h => ha (s1.2 h)]

end BeagleG.Setup
