import Verif.Config.Model
import Verif.Text.StringProps
import Mathlib.Data.List.Forall2
import Mathlib.Tactic.ByContra
/-!
# Properties of the configuration file parser (C44)
-/
namespace BeagleG.Config

open Text

/-! ### Lines -/

/-- What counts of a line: everything in front of the first comment sign or carriage return. -/
def cut (line : List Byte) : List Byte := line.takeWhile fun c => c ≠ 35 ∧ c ≠ 13

theorem nextLineLoop_some (line rest : List Byte) (hline : (10 : Byte) ∉ line) : ∀ (pre r : List Byte),
    nextLineLoop pre (some r) (line ++ 10 :: rest) = (r, rest) := by
  induction line with
  | nil => intro pre r; simp [nextLineLoop]
  | cons c l ih =>
    intro pre r
    have hc : c ≠ 10 := fun h => hline (by simp [h])
    have hl : (10 : Byte) ∉ l := fun h => hline (by simp [h])
    simp only [List.cons_append, nextLineLoop, Option.isNone_some, Bool.false_eq_true, false_and, if_false, if_neg hc]
    exact ih hl _ _

theorem nextLineLoop_none (line rest : List Byte) (hline : (10 : Byte) ∉ line) : ∀ pre : List Byte,
    nextLineLoop pre none (line ++ 10 :: rest) = (pre ++ cut line, rest) := by
  induction line with
  | nil => intro pre; simp [nextLineLoop, cut]
  | cons c l ih =>
    intro pre
    have hc : c ≠ 10 := fun h => hline (by simp [h])
    have hl : (10 : Byte) ∉ l := fun h => hline (by simp [h])
    rw [List.cons_append, nextLineLoop]
    by_cases h : c = 35 ∨ c = 13
    · have h' : c = 35 ∨ c = 13 ∨ c = 10 := by rcases h with h | h <;> simp [h]
      simp only [Option.isNone_none, true_and, if_pos h', if_neg hc]
      rw [nextLineLoop_some l rest hl]
      have : cut (c :: l) = [] := by
        unfold cut
        rw [List.takeWhile_cons_of_neg]
        rcases h with h | h <;> simp [h]
      rw [this, List.append_nil]
    · have h' : ¬(c = 35 ∨ c = 13 ∨ c = 10) := by
        rintro (k | k | k)
        · exact h (Or.inl k)
        · exact h (Or.inr k)
        · exact hc k
      simp only [Option.isNone_none, true_and, if_neg h', if_neg hc]
      rw [ih hl]
      have : cut (c :: l) = c :: cut l := by
        unfold cut
        rw [List.takeWhile_cons_of_pos]
        simpa using not_or.1 h
      rw [this, List.append_assoc, List.singleton_append]

theorem nextLineLoop_last (line : List Byte) (hline : (10 : Byte) ∉ line) : ∀ (pre : List Byte) (r : Option (List Byte)),
    nextLineLoop pre r line = (pre ++ line, []) := by
  induction line with
  | nil => intro pre r; simp [nextLineLoop]
  | cons c l ih =>
    intro pre r
    have hc : c ≠ 10 := fun h => hline (by simp [h])
    have hl : (10 : Byte) ∉ l := fun h => hline (by simp [h])
    rw [nextLineLoop]
    simp only [if_neg hc]
    rw [ih hl, List.append_assoc, List.singleton_append]

/-- The text made of the given lines, each ended by a line feed. -/
def unlines (lines : List (List Byte)) : List Byte := (lines.map (· ++ [10])).flatten

/-- The text consists of the given lines, each ended by a line feed, and of `last`, which is not. -/
structure IsLines (content : List Byte) (lines : List (List Byte)) (last : List Byte) : Prop where
  text : content = unlines lines ++ last
  noFeed : ∀ l ∈ lines, (10 : Byte) ∉ l
  lastNoFeed : (10 : Byte) ∉ last

/-- Every text can be taken apart into lines, in one way. -/
theorem isLines_exists : ∀ content : List Byte, ∃ lines last, IsLines content lines last
  | [] => ⟨[], [], by simp [unlines], by simp, by simp⟩
  | c :: s => by
    obtain ⟨lines, last, h⟩ := isLines_exists s
    by_cases hc : c = 10
    · refine ⟨[] :: lines, last, ?_, ?_, h.lastNoFeed⟩
      · rw [hc, h.text]; simp [unlines]
      · intro l hl
        rcases List.mem_cons.1 hl with rfl | hl
        · simp
        · exact h.noFeed l hl
    · cases lines with
      | nil =>
        refine ⟨[], c :: last, ?_, by simp, ?_⟩
        · rw [h.text]; simp [unlines]
        · simpa using ⟨fun k => hc k.symm, h.lastNoFeed⟩
      | cons l ls =>
        refine ⟨(c :: l) :: ls, last, ?_, ?_, h.lastNoFeed⟩
        · rw [h.text]; simp [unlines]
        · intro l' hl'
          rcases List.mem_cons.1 hl' with rfl | hl'
          · have := h.noFeed l (by simp)
            simpa using ⟨fun k => hc k.symm, this⟩
          · exact h.noFeed l' (by simp [hl'])

/-- The lines the parser works on: the cut lines, and the unfinished last one, uncut, if it is there. -/
def seenLines (lines : List (List Byte)) (last : List Byte) : List (List Byte) :=
  lines.map cut ++ (if last = [] then [] else [last])

theorem emitLoop_lines {ρ : Type} (R : Reader ρ) (last : List Byte) (hlast : (10 : Byte) ∉ last) :
    ∀ (lines : List (List Byte)), (∀ l ∈ lines, (10 : Byte) ∉ l) → ∀ (n : Nat) (e : Emit ρ),
    (unlines lines ++ last).length ≤ n →
    emitLoop R n e (unlines lines ++ last) = (seenLines lines last).foldl (emitLine R) e
  | [], _, n, e, hn => by
    cases last with
    | nil => cases n <;> simp [emitLoop, nextLine, seenLines, unlines]
    | cons c l =>
      obtain ⟨m, rfl⟩ : ∃ m, n = m + 1 := ⟨n - 1, by simp [unlines] at hn; omega⟩
      simp only [unlines, List.map_nil, List.flatten_nil, List.nil_append, seenLines, List.cons_ne_nil, if_false]
      rw [emitLoop, nextLine, nextLineLoop_last _ hlast]
      simp only [List.nil_append, List.foldl_cons, List.foldl_nil]
      cases m <;> simp [emitLoop, nextLine]
  | l :: ls, hlines, n, e, hn => by
    obtain ⟨m, rfl⟩ : ∃ m, n = m + 1 := ⟨n - 1, by simp [unlines] at hn; omega⟩
    have e1 : unlines (l :: ls) ++ last = l ++ 10 :: (unlines ls ++ last) := by simp [unlines]
    have e2 : nextLine (unlines (l :: ls) ++ last) = some (cut l, unlines ls ++ last) := by
      have : ∀ s, s ≠ [] → nextLine s = some (nextLineLoop [] none s) := by
        intro s hs
        cases s with
        | nil => exact absurd rfl hs
        | cons => rfl
      rw [e1, this _ (by simp), nextLineLoop_none l _ (hlines l (by simp)), List.nil_append]
    rw [emitLoop, e2]
    dsimp only
    rw [emitLoop_lines R last hlast ls (fun x hx => hlines x (by simp [hx])) m (emitLine R e (cut l))
      (by rw [e1] at hn; simp at hn ⊢; omega)]
    simp [seenLines]

/-- Where the parser begins. -/
def start {ρ : Type} (r : ρ) : Emit ρ := { success := true, interested := false, current := [], lineNo := 0, reader := r }

/-- **C44, lines**: whatever the text, the parser works through its lines in order, each cut at its first
comment sign or carriage return; only a last line that is not ended is taken as it is. -/
theorem C44_lines {ρ : Type} (R : Reader ρ) (r : ρ) (content : List Byte) (lines : List (List Byte)) (last : List Byte)
    (h : IsLines content lines last) :
    emitConfigValues R r content
      = (((seenLines lines last).foldl (emitLine R) (start r)).success,
         ((seenLines lines last).foldl (emitLine R) (start r)).reader) := by
  unfold emitConfigValues
  have := emitLoop_lines R last h.lastNoFeed lines h.noFeed content.length (start r) (Nat.le_of_eq (by rw [h.text]))
  rw [← h.text] at this
  show ((emitLoop R content.length (start r) content).success, (emitLoop R content.length (start r) content).reader) = _
  rw [this]

/-! ### Well-formed lines -/

/-- A line in its three well-formed shapes. -/
inductive Shape where
  | blank
  | head (name : List Byte)
  | pair (name value : List Byte)
  deriving DecidableEq

/-- The (cut) line has the shape: white space may surround every part. The names of the shape are as
written, without the white space. -/
inductive HasShape : List Byte → Shape → Prop
  | blank (w : List Byte) : AllSpace w → HasShape w .blank
  | head (a b c d name : List Byte) : AllSpace a → AllSpace b → AllSpace c → AllSpace d → Trimmed name →
      HasShape (a ++ [91] ++ b ++ name ++ c ++ [93] ++ d) (.head name)
  | pair (a b c d name value : List Byte) : AllSpace a → AllSpace b → AllSpace c → AllSpace d →
      Trimmed name → Trimmed value → (61 : Byte) ∉ name → name.head? ≠ some 91 →
      HasShape (a ++ name ++ b ++ [61] ++ c ++ value ++ d) (.pair name value)

/-- What the parser is to do on a line of a shape: ask about the section; hand over the pair if the current
section is of interest, and report it if it is refused. -/
def deliver {ρ : Type} (R : Reader ρ) (e : Emit ρ) : Shape → Emit ρ
  | .blank => { e with lineNo := e.lineNo + 1 }
  | .head name =>
    let a := R.seenSection e.reader (e.lineNo + 1) (toLowerString name)
    { e with lineNo := e.lineNo + 1, current := toLowerString name, interested := a.1, reader := a.2 }
  | .pair name value =>
    if e.interested then
      let a := R.seenNameValue e.reader (e.lineNo + 1) (toLowerString name) value
      { e with
        lineNo := e.lineNo + 1,
        success := e.success && a.1,
        reader := if a.1 then a.2
                  else R.reportError a.2 (e.lineNo + 1) (.notHandled e.current (toLowerString name) value) }
    else { e with lineNo := e.lineNo + 1 }

theorem trim_eq {a t b : List Byte} (ha : AllSpace a) (hb : AllSpace b) (ht : Trimmed t) :
    trimWhitespace (a ++ t ++ b) = t :=
  C06_trim_unique _ _ _ (C06_trim _) ⟨a, b, rfl, ha, hb, ht⟩

theorem isSpace_not_eq {c : Byte} (h : isSpace c = true) : c ≠ 61 ∧ c ≠ 91 ∧ c ≠ 93 := by
  refine ⟨?_, ?_, ?_⟩ <;> (rintro rfl; exact absurd h (by decide))

theorem allSpace_nil : AllSpace [] := by intro c hc; simp at hc

theorem allSpace_append {a b : List Byte} (ha : AllSpace a) (hb : AllSpace b) : AllSpace (a ++ b) := by
  intro c hc
  rcases List.mem_append.1 hc with h | h
  · exact ha c h
  · exact hb c h

theorem takeWhile_eq_sign : ∀ (x y : List Byte), (61 : Byte) ∉ x → (x ++ 61 :: y).takeWhile (· ≠ 61) = x
  | [], y, _ => by simp
  | c :: x, y, h => by
    have hc : c ≠ 61 := fun k => h (by simp [k])
    have hx : (61 : Byte) ∉ x := fun k => h (by simp [k])
    rw [List.cons_append, List.takeWhile_cons_of_pos (by simpa using hc), takeWhile_eq_sign x y hx]

theorem emitLine_pair {ρ : Type} (R : Reader ρ) (e : Emit ρ) (line x y name value : List Byte)
    (ht : trimWhitespace line = x ++ 61 :: y) (hx : (61 : Byte) ∉ x) (hh : (x ++ 61 :: y).head? ≠ some 91)
    (hn : trimWhitespace x = name) (hv : trimWhitespace y = value) :
    emitLine R e line = deliver R e (.pair name value) := by
  unfold emitLine
  simp only [ht]
  have tw := takeWhile_eq_sign x y hx
  generalize hL : x ++ 61 :: y = L at *
  cases L with
  | nil => simp at hL
  | cons c tl =>
    have hc : c ≠ 91 := by simpa using hh
    simp only [if_neg hc, tw]
    have hlen : x.length ≠ (c :: tl).length := by
      rw [← hL]; simp
    simp only [if_neg hlen]
    have hd : (c :: tl).drop (x.length + 1) = y := by
      rw [← hL]
      simp
    rw [hd]
    simp only [canonicalizeName, hn, hv, deliver]

theorem emitLine_shape {ρ : Type} (R : Reader ρ) (e : Emit ρ) (line : List Byte) (s : Shape) (h : HasShape line s) :
    emitLine R e line = deliver R e s := by
  cases h with
  | blank _ hw =>
    have : trimWhitespace line = [] := by
      have := trim_eq (t := []) hw allSpace_nil (by simp [Trimmed])
      simpa using this
    unfold emitLine
    simp only [this, deliver]
  | head a b c d name ha hb hc hd hn =>
    have : trimWhitespace (a ++ [91] ++ b ++ name ++ c ++ [93] ++ d) = 91 :: (b ++ name ++ c ++ [93]) := by
      have := trim_eq (t := 91 :: (b ++ name ++ c ++ [93])) ha hd ⟨by rintro x hx; cases hx; decide, by
        intro x hx
        rw [show 91 :: (b ++ name ++ c ++ [93]) = (91 :: (b ++ name ++ c)) ++ [93] from rfl, List.getLast?_concat] at hx
        cases hx; decide⟩
      rw [← this]
      congr 1
      simp
    unfold emitLine
    simp only [this]
    have hl : (91 :: (b ++ name ++ c ++ [93]) : List Byte).getLast? = some 93 := by
      rw [show 91 :: (b ++ name ++ c ++ [93]) = (91 :: (b ++ name ++ c)) ++ [93] from rfl, List.getLast?_concat]
    have htk : (b ++ name ++ c ++ [93]).take ((91 :: (b ++ name ++ c ++ [93]) : List Byte).length - 2) = b ++ name ++ c := by
      rw [show (91 :: (b ++ name ++ c ++ [93]) : List Byte).length - 2 = (b ++ name ++ c).length by
        simp; omega]
      rw [List.take_left']
      rfl
    simp only [if_true, hl, ne_eq, not_true_eq_false, if_false, htk, canonicalizeName, trim_eq hb hc hn, deliver]
  | pair a b c d name value ha hb hc hd hn hv heq hhd =>
    -- the trimmed line
    have key : ∃ x y, trimWhitespace (a ++ name ++ b ++ [61] ++ c ++ value ++ d) = x ++ 61 :: y ∧ (61 : Byte) ∉ x ∧
        (x ++ 61 :: y).head? ≠ some 91 ∧ trimWhitespace x = name ∧ trimWhitespace y = value := by
      have nospace : ∀ {w : List Byte}, AllSpace w → (61 : Byte) ∉ w := fun hw k => (isSpace_not_eq (hw _ k)).1 rfl
      have t1 : trimWhitespace (name ++ b) = name := by simpa using trim_eq (a := []) allSpace_nil hb hn
      have t2 : trimWhitespace (c ++ value) = value := by simpa using trim_eq (b := []) hc allSpace_nil hv
      by_cases hname : name = [] <;> by_cases hvalue : value = []
      · subst hname hvalue
        refine ⟨[], [], ?_, by simp, by decide, by decide, by decide⟩
        have := trim_eq (t := [61]) (allSpace_append ha hb) (allSpace_append hc hd)
          ⟨by rintro x hx; cases hx; decide, by rintro x hx; cases hx; decide⟩
        rw [show ([] : List Byte) ++ 61 :: [] = [61] from rfl]
        refine Eq.trans (congrArg _ ?_) this
        simp
      · subst hname
        refine ⟨[], c ++ value, ?_, by simp, by simp, by decide, t2⟩
        have := trim_eq (t := 61 :: (c ++ value)) (allSpace_append ha hb) hd
          ⟨by rintro x hx; cases hx; decide, by
            intro x hx
            have : (61 :: (c ++ value)).getLast? = value.getLast? := by
              rw [show 61 :: (c ++ value) = (61 :: c) ++ value from rfl, List.getLast?_append]
              cases hl : value.getLast? with
              | none => simp at hl; exact absurd hl hvalue
              | some z => rfl
            rw [this] at hx
            exact hv.2 x hx⟩
        rw [List.nil_append, ← this]
        congr 1; simp
      · subst hvalue
        refine ⟨name ++ b, [], ?_, ?_, ?_, t1, by decide⟩
        · have := trim_eq (t := name ++ b ++ [61]) ha (allSpace_append hc hd)
            ⟨by
              intro x hx
              cases name with
              | nil => exact absurd rfl hname
              | cons z name => exact hn.1 x hx, by
              intro x hx
              rw [List.getLast?_concat] at hx
              cases hx; decide⟩
          rw [← this]
          congr 1; simp
        · simp only [List.mem_append, not_or]
          exact ⟨heq, nospace hb⟩
        · cases name with
          | nil => exact absurd rfl hname
          | cons z name => simpa using hhd
      · refine ⟨name ++ b, c ++ value, ?_, ?_, ?_, t1, t2⟩
        · have := trim_eq (t := name ++ b ++ [61] ++ c ++ value) ha hd
            ⟨by
              intro x hx
              cases name with
              | nil => exact absurd rfl hname
              | cons z name => exact hn.1 x hx, by
              intro x hx
              rw [List.getLast?_append] at hx
              cases hl : value.getLast? with
              | none => simp at hl; exact absurd hl hvalue
              | some z => rw [hl] at hx; cases hx; exact hv.2 _ hl⟩
          rw [show name ++ b ++ 61 :: (c ++ value) = name ++ b ++ [61] ++ c ++ value by simp, ← this]
          congr 1; simp
        · simp only [List.mem_append, not_or]
          exact ⟨heq, nospace hb⟩
        · cases name with
          | nil => exact absurd rfl hname
          | cons z name => simpa using hhd
    obtain ⟨x, y, k1, k2, k3, k4, k5⟩ := key
    exact emitLine_pair R e _ x y name value k1 k2 k3 k4 k5

/-! ### Rendering and reading back -/

/-- What may follow on a line after what counts: nothing, or a comment or carriage return and then anything
but a line feed. -/
def IsTail (t : List Byte) : Prop := (10 : Byte) ∉ t ∧ (t = [] ∨ t.head? = some 35 ∨ t.head? = some 13)

/-- `line` renders the shape: the shape with white space around its parts, written without comment signs
and line ends, and possibly a comment or carriage return behind it. -/
def Renders (line : List Byte) (s : Shape) : Prop :=
  ∃ body tail, line = body ++ tail ∧ HasShape body s ∧ (∀ c ∈ body, c ≠ 35 ∧ c ≠ 13 ∧ c ≠ 10) ∧ IsTail tail

theorem cut_render {body tail : List Byte} (hb : ∀ c ∈ body, c ≠ 35 ∧ c ≠ 13 ∧ c ≠ 10) (ht : IsTail tail) :
    cut (body ++ tail) = body := by
  unfold cut
  rw [List.takeWhile_append_of_pos (by
    intro c hc
    have := hb c hc
    simpa using ⟨this.1, this.2.1⟩)]
  have : tail.takeWhile (fun c => decide (c ≠ 35 ∧ c ≠ 13)) = [] := by
    rcases ht.2 with h | h | h
    · rw [h]; rfl
    · cases tail with
      | nil => rfl
      | cons c t => cases h; rfl
    · cases tail with
      | nil => rfl
      | cons c t => cases h; rfl
  rw [this, List.append_nil]

theorem forall₂_mem {α β : Type} {P : α → β → Prop} {l : List α} {m : List β} (h : List.Forall₂ P l m) :
    ∀ a ∈ l, ∃ b ∈ m, P a b := by
  induction h with
  | nil => intro a ha; cases ha
  | cons hp _ ih =>
    intro a ha
    rcases List.mem_cons.1 ha with rfl | ha
    · exact ⟨_, List.mem_cons_self, hp⟩
    · obtain ⟨b, hb, hP⟩ := ih a ha
      exact ⟨b, List.mem_cons_of_mem _ hb, hP⟩

/-- **C44, reading back**: for every reader and every list of section heads, pairs and blank lines, rendered
in any way (white space around every part, comments, line feeds or carriage return and line feed), the parser
calls the reader for exactly these, in their order: with the lower-cased names, the trimmed values, the number
of the line, and the pairs only where the reader was interested in the section. The answer is that of
`deliver`, see `C44_accepted`. -/
theorem C44_read_back {ρ : Type} (R : Reader ρ) (r : ρ) (shapes : List Shape) (lines : List (List Byte))
    (h : List.Forall₂ Renders lines shapes) :
    emitConfigValues R r (unlines lines)
      = ((shapes.foldl (deliver R) (start r)).success, (shapes.foldl (deliver R) (start r)).reader) := by
  have hl : IsLines (unlines lines) lines [] := by
    refine ⟨by simp, ?_, by simp⟩
    intro l hl
    obtain ⟨s, -, hs⟩ := forall₂_mem h l hl
    obtain ⟨body, tail, rfl, -, hb, ht⟩ := hs
    intro k
    rcases List.mem_append.1 k with k | k
    · exact (hb _ k).2.2 rfl
    · exact ht.1 k
  rw [C44_lines R r _ lines [] hl]
  have : ∀ e : Emit ρ, (seenLines lines []).foldl (emitLine R) e = shapes.foldl (deliver R) e := by
    simp only [seenLines, if_true, List.append_nil]
    clear hl
    induction h with
    | nil => intro e; rfl
    | cons hs _ ih =>
      intro e
      obtain ⟨body, tail, rfl, hs, hb, ht⟩ := hs
      rw [List.map_cons, List.foldl_cons, List.foldl_cons, cut_render hb ht, emitLine_shape R e _ _ hs]
      exact ih _
  rw [this]

/-- The same if the last line is not ended and carries no comment (a carriage return at its end is white
space). -/
theorem C44_read_back_unended {ρ : Type} (R : Reader ρ) (r : ρ) (shapes : List Shape) (lines : List (List Byte))
    (last : List Byte) (shape : Shape) (h : List.Forall₂ Renders lines shapes) (hlast : HasShape last shape)
    (hne : last ≠ []) (hnf : (10 : Byte) ∉ last) :
    emitConfigValues R r (unlines lines ++ last)
      = (((shapes ++ [shape]).foldl (deliver R) (start r)).success, ((shapes ++ [shape]).foldl (deliver R) (start r)).reader) := by
  have hl : IsLines (unlines lines ++ last) lines last := by
    refine ⟨rfl, ?_, hnf⟩
    intro l hl
    obtain ⟨s, -, hs⟩ := forall₂_mem h l hl
    obtain ⟨body, tail, rfl, -, hb, ht⟩ := hs
    intro k
    rcases List.mem_append.1 k with k | k
    · exact (hb _ k).2.2 rfl
    · exact ht.1 k
  rw [C44_lines R r _ lines last hl]
  have : ∀ e : Emit ρ, (seenLines lines last).foldl (emitLine R) e = (shapes ++ [shape]).foldl (deliver R) e := by
    simp only [seenLines, if_neg hne]
    clear hl
    induction h with
    | nil => intro e; exact emitLine_shape R e _ _ hlast
    | cons hs _ ih =>
      intro e
      obtain ⟨body, tail, rfl, hs, hb, ht⟩ := hs
      rw [List.map_cons, List.cons_append, List.cons_append, List.foldl_cons, List.foldl_cons, cut_render hb ht,
        emitLine_shape R e _ _ hs]
      exact ih _
  rw [this]

/-! ### The answer -/

/-- A call of the reader and its answer. -/
inductive Call where
  | section_ (line : Nat) (name : List Byte) (answer : Bool)
  | pair (line : Nat) (name value : List Byte) (answer : Bool)
  | error (line : Nat) (message : Message)
  deriving DecidableEq, Repr

/-- The reader with a protocol of its calls. -/
def logged {ρ : Type} (R : Reader ρ) : Reader (ρ × List Call) where
  seenSection r n name :=
    ((R.seenSection r.1 n name).1, (R.seenSection r.1 n name).2, r.2 ++ [.section_ n name (R.seenSection r.1 n name).1])
  seenNameValue r n name value :=
    ((R.seenNameValue r.1 n name value).1, (R.seenNameValue r.1 n name value).2,
      r.2 ++ [.pair n name value (R.seenNameValue r.1 n name value).1])
  reportError r n m := (R.reportError r.1 n m, r.2 ++ [.error n m])

theorem takeWhile_no_sign : ∀ l : List Byte, (61 : Byte) ∉ l → l.takeWhile (· ≠ 61) = l
  | [], _ => rfl
  | c :: l, h => by
    have hc : c ≠ 61 := fun k => h (by simp [k])
    rw [List.takeWhile_cons_of_pos (by simpa using hc), takeWhile_no_sign l (fun k => h (by simp [k]))]

theorem append_of_first {c : Byte} : ∀ {l : List Byte}, c ∈ l → ∃ x y, l = x ++ c :: y ∧ c ∉ x
  | d :: l, h => by
    by_cases hd : d = c
    · exact ⟨[], l, by rw [hd]; rfl, by simp⟩
    · obtain ⟨x, y, hl, hx⟩ := append_of_first (l := l) (by
        rcases List.mem_cons.1 h with k | k
        · exact absurd k.symm hd
        · exact k)
      refine ⟨d :: x, y, by rw [hl]; rfl, ?_⟩
      simpa using ⟨fun k => hd k.symm, hx⟩

theorem exists_shape_or {ρ : Type} (R : Reader ρ) (e : Emit ρ) (line : List Byte) :
    (∃ s, HasShape line s) ∨
      ∃ m i, emitLine R e line
        = { e with lineNo := e.lineNo + 1, success := false, interested := i, reader := R.reportError e.reader (e.lineNo + 1) m } := by
  obtain ⟨a, b, hline, ha, hb, ht⟩ := C06_trim line
  cases h : trimWhitespace line with
  | nil =>
    refine Or.inl ⟨.blank, ?_⟩
    rw [hline, h, List.append_nil]
    exact .blank _ (allSpace_append ha hb)
  | cons c tl =>
    rw [h] at hline ht
    by_cases hc : c = 91
    · subst hc
      by_cases hl : (91 :: tl : List Byte).getLast? = some 93
      · left
        rcases List.eq_nil_or_concat tl with rfl | ⟨u, d, rfl⟩
        · simp at hl
        · have hd : d = 93 := by
            rw [List.concat_eq_append, show 91 :: (u ++ [d]) = (91 :: u) ++ [d] from rfl, List.getLast?_concat] at hl
            exact Option.some.inj hl
          subst hd
          obtain ⟨b', c', hu, hb', hc', hn⟩ := C06_trim u
          refine ⟨.head (trimWhitespace u), ?_⟩
          have := HasShape.head a b' c' b (trimWhitespace u) ha hb' hc' hb hn
          have e : line = a ++ [91] ++ b' ++ trimWhitespace u ++ c' ++ [93] ++ b := by
            rw [hline]
            conv_lhs => rw [hu]
            simp
          rw [e]; exact this
      · right
        refine ⟨.sectionUnclosed, false, ?_⟩
        unfold emitLine
        simp only [h, if_true, ne_eq, hl, not_false_eq_true]
    · by_cases he : (61 : Byte) ∈ (c :: tl : List Byte)
      · left
        obtain ⟨x, y, hxy, hx⟩ := append_of_first he
        obtain ⟨a', b', hxa, ha', hb', hn⟩ := C06_trim x
        obtain ⟨c', d', hyc, hc', hd', hv⟩ := C06_trim y
        refine ⟨.pair (trimWhitespace x) (trimWhitespace y), ?_⟩
        have := HasShape.pair (a ++ a') b' c' (d' ++ b) (trimWhitespace x) (trimWhitespace y)
          (allSpace_append ha ha') hb' hc' (allSpace_append hd' hb) hn hv
          (by intro k; apply hx; rw [hxa]; simp [k])
          (by
            intro k
            cases a' with
            | nil =>
              cases hxx : trimWhitespace x with
              | nil => rw [hxx] at k; cases k
              | cons z x' =>
                rw [hxx] at k hxa
                cases k
                rw [hxa] at hxy
                simp at hxy
                exact hc hxy.1
            | cons z a' =>
              rw [hxa] at hxy
              simp at hxy
              have h1 := ht.1 c (by simp)
              have h2 := ha' z (by simp)
              rw [hxy.1] at h1
              rw [h1] at h2; cases h2)
        have e : line = a ++ a' ++ trimWhitespace x ++ b' ++ [61] ++ c' ++ trimWhitespace y ++ (d' ++ b) := by
          rw [hline, hxy]
          conv_lhs => rw [hxa, hyc]
          simp
        rw [e]; exact this
      · right
        refine ⟨.pairExpected, e.interested, ?_⟩
        have tw : (c :: tl : List Byte).takeWhile (· ≠ 61) = c :: tl := by
          exact takeWhile_no_sign _ he
        unfold emitLine
        simp only [h, if_neg hc, tw, if_true]

theorem deliver_success {ρ : Type} (R : Reader ρ) (e : Emit ρ) (s : Shape) (h : (deliver R e s).success = true) :
    e.success = true := by
  cases s with
  | blank => exact h
  | head => exact h
  | pair n v =>
    unfold deliver at h
    dsimp only at h
    split at h
    · dsimp only at h
      exact (Bool.and_eq_true_iff.1 h).1
    · exact h

/-- A malformed line has no shape at all. -/
theorem emitLine_malformed {ρ : Type} (R : Reader ρ) (e : Emit ρ) (line : List Byte)
    (h : ¬∃ s, HasShape line s) : ∃ m i, emitLine R e line
        = { e with lineNo := e.lineNo + 1, success := false, interested := i, reader := R.reportError e.reader (e.lineNo + 1) m } :=
  (exists_shape_or R e line).resolve_left h

/-- Refused pairs and errors in a protocol. -/
def Refused : Call → Prop
  | .pair _ _ _ a => a = false
  | _ => False

/-- The call reports an error. -/
def IsError : Call → Prop
  | .error _ _ => True
  | _ => False

theorem emit_success {ρ : Type} (R : Reader ρ) : ∀ (lines : List (List Byte)) (e : Emit (ρ × List Call)),
    (e.success = true ↔ ∀ c ∈ e.reader.2, ¬IsError c) → (e.success = true → ∀ c ∈ e.reader.2, ¬Refused c) →
    ((lines.foldl (emitLine (logged R)) e).success = true ↔
      e.success = true ∧ (∀ l ∈ lines, ∃ s, HasShape l s) ∧ ∀ c ∈ (lines.foldl (emitLine (logged R)) e).reader.2, ¬Refused c) ∧
    ((lines.foldl (emitLine (logged R)) e).success = true ↔
      ∀ c ∈ (lines.foldl (emitLine (logged R)) e).reader.2, ¬IsError c) ∧
    (∀ c ∈ e.reader.2, c ∈ (lines.foldl (emitLine (logged R)) e).reader.2)
  | [], e, h1, h2 => by
    refine ⟨⟨fun h => ⟨h, by simp, h2 h⟩, fun h => h.1⟩, h1, fun c hc => hc⟩
  | l :: ls, e, h1, h2 => by
    rw [List.foldl_cons]
    by_cases hs : ∃ s, HasShape l s
    · obtain ⟨s, hs⟩ := hs
      rw [emitLine_shape (logged R) e l s hs]
      -- one step
      have step : (((deliver (logged R) e s).success = true ↔ ∀ c ∈ (deliver (logged R) e s).reader.2, ¬IsError c) ∧
          ((deliver (logged R) e s).success = true → ∀ c ∈ (deliver (logged R) e s).reader.2, ¬Refused c) ∧
          ((deliver (logged R) e s).success = false → e.success = true → ∃ c ∈ (deliver (logged R) e s).reader.2, Refused c) ∧
          ∀ c ∈ e.reader.2, c ∈ (deliver (logged R) e s).reader.2) := by
        cases s with
        | blank => exact ⟨h1, h2, fun k k' => (by rw [show e.success = false from k] at k'; cases k'), fun c hc => hc⟩
        | head name =>
          refine ⟨h1.trans ?_, ?_, fun k k' => (by rw [show e.success = false from k] at k'; cases k'), ?_⟩
          · show _ ↔ ∀ c ∈ e.reader.2 ++ [_], _
            simp [IsError, or_imp, forall_and]
          · show e.success = true → ∀ c ∈ e.reader.2 ++ [_], _
            intro k c hc
            rcases List.mem_append.1 hc with hc | hc
            · exact h2 k c hc
            · rw [List.mem_singleton.1 hc]; simp [Refused]
          · intro c hc
            show c ∈ e.reader.2 ++ [_]
            exact List.mem_append_left _ hc
        | pair name value =>
          unfold deliver
          by_cases hi : e.interested = true
          · simp only [hi, if_true]
            generalize e.lineNo + 1 = n
            cases ha : ((logged R).seenNameValue e.reader n (toLowerString name) value).1 with
            | true =>
              have hr : ((logged R).seenNameValue e.reader n (toLowerString name) value).2.2
                  = e.reader.2 ++ [.pair n (toLowerString name) value true] := by
                rw [← ha]; rfl
              simp only [Bool.and_true, if_true, hr]
              refine ⟨h1.trans ?_, ?_, fun k k' => (by rw [k] at k'; cases k'), ?_⟩
              · simp [IsError, or_imp, forall_and]
              · intro k c hc
                rcases List.mem_append.1 hc with hc | hc
                · exact h2 k c hc
                · rw [List.mem_singleton.1 hc]; simp [Refused]
              · intro c hc
                exact List.mem_append_left _ hc
            | false =>
              have hr : ((logged R).seenNameValue e.reader n (toLowerString name) value).2.2
                  = e.reader.2 ++ [.pair n (toLowerString name) value false] := by
                rw [← ha]; rfl
              have hr' : ∀ m, ((logged R).reportError ((logged R).seenNameValue e.reader n (toLowerString name) value).2 n m).2
                  = e.reader.2 ++ [.pair n (toLowerString name) value false] ++ [.error n m] := by
                intro m; rw [← hr]; rfl
              simp only [Bool.and_false, Bool.false_eq_true, if_false, hr']
              refine ⟨⟨fun k => (by cases k), fun k => ?_⟩, fun k => (by cases k), fun _ _ => ⟨.pair n (toLowerString name) value false, by simp, rfl⟩, ?_⟩
              · exact absurd trivial (k (.error n (.notHandled e.current (toLowerString name) value)) (by simp))
              · intro c hc
                exact List.mem_append_left _ (List.mem_append_left _ hc)
          · simp only [hi, Bool.false_eq_true, if_false]
            exact ⟨h1, h2, fun k k' => (by rw [k] at k'; cases k'), fun c hc => hc⟩
      obtain ⟨s1, s2, s3, s4⟩ := step
      have hds := deliver_success (logged R) e s
      generalize deliver (logged R) e s = e' at *
      obtain ⟨i1, i2, i3⟩ := emit_success R ls e' s1 s2
      refine ⟨i1.trans ⟨?_, ?_⟩, i2, fun c hc => i3 c (s4 c hc)⟩
      · rintro ⟨k1, k2, k3⟩
        refine ⟨hds k1, ?_, k3⟩
        intro l' hl'
        rcases List.mem_cons.1 hl' with rfl | hl'
        · exact ⟨s, hs⟩
        · exact k2 l' hl'
      · rintro ⟨k1, k2, k3⟩
        refine ⟨?_, fun l' hl' => k2 l' (by simp [hl']), k3⟩
        by_contra hn
        obtain ⟨c, hc, hr⟩ := s3 (by simpa using hn) k1
        exact k3 c (i3 c hc) hr
    · obtain ⟨m, i, he⟩ := emitLine_malformed (logged R) e l hs
      rw [he]
      have hr : ((logged R).reportError e.reader (e.lineNo + 1) m).2 = e.reader.2 ++ [.error (e.lineNo + 1) m] := rfl
      obtain ⟨i1, i2, i3⟩ := emit_success R ls
        { e with lineNo := e.lineNo + 1, success := false, interested := i, reader := (logged R).reportError e.reader (e.lineNo + 1) m }
        ⟨fun k => (by cases k), fun k => absurd trivial (k (.error (e.lineNo + 1) m) (by
          show _ ∈ ((logged R).reportError e.reader (e.lineNo + 1) m).2
          rw [hr]; simp))⟩ (fun k => (by cases k))
      refine ⟨i1.trans ⟨?_, ?_⟩, i2, ?_⟩
      · rintro ⟨k1, -⟩; cases k1
      · rintro ⟨-, k2, -⟩
        exact absurd (k2 l (by simp)) hs
      · intro c hc
        apply i3
        show _ ∈ ((logged R).reportError e.reader (e.lineNo + 1) m).2
        rw [hr]
        exact List.mem_append_left _ hc

/-- **C44, the answer**: for every reader and every text, the parser answers true exactly if every line is
well-formed (blank, a section head or a pair) and the reader accepted every pair it was given. -/
theorem C44_accepted {ρ : Type} (R : Reader ρ) (r : ρ) (content : List Byte) (lines : List (List Byte)) (last : List Byte)
    (h : IsLines content lines last) :
    (emitConfigValues (logged R) (r, []) content).1 = true ↔
      (∀ l ∈ seenLines lines last, ∃ s, HasShape l s) ∧ ∀ c ∈ (emitConfigValues (logged R) (r, []) content).2.2, ¬Refused c := by
  rw [C44_lines _ _ _ _ _ h]
  have := (emit_success R (seenLines lines last) (start (r, []))
    ⟨fun _ c hc => (by cases hc), fun _ => rfl⟩ (fun _ c hc => (by cases hc))).1
  rw [this]
  exact ⟨fun k => k.2, fun k => ⟨rfl, k⟩⟩

/-- **C44, reports**: the parser answers false exactly if it has reported an error. -/
theorem C44_reports {ρ : Type} (R : Reader ρ) (r : ρ) (content : List Byte) :
    (emitConfigValues (logged R) (r, []) content).1 = true ↔
      ∀ c ∈ (emitConfigValues (logged R) (r, []) content).2.2, ¬IsError c := by
  obtain ⟨lines, last, h⟩ := isLines_exists content
  rw [C44_lines _ _ _ _ _ h]
  exact (emit_success R (seenLines lines last) (start (r, []))
    ⟨fun _ c hc => (by cases hc), fun _ => rfl⟩ (fun _ c hc => (by cases hc))).2.1

theorem logged_line {ρ : Type} (R : Reader ρ) (e : Emit ρ) (log : List Call) (line : List Byte) :
    ∃ log', emitLine (logged R) ⟨e.success, e.interested, e.current, e.lineNo, (e.reader, log)⟩ line
      = ⟨(emitLine R e line).success, (emitLine R e line).interested, (emitLine R e line).current,
         (emitLine R e line).lineNo, ((emitLine R e line).reader, log')⟩ := by
  unfold emitLine
  dsimp only
  split
  · exact ⟨log, rfl⟩
  · split
    · split
      · exact ⟨_, rfl⟩
      · exact ⟨_, rfl⟩
    · split
      · exact ⟨_, rfl⟩
      · split
        · rename_i c tl _ _ _ _
          generalize canonicalizeName _ = name
          generalize trimWhitespace _ = value
          generalize e.lineNo + 1 = n
          cases ha : (R.seenNameValue e.reader n name value).1 with
          | true =>
            have : ((logged R).seenNameValue (e.reader, log) n name value).1 = true := ha
            simp only [this, if_true]
            exact ⟨_, rfl⟩
          | false =>
            have : ((logged R).seenNameValue (e.reader, log) n name value).1 = false := ha
            simp only [this, Bool.false_eq_true, if_false]
            exact ⟨_, rfl⟩
        · exact ⟨log, rfl⟩

/-- The protocol changes nothing: `C44_accepted` and `C44_reports` speak about the plain reader as well. -/
theorem C44_logged {ρ : Type} (R : Reader ρ) (r : ρ) (content : List Byte) :
    (emitConfigValues (logged R) (r, []) content).1 = (emitConfigValues R r content).1 ∧
      (emitConfigValues (logged R) (r, []) content).2.1 = (emitConfigValues R r content).2 := by
  obtain ⟨lines, last, h⟩ := isLines_exists content
  rw [C44_lines _ _ _ _ _ h, C44_lines _ _ _ _ _ h]
  generalize seenLines lines last = ls
  have : ∀ (ls : List (List Byte)) (e : Emit ρ) (log : List Call), ∃ log',
      ls.foldl (emitLine (logged R)) ⟨e.success, e.interested, e.current, e.lineNo, (e.reader, log)⟩
        = ⟨(ls.foldl (emitLine R) e).success, (ls.foldl (emitLine R) e).interested, (ls.foldl (emitLine R) e).current,
           (ls.foldl (emitLine R) e).lineNo, ((ls.foldl (emitLine R) e).reader, log')⟩ := by
    intro ls
    induction ls with
    | nil => intro e log; exact ⟨log, rfl⟩
    | cons l ls ih =>
      intro e log
      obtain ⟨log', h'⟩ := logged_line R e log l
      rw [List.foldl_cons, List.foldl_cons, h']
      exact ih _ log'
  obtain ⟨log', h'⟩ := this ls (start r) []
  rw [show (start (r, []) : Emit (ρ × List Call))
    = ⟨(start r).success, (start r).interested, (start r).current, (start r).lineNo, ((start r).reader, [])⟩ from rfl, h']
  exact ⟨rfl, rfl⟩

/-! ### Examples -/

/-- A reader that is interested in the section `a` and refuses the name `bad`. -/
def exReader : Reader Unit where
  seenSection _ _ name := (name = [97], ())
  seenNameValue _ _ name _ := (name ≠ [98, 97, 100], ())
  reportError _ _ _ := ()

/-- `[ A ]`, `X =1 # c`, an empty line with a carriage return, `[b]`, `Bad=2`. -/
def exText : List Byte :=
  [91, 32, 65, 32, 93, 10] ++ [88, 32, 61, 49, 32, 35, 32, 99, 10] ++ [13, 10] ++ [91, 98, 93, 13, 10] ++ [66, 97, 100, 61, 50, 10]

example : emitConfigValues (logged exReader) ((), []) exText
    = (true, (), [.section_ 1 [97] true, .pair 2 [120] [49] true, .section_ 4 [98] false]) := by decide +kernel

/-- The hypotheses of `C44_read_back` can be met: the text above. -/
example : List.Forall₂ Renders [[91, 32, 65, 32, 93], [88, 32, 61, 49, 32, 35, 32, 99], [13]]
    [.head [65], .pair [88] [49], .blank] := by
  have sp : AllSpace [32] := by intro c hc; rw [List.mem_singleton.1 hc]; decide
  refine .cons ⟨_, [], (List.append_nil _).symm, .head [] [32] [32] [] [65] allSpace_nil sp sp allSpace_nil ?_, by decide, by decide, Or.inl rfl⟩
    (.cons ⟨[88, 32, 61, 49, 32], [35, 32, 99], rfl, .pair [] [32] [] [32] [88] [49] allSpace_nil sp allSpace_nil sp ?_ ?_ (by decide) (by decide), by decide, by decide, Or.inr (Or.inl rfl)⟩
      (.cons ⟨[], [13], rfl, .blank [] allSpace_nil, by decide, by decide, Or.inr (Or.inr rfl)⟩ .nil))
  all_goals
    refine ⟨?_, ?_⟩ <;> (intro c hc; cases hc; decide)

/-- A pair that is refused and a line that is neither head nor pair, with their reports. -/
example : emitConfigValues (logged exReader) ((), []) ([91, 97, 93, 10] ++ [66, 97, 100, 61, 10] ++ [120, 10])
    = (false, (), [.section_ 1 [97] true, .pair 2 [98, 97, 100] [] false,
        .error 2 (.notHandled [97] [98, 97, 100] []), .error 3 .pairExpected]) := by decide +kernel

/-- **C44, observed**: a comment on a last line that is not ended is not taken off: `x=1 # c` there gives
the value `1 # c`, and a comment alone is an error. -/
theorem C44_last_line_comment :
    emitConfigValues (logged exReader) ((), []) ([91, 97, 93, 10] ++ [120, 61, 49, 32, 35, 32, 99])
      = (true, (), [.section_ 1 [97] true, .pair 2 [120] [49, 32, 35, 32, 99] true]) ∧
    emitConfigValues (logged exReader) ((), []) [35, 32, 99] = (false, (), [.error 1 .pairExpected]) := by
  refine ⟨?_, ?_⟩ <;> decide +kernel

end BeagleG.Config
