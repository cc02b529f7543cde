import Verif.Parser.Lemmas
/-!
# The parser: what lines and loops can do, given what commands can do
-/
namespace BeagleG.Parser
open Text Expr

theorem Out.Sat.weaken {α : Type} {r : Out α} {P P' : α → Prop} {Q : Fault → Prop} {O : Prop} (h : r.Sat P Q False)
    (hp : ∀ a, P a → P' a) : r.Sat P' Q O := by
  cases r with
  | ok a => exact hp a h
  | fault _ => exact h
  | outOfFuel => exact h.elim

variable {F : Type} {fl : Num F} {rc : Receiver F} {Q : Fault → Prop} {T : List Byte → Prop} {O : Prop}

/-- The texts kept for loops are among the texts considered. -/
def Texts (T : List Byte → Prop) (st : State F) : Prop := T st.whileCond ∧ T st.whileBody

/-- Texts, closed under everything the parser does, including recording the body of a loop. -/
structure Safer (fl : Num F) (Q : Fault → Prop) (T : List Byte → Prop) : Prop extends Safe fl Q T where
  nil : T []
  append : ∀ a b, T a → T b → T (a ++ b)
  pieces : ∀ l, T l → ∀ p ∈ splitString l [10], T p
  dangling : Q .dangling

/-- A relation between states that holds for everything that happens outside of commands. -/
structure BlockRel (fl : Num F) (T : List Byte → Prop) (R : State F → State F → Prop) : Prop where
  refl : ∀ st, R st st
  trans : ∀ {a b c}, R a b → R b c → R a c
  texts : ∀ {a b}, R a b → Texts T a → Texts T b
  quiet : ∀ {a b}, Quiet fl a b → R a b
  start : ∀ a l, AfterWhile T l → R a (whileStart a l)
  collect : ∀ a l, T l → a.doWhile = true → R a { a with whileBody := a.whileBody ++ l, whileGen := a.whileGen + 1 }
  endLoop : ∀ a, R a { a with doWhile := false }
  program : ∀ a, R a (startProgram a)
  block : ∀ a, R a (a.say .blockDone)

/-- A way to read words. -/
def ReadsWords (fl : Num F) (Q : Fault → Prop) (T : List Byte → Prop)
    (pair : State F → List Byte → Out (State F × Option (Word F))) : Prop :=
  ∀ st line, T line → st.doWhile = false → (pair st line).Sat (PairOk fl T st line) Q False

/-- The result of a command: the change is described by `R`, and text is used up. -/
def Handled (R : State F → State F → Prop) (st : State F) (line : List Byte)
    (r : State F × Option (List Byte)) : Prop :=
  R st r.1 ∧ ∀ l, r.2 = some l → l <:+ line

/-- All commands act according to `R`; they are only given to a program that has begun. -/
def CommandsAre (fl : Num F) (rc : Receiver F) (Q : Fault → Prop) (T : List Byte → Prop) (O : Prop)
    (R : State F → State F → Prop) : Prop :=
  ∀ pair, ReadsWords fl Q T pair → ∀ st letter value line, T line → st.doWhile = false → st.inProgress = true →
    (command fl rc pair st letter value line).Sat (Handled R st line) Q O

theorem startProgram_doWhile (st : State F) : (startProgram st).doWhile = st.doWhile := by
  unfold startProgram
  split <;> rfl

theorem startProgram_inProgress (st : State F) : (startProgram st).inProgress = true := by
  unfold startProgram
  split
  · assumption
  · rfl

theorem whileDo_sat (hs : Safe fl Q T) {R : State F → State F → Prop} (hr : BlockRel fl T R)
    {endLoop : State F → Out (State F)} (he : ∀ st, Texts T st → st.doWhile = false → (endLoop st).Sat (R st) Q O)
    {st : State F} {line : List Byte} (ht : T line) (hx : Texts T st) (hd : st.doWhile = true) :
    (whileDo endLoop st line).Sat (R st) Q O := by
  unfold whileDo
  refine expect_sat hs ht (by decide) (fun _ _ _ _ _ => ?_) fun _ => hr.collect st line ht hd
  exact (he { st with doWhile := false } hx rfl).mono fun st' h => hr.trans (hr.endLoop st) h

theorem blockLoop_sat (hfl : fl.toFloat_.Ok) (hs : Safe fl Q T) {R : State F → State F → Prop}
    (hr : BlockRel fl T R) (hc : CommandsAre fl rc Q T O R) {endLoop : State F → Out (State F)}
    (he : ∀ st, Texts T st → st.doWhile = false → (endLoop st).Sat (R st) Q O) :
    ∀ (n : Nat) (st : State F) (line : List Byte), T line → Texts T st → line.length < n →
      (blockLoop fl rc (parsePair fl endLoop) n st line).Sat (R st) Q O
  | 0, _, _, _, _, h => by omega
  | n + 1, st, line, ht, hx, h => by
    simp only [blockLoop]
    cases hd : st.doWhile with
    | true =>
      rcases parsePair_recording (fl := fl) endLoop st line hd with ⟨e, _⟩ | ⟨_, e⟩
      · rw [e]; exact hr.refl _
      · rw [e]
        have := whileDo_sat hs hr he (hs.suffix _ _ ht (skipWhite_suffix _)) hx hd
        cases hw : whileDo endLoop st (skipWhite line) with
        | ok a => rw [hw] at this; exact this
        | fault f => rw [hw] at this; exact this
        | outOfFuel => rw [hw] at this; exact this
    | false =>
      refine Out.Sat.bind ((parsePair_sat hfl hs endLoop st line ht hd).weaken fun _ h => h) fun r hp => ?_
      obtain ⟨st1, hq, hp⟩ := hp
      rcases hp with ⟨w, e, h3, h4⟩ | e | ⟨l, hl, e⟩
      · subst e
        simp only
        have h1 : R st (startProgram st1) := hr.trans (hr.quiet hq) (hr.program st1)
        have hd1 : (startProgram st1).doWhile = false := by rw [startProgram_doWhile, hq.eq]; exact hd
        refine Out.Sat.bind (hc _ (parsePair_sat hfl hs endLoop) _ w.letter w.value w.rest h4 hd1
          (startProgram_inProgress _)) fun r2 h5 => ?_
        obtain ⟨h5, h6⟩ := h5
        have h7 := hr.trans h1 h5
        obtain ⟨st2, l2⟩ := r2
        cases l2 with
        | none => exact h7
        | some l2 =>
          have h8 := h6 l2 rfl
          have := h8.length_le
          have := h3.2
          exact (blockLoop_sat hfl hs hr hc he n st2 l2 (hs.suffix _ _ h4 h8) (hr.texts h7 hx) (by omega)).mono
            fun _ h => hr.trans h7 h
      · subst e; exact hr.quiet hq
      · subst e; exact hr.trans (hr.quiet hq) (hr.start _ _ hl)

theorem blockWith_sat (hfl : fl.toFloat_.Ok) (hs : Safe fl Q T) {R : State F → State F → Prop}
    (hr : BlockRel fl T R) (hc : CommandsAre fl rc Q T O R) {endLoop : State F → Out (State F)}
    (he : ∀ st, Texts T st → st.doWhile = false → (endLoop st).Sat (R st) Q O) {st : State F} {line : List Byte}
    (ht : T line) (hx : Texts T st) : (blockWith fl rc endLoop st line).Sat (R st) Q O := by
  unfold blockWith
  exact (blockLoop_sat hfl hs hr hc he _ st line ht hx (by unfold wordFuel; omega)).bind
    fun st' h => hr.trans h (hr.block st')

theorem runPieces_sat (hq : Q .dangling) {R : State F → State F → Prop} (hr : BlockRel fl T R)
    {block : State F → List Byte → Out (State F)}
    (hb : ∀ st l, T l → Texts T st → (block st l).Sat (R st) Q O) (gen : Nat) :
    ∀ (ps : List (List Byte)) (st : State F), (∀ p ∈ ps, T p) → Texts T st →
      (runPieces block gen ps st).Sat (R st) Q O
  | [], st, _, _ => hr.refl st
  | p :: ps, st, hp, hx => by
    simp only [runPieces]
    split
    · exact hq
    · refine (hb st p (hp p (by simp)) hx).bind fun st1 h1 => ?_
      exact (runPieces_sat hq hr hb gen ps st1 (fun q hq => hp q (by simp [hq])) (hr.texts h1 hx)).mono
        fun _ h => hr.trans h1 h

theorem whileEnd_sat (hfl : fl.toFloat_.Ok) (hs : Safer fl Q T) {R : State F → State F → Prop}
    (hr : BlockRel fl T R) (hc : CommandsAre fl rc Q T True R) :
    ∀ (n : Nat) (st : State F), Texts T st → (whileEnd fl rc n st).Sat (R st) Q True
  | 0, _, _ => trivial
  | n + 1, st, hx => by
    simp only [whileEnd]
    have hs' := hs.toSafe
    have herr : R st (st.say .error) := hr.quiet (.error (.refl _))
    refine expression_sat hfl hs' hx.1 herr fun v rest _ _ t1 _ => ?_
    split
    · exact hr.refl st
    · refine expect_sat hs' (hs.suffix _ _ t1 (skipWhite_suffix _)) (by decide) (fun _ _ _ _ _ => ?_) fun _ => herr
      refine Out.Sat.bind (runPieces_sat hs.dangling hr (fun st l hl hx =>
        blockWith_sat hfl hs' hr hc (fun st hx _ => whileEnd_sat hfl hs hr hc n st hx) hl hx) _ _ _
        (hs.pieces _ hx.2) hx) fun st1 h1 => ?_
      exact (whileEnd_sat hfl hs hr hc n st1 (hr.texts h1 hx)).mono fun _ h => hr.trans h1 h

/-- **What one line does.** -/
theorem parseBlock_sat (hfl : fl.toFloat_.Ok) (hs : Safer fl Q T) {R : State F → State F → Prop}
    (hr : BlockRel fl T R) (hc : CommandsAre fl rc Q T True R) (n : Nat) {st : State F} {line : List Byte}
    (ht : T line) (hx : Texts T st) : (parseBlock fl rc n st line).Sat (R st) Q True :=
  blockWith_sat hfl hs.toSafe hr hc (fun st hx _ => whileEnd_sat hfl hs hr hc n st hx) ht hx

/-- **What a program does.** -/
theorem runLines_sat (hfl : fl.toFloat_.Ok) (hs : Safer fl Q T) {R : State F → State F → Prop}
    (hr : BlockRel fl T R) (hc : CommandsAre fl rc Q T True R) (n : Nat) : ∀ (ls : List (List Byte)) (st : State F),
    (∀ l ∈ ls, T l) → Texts T st → (runLines fl rc n st ls).Sat (R st) Q True
  | [], st, _, _ => hr.refl st
  | l :: ls, st, ht, hx => by
    simp only [runLines]
    refine (parseBlock_sat hfl hs hr hc n (ht l (by simp)) hx).bind fun st1 h1 => ?_
    exact (runLines_sat hfl hs hr hc n ls st1 (fun q hq => ht q (by simp [hq])) (hr.texts h1 hx)).mono
      fun _ h => hr.trans h1 h

end BeagleG.Parser
