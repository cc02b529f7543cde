import Verif.Parser.ParamProps
import Mathlib.Algebra.Field.Defs
import Mathlib.Tactic.Ring
import Mathlib.Tactic.LinearCombination
/-!
# The parser: coordinates and moves (C13, C14, C15, C16)
-/
namespace BeagleG.Parser
open Text Expr

variable {F : Type} {fl : Num F} {rc : Receiver F} {Q : Fault → Prop} {T : List Byte → Prop}
variable {pair : State F → List Byte → Out (State F × Option (Word F))}

/-! ### The words of a command -/

/-- The words a command has read: their letters and values. -/
inductive WordSeq {A : Type} (pair : State F → List Byte → Out (State F × Option (Word F)))
    (step : State F → A → Byte → F → Option (State F × A)) :
    State F → A → List Byte → List (Byte × F) → State F → A → List Byte → Prop
  /-- there is no further word -/
  | none {st st' : State F} {a : A} {line : List Byte} : pair st line = .ok (st', none) →
      WordSeq pair step st a line [] st' a line
  /-- the next word does not belong to the command -/
  | other {st st' : State F} {a : A} {line : List Byte} {w : Word F} : pair st line = .ok (st', some w) →
      step st' a w.letter w.value = none → WordSeq pair step st a line [] st' a line
  | word {st st1 st2 st' : State F} {a a2 a' : A} {line rest : List Byte} {w : Word F} {ws : List (Byte × F)} :
      pair st line = .ok (st1, some w) → step st1 a w.letter w.value = some (st2, a2) →
      WordSeq pair step st2 a2 w.rest ws st' a' rest →
      WordSeq pair step st a line ((w.letter, w.value) :: ws) st' a' rest

theorem words_seq {A : Type} {step : State F → A → Byte → F → Option (State F × A)} :
    ∀ (n : Nat) (st st' : State F) (a a' : A) (line rest : List Byte) (b : Bool),
      words pair step n st a line = .ok (st', a', rest, b) → ∃ ws, WordSeq pair step st a line ws st' a' rest
  | 0, _, _, _, _, _, _, _, h => by cases h
  | n + 1, st, st', a, a', line, rest, b, h => by
    simp only [words] at h
    cases hp : pair st line with
    | fault f => rw [hp] at h; cases h
    | outOfFuel => rw [hp] at h; cases h
    | ok r =>
      obtain ⟨st1, w⟩ := r
      rw [hp] at h
      simp only [Out.bind] at h
      cases w with
      | none =>
        simp only [Out.ok.injEq, Prod.mk.injEq] at h
        obtain ⟨rfl, rfl, rfl, _⟩ := h
        exact ⟨[], .none hp⟩
      | some w =>
        simp only at h
        cases hst : step st1 a w.letter w.value with
        | none =>
          rw [hst] at h
          simp only [Out.ok.injEq, Prod.mk.injEq] at h
          obtain ⟨rfl, rfl, rfl, _⟩ := h
          exact ⟨[], .other hp hst⟩
        | some x =>
          obtain ⟨st2, a2⟩ := x
          rw [hst] at h
          obtain ⟨ws, hws⟩ := words_seq n st2 st' a2 a' w.rest rest b h
          exact ⟨_, .word hp hst hws⟩

/-- The parts of the state that describe positions, coordinate systems and modes are equal. -/
structure Kept (st st' : State F) : Prop where
  pos : st'.pos = st.pos
  scale : st'.scale = st.scale
  machineOrigin : st'.machineOrigin = st.machineOrigin
  system : st'.system = st.system
  g92 : st'.g92 = st.g92
  origin : st'.origin = st.origin
  offset : st'.offset = st.offset
  unit : st'.unit = st.unit
  rotUnit : st'.rotUnit = st.rotUnit
  absolute : st'.absolute = st.absolute
  ijkAbsolute : st'.ijkAbsolute = st.ijkAbsolute
  modalAbsolute : st'.modalAbsolute = st.modalAbsolute
  modalG1 : st'.modalG1 = st.modalG1
  arcNormal : st'.arcNormal = st.arcNormal
  lastCp2 : st'.lastCp2 = st.lastCp2
  haveSpline : st'.haveSpline = st.haveSpline
  inProgress : st'.inProgress = st.inProgress

theorem Kept.refl (st : State F) : Kept st st :=
  ⟨rfl, rfl, rfl, rfl, rfl, rfl, rfl, rfl, rfl, rfl, rfl, rfl, rfl, rfl, rfl, rfl, rfl⟩

theorem Kept.trans {a b c : State F} (h : Kept a b) (h' : Kept b c) : Kept a c where
  pos := h'.pos.trans h.pos
  scale := h'.scale.trans h.scale
  machineOrigin := h'.machineOrigin.trans h.machineOrigin
  system := h'.system.trans h.system
  g92 := h'.g92.trans h.g92
  origin := h'.origin.trans h.origin
  offset := h'.offset.trans h.offset
  unit := h'.unit.trans h.unit
  rotUnit := h'.rotUnit.trans h.rotUnit
  absolute := h'.absolute.trans h.absolute
  ijkAbsolute := h'.ijkAbsolute.trans h.ijkAbsolute
  modalAbsolute := h'.modalAbsolute.trans h.modalAbsolute
  modalG1 := h'.modalG1.trans h.modalG1
  arcNormal := h'.arcNormal.trans h.arcNormal
  lastCp2 := h'.lastCp2.trans h.lastCp2
  haveSpline := h'.haveSpline.trans h.haveSpline
  inProgress := h'.inProgress.trans h.inProgress

theorem Quiet.kept {st st' : State F} (h : Quiet fl st st') : Kept st st' := by
  rw [h.eq]
  exact ⟨rfl, rfl, rfl, rfl, rfl, rfl, rfl, rfl, rfl, rfl, rfl, rfl, rfl, rfl, rfl, rfl, rfl⟩

theorem whileStart_kept (st : State F) (l : List Byte) : Kept st (whileStart st l) := by
  unfold whileStart
  split <;> exact ⟨rfl, rfl, rfl, rfl, rfl, rfl, rfl, rfl, rfl, rfl, rfl, rfl, rfl, rfl, rfl, rfl, rfl⟩

theorem say_kept (st : State F) (e : Event F) : Kept st (st.say e) :=
  ⟨rfl, rfl, rfl, rfl, rfl, rfl, rfl, rfl, rfl, rfl, rfl, rfl, rfl, rfl, rfl, rfl, rfl⟩

/-- A straight move. -/
def Event.isMove : Event F → Bool
  | .coordinatedMove _ _ => true
  | .rapidMove _ _ => true
  | _ => false

/-- The moves among the events. -/
def movesOf (log : List (Event F)) : List (Event F) := log.filter Event.isMove

/-- No move was asked for in between. -/
def Unmoved (st st' : State F) : Prop := movesOf st'.log = movesOf st.log

theorem say_unmoved (st : State F) (e : Event F) (h : e.isMove = false) : Unmoved st (st.say e) := by
  simp [Unmoved, movesOf, State.say, h]

theorem storeParameter_unmoved (st : State F) (name : List Byte) (v : F) : Unmoved st (storeParameter st name v) := by
  unfold storeParameter
  split
  · rfl
  · split
    · exact say_unmoved _ _ rfl
    · rfl

theorem Quiet.unmoved {st st' : State F} (h : Quiet fl st st') : Unmoved st st' := by
  induction h with
  | refl => rfl
  | store n v _ ih => exact (storeParameter_unmoved _ _ _).trans ih
  | error _ ih => exact (say_unmoved _ _ rfl).trans ih
  | done v _ ih => exact (say_unmoved _ _ rfl).trans ih

theorem whileStart_unmoved (st : State F) (l : List Byte) : Unmoved st (whileStart st l) := by
  unfold whileStart
  split
  · exact say_unmoved _ _ rfl
  · rfl

/-- What is needed of a way to read words: outside of a loop body it only changes parameters, reports errors or
starts the recording of a loop, and then there is no word. `parsePair` is one (`reads_keeps`). -/
def Keeps (pair : State F → List Byte → Out (State F × Option (Word F))) (T : List Byte → Prop) : Prop :=
  ∀ st line r, T line → st.doWhile = false → pair st line = .ok r →
    Kept st r.1 ∧ Unmoved st r.1 ∧ ∀ w, r.2 = some w → r.1.doWhile = false ∧ T w.rest

theorem reads_keeps (h : ReadsWords fl Q T pair) : Keeps pair T := by
  intro st line r ht hd e
  obtain ⟨st1, hq, hp⟩ := (h st line ht hd).ok e
  rcases hp with ⟨w, e, h3, h4⟩ | e | ⟨l, hl, e⟩
  · subst e
    refine ⟨hq.kept, hq.unmoved, ?_⟩
    intro w' e'
    injection e' with e'
    subst e'
    exact ⟨by rw [hq.eq]; exact hd, h4⟩
  · subst e; exact ⟨hq.kept, hq.unmoved, by intro w e; cases e⟩
  · subst e; exact ⟨hq.kept.trans (whileStart_kept _ _), (whileStart_unmoved _ _).trans hq.unmoved, by intro w e; cases e⟩

/-- Reading words with an invariant about the words read so far. -/
theorem WordSeq.induct {A : Type} {step : State F → A → Byte → F → Option (State F × A)} (hk : Keeps pair T)
    (I : State F → A → List (Byte × F) → Prop)
    (hkeep : ∀ st st' a ws, I st a ws → Kept st st' → Unmoved st st' → I st' a ws)
    (hstep : ∀ st a ws l v st' a', I st a ws → step st a l v = some (st', a') →
      I st' a' (ws ++ [(l, v)]) ∧ st'.doWhile = st.doWhile)
    {st st' : State F} {a a' : A} {line rest : List Byte} {ws : List (Byte × F)}
    (h : WordSeq pair step st a line ws st' a' rest) :
    ∀ ws0, T line → st.doWhile = false → I st a ws0 → I st' a' (ws0 ++ ws) := by
  induction h with
  | none hp =>
    intro ws0 ht hd hi
    rw [List.append_nil]
    exact hkeep _ _ _ _ hi (hk _ _ _ ht hd hp).1 (hk _ _ _ ht hd hp).2.1
  | other hp _ =>
    intro ws0 ht hd hi
    rw [List.append_nil]
    exact hkeep _ _ _ _ hi (hk _ _ _ ht hd hp).1 (hk _ _ _ ht hd hp).2.1
  | @word st st1 st2 st' a a2 a' line rest w ws hp hst _ ih =>
    intro ws0 ht hd hi
    obtain ⟨h1, hu, h2⟩ := hk _ _ _ ht hd hp
    obtain ⟨h3, h4⟩ := h2 w rfl
    obtain ⟨h5, h6⟩ := hstep _ _ _ _ _ _ _ (hkeep _ _ _ _ hi h1 hu) hst
    have := ih (ws0 ++ [(w.letter, w.value)]) h4 (h6.trans h3) h5
    simpa using this

/-! ### C13: coordinates -/

/-- The value of the last word for an axis. -/
def axisValue (a : Axis) : List (Byte × F) → Option F
  | [] => none
  | (l, v) :: ws =>
    match axisValue a ws with
    | some w => some w
    | none => if letterAxis l = some a then some v else none

theorem axisValue_append (a : Axis) (ws : List (Byte × F)) (l : Byte) (v : F) :
    axisValue a (ws ++ [(l, v)]) = if letterAxis l = some a then some v else axisValue a ws := by
  induction ws with
  | nil => simp [axisValue]
  | cons x ws ih =>
    obtain ⟨l', v'⟩ := x
    simp only [List.cons_append, axisValue, ih]
    by_cases h : letterAxis l = some a
    · simp only [if_pos h]
    · simp only [if_neg h]

/-- The value of the last word with a letter. -/
def letterValueOf (letter : Byte) : List (Byte × F) → Option F
  | [] => none
  | (l, v) :: ws =>
    match letterValueOf letter ws with
    | some w => some w
    | none => if l = letter then some v else none

theorem letterValueOf_append (k : Byte) (ws : List (Byte × F)) (l : Byte) (v : F) :
    letterValueOf k (ws ++ [(l, v)]) = if l = k then some v else letterValueOf k ws := by
  induction ws with
  | nil => simp [letterValueOf]
  | cons x ws ih =>
    obtain ⟨l', v'⟩ := x
    simp only [List.cons_append, letterValueOf, ih]
    by_cases h : l = k
    · simp only [if_pos h]
    · simp only [if_neg h]

/-- The feedrate in mm/s: the last F word, or -1 for none. -/
def moveFeed (fl : Num F) (st : State F) (ws : List (Byte × F)) : F :=
  match letterValueOf 70 ws with
  | none => fl.minusOne
  | some v => fl.div (fl.mul v st.unit) (fl.tenth 600)

/-- The unit factor of an axis: degrees are not converted. -/
def unitOf (st : State F) (a : Axis) : F := if isRotational a then st.rotUnit else st.unit

/-- The origin of the coordinates of an axis: that of the selected coordinate system plus an active offset. -/
def zeroOf (fl : Num F) (st : State F) (a : Axis) : F := fl.add (st.currentOrigin a) (st.currentOffset fl a)

/-- Where the words of a move lead to, in machine coordinates. -/
def moveTarget (fl : Num F) (st : State F) (ws : List (Byte × F)) : Axes F := fun a =>
  match axisValue a ws with
  | none => st.pos a
  | some v =>
    fl.add (if st.absolute a then zeroOf fl st a else st.pos a) (fl.mul (fl.mul v (unitOf st a)) (st.scale a))

/-- A letter that belongs to a move. -/
def moveLetter (l : Byte) : Prop := l = 70 ∨ l = 83 ∨ letterAxis l ≠ none

theorem Kept.zeroOf {st st' : State F} (h : Kept st st') : zeroOf fl st' = zeroOf fl st := by
  funext a
  simp only [Parser.zeroOf, State.currentOrigin, State.currentOffset, h.origin, h.offset, h.machineOrigin, h.system, h.g92]

theorem Kept.absAxisPos {st st' : State F} (h : Kept st st') : absAxisPos fl st' = absAxisPos fl st := by
  funext a v
  have := congrFun (h.zeroOf (fl := fl)) a
  simp only [Parser.zeroOf] at this
  simp only [Parser.absAxisPos, State.frame, this, h.absolute, h.unit, h.rotUnit, h.scale, h.pos]

theorem moveTarget_append (st : State F) (ws : List (Byte × F)) (l : Byte) (v : F) {a : Axis}
    (ha : letterAxis l = some a) :
    moveTarget fl st (ws ++ [(l, v)]) = setAxis (moveTarget fl st ws) a (absAxisPos fl st a v) := by
  funext b
  simp only [moveTarget, axisValue_append, setAxis, ha, Option.some.injEq]
  by_cases e : b = a
  · subst e; simp [absAxisPos, State.frame, zeroOf, unitOf]
  · rw [if_neg (fun h => e h.symm), if_neg e]

theorem moveTarget_other (st : State F) (ws : List (Byte × F)) (l : Byte) (v : F) (ha : letterAxis l = none) :
    moveTarget fl st (ws ++ [(l, v)]) = moveTarget fl st ws := by
  funext b
  simp only [moveTarget, axisValue_append, ha]
  rw [if_neg (by simp)]

/-- What the words of a move have led to: state `st'` after reading, words `ws`. -/
structure MoveRead (fl : Num F) (st st' : State F) (force : Bool) (ws : List (Byte × F)) (m : MoveWords F) : Prop where
  kept : Kept st st'
  unmoved : Unmoved st st'
  letters : ∀ p ∈ ws, moveLetter p.1
  pos : m.pos = moveTarget fl st ws
  change : m.change = (force || ws.any fun p => p.1 ≠ 83)
  feed : m.feed = moveFeed fl st ws
  affected : ∀ a, m.affected a = (axisValue a ws).isSome

theorem letter_F : letterAxis 70 = none := by decide
theorem letter_S : letterAxis 83 = none := by decide

theorem move_read (hk : Keeps pair T) {st st' : State F} {force : Bool} {line rest : List Byte} {m : MoveWords F}
    {ws : List (Byte × F)} (ht : T line) (hd : st.doWhile = false)
    (h : WordSeq pair (moveStep fl) st ⟨force, fl.minusOne, st.pos, fun _ => false⟩ line ws st' m rest) :
    MoveRead fl st st' force ws m := by
  have h0 : MoveRead fl st st force [] ⟨force, fl.minusOne, st.pos, fun _ => false⟩ :=
    ⟨.refl _, rfl, (by intro p hp; cases hp), rfl, (by simp), rfl, (by intro a; rfl)⟩
  refine h.induct hk (fun s m ws => MoveRead fl st s force ws m) ?_ ?_ [] ht hd h0
  · intro s s' a ws hi hks hus
    exact ⟨hi.kept.trans hks, hus.trans hi.unmoved, hi.letters, hi.pos, hi.change, hi.feed, hi.affected⟩
  · intro s m ws l v s' m' hi hst
    unfold moveStep at hst
    split at hst
    · rename_i hl
      subst hl
      injection hst with hst; injection hst with h1 h2; subst h1; subst h2
      refine ⟨⟨hi.kept, hi.unmoved, ?_, ?_, ?_, ?_, ?_⟩, rfl⟩
      · intro p hp
        rcases List.mem_append.1 hp with hp | hp
        · exact hi.letters p hp
        · simp only [List.mem_singleton] at hp; subst hp; exact Or.inl rfl
      · show m.pos = _
        rw [hi.pos, moveTarget_other _ _ _ _ letter_F]
      · show true = _
        rw [List.any_append]; simp
      · show feedOf fl (fl.mul v s.unit) = _
        simp only [moveFeed, letterValueOf_append, if_true, feedOf, hi.kept.unit]
      · intro a
        show m.affected a = _
        rw [axisValue_append, letter_F, hi.affected a, if_neg (by simp)]
    · split at hst
      · rename_i hl
        subst hl
        injection hst with hst; injection hst with h1 h2; subst h1; subst h2
        refine ⟨⟨hi.kept.trans (say_kept _ _), (say_unmoved _ _ rfl).trans hi.unmoved, ?_, ?_, ?_, ?_, ?_⟩, rfl⟩
        · intro p hp
          rcases List.mem_append.1 hp with hp | hp
          · exact hi.letters p hp
          · simp only [List.mem_singleton] at hp; subst hp; exact Or.inr (Or.inl rfl)
        · rw [hi.pos, moveTarget_other _ _ _ _ letter_S]
        · rw [List.any_append, hi.change]; simp
        · rw [hi.feed]
          simp only [moveFeed, letterValueOf_append]
          rw [if_neg (by decide)]
        · intro a
          rw [axisValue_append, letter_S, hi.affected a, if_neg (by simp)]
      · split at hst
        · cases hst
        · rename_i hF hS _ a ha
          injection hst with hst; injection hst with h1 h2; subst h1; subst h2
          refine ⟨⟨hi.kept, hi.unmoved, ?_, ?_, ?_, ?_, ?_⟩, rfl⟩
          · intro p hp
            rcases List.mem_append.1 hp with hp | hp
            · exact hi.letters p hp
            · simp only [List.mem_singleton] at hp; subst hp; exact Or.inr (Or.inr (by simp [ha]))
          · show setAxis m.pos a _ = _
            rw [hi.pos, moveTarget_append _ _ _ _ ha, hi.kept.absAxisPos]
          · show true = _
            rw [List.any_append]; simp [hS]
          · show m.feed = _
            rw [hi.feed]
            simp only [moveFeed, letterValueOf_append]
            rw [if_neg hF]
          · intro b
            show (decide (b = a) || m.affected b) = _
            rw [axisValue_append, ha, hi.affected b]
            by_cases e : b = a
            · subst e; simp
            · rw [if_neg (by simpa using fun h => e h.symm)]; simp [e]

/-- A move command that was carried out: the receiver was asked for the range and then for the move, and the
position is the new one exactly if it agreed. -/
def MoveDone (rc : Receiver F) (st st1 st' : State F) (g1 : Bool) (affected : Axis → Bool) (feed : F) (target : Axes F) :
    Prop :=
  let clampLog := .clampToRange affected target :: st1.log
  let target' := rc.clamp clampLog target
  let e := if g1 then .coordinatedMove feed target' else .rapidMove feed target'
  st'.log = e :: clampLog ∧ st'.pos = if rc.accepts (e :: clampLog) then target' else st.pos

/-- **C13. Every line of words of a move leads to the machine position that its coordinates mean**: on an axis
with a word, the origin of the selected coordinate system plus the active offset plus the value in the selected
unit (absolute), or the position plus that value (relative); on other axes the position. Words with the same
letter: the last counts. A line without F or axis word makes no move. -/
theorem C13_move_target (hk : Keeps pair T) {st st' : State F} {force : Bool} {line : List Byte}
    {l : Option (List Byte)} (ht : T line) (hd : st.doWhile = false)
    (h : handleMove fl rc pair force st line = .ok (st', l)) :
    ∃ (ws : List (Byte × F)) (st1 : State F) (m : MoveWords F) (rest : List Byte), l = some rest ∧
      WordSeq pair (moveStep fl) st ⟨force, fl.minusOne, st.pos, fun _ => false⟩ line ws st1 m rest ∧
      (∀ p ∈ ws, moveLetter p.1) ∧ Kept st st1 ∧ Unmoved st st1 ∧
      if force = true ∨ ∃ p ∈ ws, p.1 ≠ 83 then
        MoveDone rc st st1 st' st.modalG1 (fun a => (axisValue a ws).isSome) (moveFeed fl st ws)
          (moveTarget fl st ws)
      else st' = st1 := by
  unfold handleMove at h
  cases hw : words pair (moveStep fl) (wordFuel line) st ⟨force, fl.minusOne, st.pos, fun _ => false⟩ line with
  | fault f => rw [hw] at h; cases h
  | outOfFuel => rw [hw] at h; cases h
  | ok r =>
    obtain ⟨st1, m, rest, b⟩ := r
    rw [hw] at h
    simp only [Out.bind, Out.ok.injEq, Prod.mk.injEq] at h
    obtain ⟨h1, h2⟩ := h
    obtain ⟨ws, hws⟩ := words_seq _ _ _ _ _ _ _ _ hw
    have hr := move_read hk ht hd hws
    refine ⟨ws, st1, m, rest, h2.symm, hws, hr.letters, hr.kept, hr.unmoved, ?_⟩
    have haff : m.affected = fun a => (axisValue a ws).isSome := funext hr.affected
    have hc : m.change = true ↔ (force = true ∨ ∃ p ∈ ws, p.1 ≠ 83) := by
      rw [hr.change]; simp [List.any_eq_true]
    by_cases hch : m.change = true
    · rw [if_pos (hc.1 hch)]
      subst h1
      unfold moveApply
      rw [if_pos hch]
      simp only [MoveDone, ask, reached, State.say, hr.kept.modalG1, haff, hr.pos, hr.feed]
      split
      · rename_i ha; exact ⟨rfl, by rw [if_pos ha]⟩
      · rename_i ha; exact ⟨rfl, hr.kept.pos.trans (if_neg (by rw [ha]; simp)).symm⟩
    · rw [if_neg (fun x => hch (hc.2 x))]
      subst h1
      unfold moveApply
      rw [if_neg hch]

/-- **C13 for a line that continues G0 or G1 with an axis word** (`a` with value `v`): it always asks for one move, to
the position that the first and the following words mean, and then reports a G0 or G1. The first axis is not among
those that `clamp_to_range` is told about. -/
theorem C13_bare_axis (hk : Keeps pair T) {st st' : State F} {letter : Byte} {v : F} {a : Axis} {line : List Byte}
    {l : Option (List Byte)} (ht : T line) (hd : st.doWhile = false) (ha : letterAxis letter = some a)
    (h : command fl rc pair st letter v line = .ok (st', l)) :
    ∃ (ws : List (Byte × F)) (st0 st1 st2 : State F) (m : MoveWords F) (rest : List Byte), l = some rest ∧
      st0 = { st with haveSpline := false, pos := setAxis st.pos a (absAxisPos fl st a v) } ∧
      WordSeq pair (moveStep fl) st0 ⟨true, fl.minusOne, st0.pos, fun _ => false⟩ line ws st1 m rest ∧
      (∀ p ∈ ws, moveLetter p.1) ∧ Kept st0 st1 ∧
      MoveDone rc st0 st1 st2 st.modalG1 (fun b => (axisValue b ws).isSome) (moveFeed fl st0 ws) (moveTarget fl st0 ws) ∧
      st' = st2.say (.commandDone 71 (if st.modalG1 then fl.one else fl.zero)) := by
  have hne : letter ≠ 71 ∧ letter ≠ 77 ∧ letter ≠ 70 ∧ letter ≠ 78 := by
    refine ⟨?_, ?_, ?_, ?_⟩ <;> rintro rfl <;> (revert ha; cases a <;> decide)
  unfold command at h
  simp only [if_neg hne.1, if_neg hne.2.1, if_neg hne.2.2.1, if_neg hne.2.2.2, ha] at h
  cases hm : handleMove fl rc pair true
      { st with haveSpline := false, pos := setAxis st.pos a (absAxisPos fl { st with haveSpline := false } a v) } line with
  | fault f => rw [hm] at h; cases h
  | outOfFuel => rw [hm] at h; cases h
  | ok r =>
    obtain ⟨st2, l2⟩ := r
    rw [hm] at h
    simp only [Out.bind, Out.ok.injEq, Prod.mk.injEq] at h
    obtain ⟨h1, h2⟩ := h
    have hd0 : ({ st with haveSpline := false, pos := setAxis st.pos a (absAxisPos fl { st with haveSpline := false } a v) } : State F).doWhile = false := hd
    obtain ⟨ws, st1, m, rest, e1, e2, e3, e4, _, e6⟩ := C13_move_target hk ht hd0 hm
    rw [if_pos (.inl rfl)] at e6
    exact ⟨ws, _, st1, st2, m, rest, h2.symm.trans e1, rfl, e2, e3, e4, e6, h1.symm⟩

end BeagleG.Parser
