import Verif.Parser.Block
/-!
# The parser: the steps commands are made of
-/
namespace BeagleG.Parser
open Text Expr

variable {F : Type}

/-- Events that do not move anything, do not change parameters or the frame, and do not begin or end a program. -/
def Event.plain : Event F → Bool
  | .coordinatedMove _ _ => false
  | .rapidMove _ _ => false
  | .goHome _ => false
  | .probeAxis _ => false
  | .loadParams => false
  | .start => false
  | .finished _ => false
  | .originOffset _ _ => false
  | _ => true

/-- A straight move to a position. -/
def MoveTo (e : Event F) (p : Axes F) : Prop := ∃ f, e = .coordinatedMove f p ∨ e = .rapidMove f p

/-- The states differ only in modes, offsets, coordinate systems and scale. -/
structure SameRest (st st' : State F) : Prop where
  params : st'.params = st.params
  pos : st'.pos = st.pos
  machineOrigin : st'.machineOrigin = st.machineOrigin
  whileCond : st'.whileCond = st.whileCond
  whileBody : st'.whileBody = st.whileBody
  whileGen : st'.whileGen = st.whileGen
  log : st'.log = st.log
  inProgress : st'.inProgress = st.inProgress
  doWhile : st'.doWhile = true → st.doWhile = true

/-- Likewise, and absolute coordinates mean the same. -/
structure SameCore (fl : Num F) (st st' : State F) : Prop where
  frame : st'.frame fl = st.frame fl
  origin : st'.origin = st.origin
  offset : st'.offset = st.offset
  g92 : st'.g92 = st.g92
  rest : SameRest st st'

/-- What the name of an origin says about it. -/
def Named (fl : Num F) (st : State F) : FrameName → Prop
  | .system i => st.origin = .system i
  | .g92 => st.offset = .g92
  | .g30 => st.offset = .g92
  | .empty => st.currentOffset fl = fun _ => fl.zero
  | .home => st.currentOffset fl = fun _ => fl.zero

/-- The elementary steps. `T` are the texts that may be recorded for loops. -/
inductive Micro (fl : Num F) (rc : Receiver F) (T : List Byte → Prop) : State F → State F → Prop
  /-- assignments and error messages -/
  | quiet {st st' : State F} : Quiet fl st st' → Micro fl rc T st st'
  /-- a WHILE -/
  | start (st : State F) (l : List Byte) : AfterWhile T l → Micro fl rc T st (whileStart st l)
  /-- a line of the body of a loop -/
  | collect (st : State F) (l : List Byte) : T l → st.doWhile = true →
      Micro fl rc T st { st with whileBody := st.whileBody ++ l, whileGen := st.whileGen + 1 }
  | say (st : State F) (e : Event F) : e.plain = true → Micro fl rc T st (st.say e)
  | modal {st st' : State F} : SameCore fl st st' → Micro fl rc T st st'
  /-- a change of the coordinate system, its origin or the offset -/
  | shift {st st' : State F} (name : FrameName) : SameRest st st' → Named fl st' name →
      Micro fl rc T st (informOrigin fl st' name)
  | load (st : State F) : Micro fl rc T st (loadParams rc st)
  /-- a straight move -/
  | moved (st : State F) (e : Event F) (p : Axes F) : MoveTo e p → rc.accepts (e :: st.log) = true →
      Micro fl rc T st { st.say e with pos := p }
  /-- a straight move that is refused -/
  | refused (st : State F) (e : Event F) (p : Axes F) : MoveTo e p → rc.accepts (e :: st.log) = false →
      Micro fl rc T st (st.say e)
  /-- an arc or a spline -/
  | curve (st : State F) (feed : F) (ps : List (Axes F)) (target : Axes F) :
      (moves rc feed st (ps ++ [target])).2 = true →
      Micro fl rc T st { (moves rc feed st (ps ++ [target])).1 with pos := target }
  /-- an arc or a spline, refused at some point -/
  | curveRefused (st : State F) (feed : F) (ps : List (Axes F)) : (moves rc feed st ps).2 = false →
      Micro fl rc T st (moves rc feed st ps).1
  /-- an arc that is too short to be made -/
  | ignored (st : State F) (normal : Axis) (cw : Bool) (center target : Axes F) :
      arcGen fl normal cw st.pos center target = none →
      Micro fl rc T st { st.say (.arcIgnored target) with pos := target }
  /-- an axis letter without a command and a move that is refused: the position has been changed before the move -/
  | bareRefused (st : State F) (a : Axis) (v : F) (e : Event F) (p : Axes F) : MoveTo e p → rc.accepts (e :: st.log) = false →
      Micro fl rc T st { st.say e with pos := setAxis st.pos a v }
  | home (st : State F) (flags : Axis → Bool) :
      Micro fl rc T st { st.say (.goHome flags) with
        pos := fun a => if flags a then st.machineOrigin a else st.pos a }
  | probed (st : State F) (feed z : F) : rc.probe (.probeAxis feed :: st.log) = some z →
      Micro fl rc T st { st.say (.probeAxis feed) with pos := setAxis st.pos .Z z }
  | notProbed (st : State F) (feed : F) : rc.probe (.probeAxis feed :: st.log) = none →
      Micro fl rc T st (st.say (.probeAxis feed))

/-- Any number of steps within a program. -/
inductive Inside (fl : Num F) (rc : Receiver F) (T : List Byte → Prop) : State F → State F → Prop
  | refl (st : State F) : Inside fl rc T st st
  | tail {a b c : State F} : Inside fl rc T a b → Micro fl rc T b c → Inside fl rc T a c

/-- Any number of steps, and programs that begin and end. -/
inductive Steps (fl : Num F) (rc : Receiver F) (T : List Byte → Prop) : State F → State F → Prop
  | refl (st : State F) : Steps fl rc T st st
  | tail {a b c : State F} : Steps fl rc T a b → Micro fl rc T b c → Steps fl rc T a c
  | program {a b : State F} : Steps fl rc T a b → Steps fl rc T a (startProgram b)
  | finish {a b : State F} : Steps fl rc T a b → Steps fl rc T a (finishProgram fl b)

variable {fl : Num F} {rc : Receiver F} {Q : Fault → Prop} {T : List Byte → Prop} {O : Prop}

theorem Inside.one {a b : State F} (h : Micro fl rc T a b) : Inside fl rc T a b := .tail (.refl _) h

theorem Inside.trans {a b c : State F} (h : Inside fl rc T a b) (h' : Inside fl rc T b c) : Inside fl rc T a c := by
  induction h' with
  | refl => exact h
  | tail _ m ih => exact .tail ih m

theorem Steps.one {a b : State F} (h : Micro fl rc T a b) : Steps fl rc T a b := .tail (.refl _) h

theorem Steps.trans {a b c : State F} (h : Steps fl rc T a b) (h' : Steps fl rc T b c) : Steps fl rc T a c := by
  induction h' with
  | refl => exact h
  | tail _ m ih => exact .tail ih m
  | program _ ih => exact .program ih
  | finish _ ih => exact .finish ih

theorem Inside.steps {a b : State F} (h : Inside fl rc T a b) : Steps fl rc T a b := by
  induction h with
  | refl => exact .refl _
  | tail _ m ih => exact .tail ih m

/-- What every step keeps holds after any number of steps. -/
theorem Steps.induct {I : State F → Prop} (hi : ∀ a b, I a → Micro fl rc T a b → I b)
    (hp : ∀ a, I a → I (startProgram a)) (hf : ∀ a, I a → I (finishProgram fl a)) {a b : State F}
    (h : Steps fl rc T a b) (ha : I a) : I b := by
  induction h with
  | refl => exact ha
  | tail _ m ih => exact hi _ _ ih m
  | program _ ih => exact hp _ ih
  | finish _ ih => exact hf _ ih

theorem Inside.say {a b : State F} (h : Inside fl rc T a b) (e : Event F) (he : e.plain = true) :
    Inside fl rc T a (b.say e) := .tail h (.say _ _ he)

theorem Inside.modal {a b c : State F} (h : Inside fl rc T a b) (hc : SameCore fl b c) : Inside fl rc T a c :=
  .tail h (.modal hc)

theorem moves_eq (rc : Receiver F) (feed : F) : ∀ (ps : List (Axes F)) (st : State F),
    (moves rc feed st ps).1 = { st with log := (moves rc feed st ps).1.log }
  | [], st => rfl
  | p :: ps, st => by
    simp only [moves]
    split
    · exact moves_eq rc feed ps _
    · rfl

theorem Micro.texts {a b : State F} (hn : T []) (hs : ∀ l r, T l → r <:+ l → T r)
    (happ : ∀ a b, T a → T b → T (a ++ b)) (h : Micro fl rc T a b) (hx : Texts T a) : Texts T b := by
  cases h with
  | quiet h => rw [h.eq]; exact hx
  | start l hl =>
    unfold whileStart
    split
    · exact hx
    · rename_i e
      have e' := after1_suffix e
      exact ⟨hs _ _ hl.1 ((skipWhite_suffix _).trans (e' ▸ List.suffix_cons _ _)), hn⟩
  | collect l hl => exact ⟨hx.1, happ _ _ hx.2 hl⟩
  | say => exact hx
  | modal h => exact ⟨h.rest.whileCond ▸ hx.1, h.rest.whileBody ▸ hx.2⟩
  | shift _ h _ => exact ⟨h.whileCond ▸ hx.1, h.whileBody ▸ hx.2⟩
  | load => exact hx
  | moved => exact hx
  | refused => exact hx
  | curve => rw [moves_eq]; exact hx
  | curveRefused => rw [moves_eq]; exact hx
  | ignored => exact hx
  | bareRefused => exact hx
  | home => exact hx
  | probed => exact hx
  | notProbed => exact hx

theorem startProgram_texts (st : State F) (h : Texts T st) : Texts T (startProgram st) := by
  unfold startProgram
  split <;> exact h

theorem steps_blockRel (hs : Safer fl Q T) : BlockRel fl T (Steps fl rc T) where
  refl := .refl
  trans := .trans
  texts h hx := h.induct (I := Texts T) (fun _ _ hi m => m.texts hs.nil hs.suffix hs.append hi) startProgram_texts
    (fun _ h => h) hx
  quiet h := .one (.quiet h)
  start a l h := .one (.start a l h)
  collect a l h hd := .one (.collect a l h hd)
  endLoop a := .one (.modal ⟨rfl, rfl, rfl, rfl, rfl, rfl, rfl, rfl, rfl, rfl, rfl, rfl, fun h => by cases h⟩)
  program a := .program (.refl a)
  block a := .one (.say a .blockDone rfl)

/-! ### The commands -/

section
variable {pair : State F → List Byte → Out (State F × Option (Word F))}

theorem words_steps (hs : ∀ l r, T l → r <:+ l → T r) (hp : ReadsWords fl Q T pair) {A : Type}
    {step : State F → A → Byte → F → Option (State F × A)}
    (hstep : ∀ st a l v st' a', step st a l v = some (st', a') → Inside fl rc T st st' ∧ st'.doWhile = st.doWhile)
    {st : State F} {a : A} {line : List Byte} (ht : T line) (hd : st.doWhile = false) :
    (words pair step (wordFuel line) st a line).Sat (fun r => Inside fl rc T st r.1 ∧ r.2.2.1 <:+ line) Q O := by
  refine (words_sat (I := fun st' _ => Inside fl rc T st st') hs hp ?_ ?_ ?_ (wordFuel line) st a line ht hd (.refl _)
    (by unfold wordFuel; omega)).weaken fun _ h => h
  · intro st1 st2 _ h q; exact .tail h (.quiet q)
  · intro st1 _ l h hl; exact .tail h (.start _ _ hl)
  · intro st1 a1 l v st2 a2 h hd1 e
    obtain ⟨e1, e2⟩ := hstep _ _ _ _ _ _ e
    exact ⟨h.trans e1, by rw [e2]; exact hd1⟩

theorem steps_events (es : List (Event F)) (hes : ∀ e ∈ es, e.plain = true) (st : State F) :
    Inside fl rc T st { st with log := es ++ st.log } := by
  induction es with
  | nil => exact .refl _
  | cons e es ih =>
    exact .tail (ih fun e he => hes e (by simp [he])) (.say { st with log := es ++ st.log } e (hes e (by simp)))

/-- A change of modes together with events. -/
theorem steps_logged {st st' : State F} (es : List (Event F)) (hes : ∀ e ∈ es, e.plain = true)
    (h : SameCore fl st { st' with log := st.log }) (hl : st'.log = es ++ st.log) : Inside fl rc T st st' := by
  have h1 : Inside fl rc T st { st' with log := st.log } := .one (.modal h)
  have h2 := h1.trans (steps_events (fl := fl) (rc := rc) (T := T) es hes _)
  have h3 : ({ ({ st' with log := st.log } : State F) with log := es ++ st.log } : State F) = st' := by
    rw [← hl]
  rwa [h3] at h2

/-- A change of the frame, with its announcement. -/
theorem shift_steps {st st' : State F} (name : FrameName) (h : SameRest st st') (hn : Named fl st' name) :
    Inside fl rc T st (informOrigin fl st' name) :=
  .one (.shift name h hn)

theorem setCurrentOffset_steps {st st' : State F} (o : Offset) (name : FrameName) (h : SameRest st st')
    (hn : Named fl { st' with offset := o } name) : Inside fl rc T st (setCurrentOffset fl st' o name) :=
  shift_steps name ⟨h.params, h.pos, h.machineOrigin, h.whileCond, h.whileBody, h.whileGen, h.log, h.inProgress, h.doWhile⟩ hn

theorem SameRest.refl (st : State F) : SameRest st st := ⟨rfl, rfl, rfl, rfl, rfl, rfl, rfl, rfl, id⟩

/-! Assignments do not touch the frame, so they can be made before it is changed. -/

/-- The same with other systems and offset. -/
def reframe (sys : Fin 9 → Axes F) (g : Axes F) (st : State F) : State F := { st with system := sys, g92 := g }

theorem quiet_reframe (sys : Fin 9 → Axes F) (g : Axes F) {a b : State F} (h : Quiet fl a b) :
    Quiet fl (reframe sys g a) (reframe sys g b) := by
  induction h with
  | refl => exact .refl _
  | store n v _ ih =>
    have e : ∀ c : State F, reframe sys g (storeParameter c n v) = storeParameter (reframe sys g c) n v := by
      intro c
      unfold storeParameter reframe
      simp only
      split
      · rfl
      · split <;> rfl
    rw [e]
    exact .store n v ih
  | error _ ih => exact .error ih
  | done v _ ih => exact .done v ih

theorem whileStart_reframe (sys : Fin 9 → Axes F) (g : Axes F) (a : State F) (l : List Byte) :
    reframe sys g (whileStart a l) = whileStart (reframe sys g a) l := by
  unfold whileStart
  split <;> rfl

theorem initProgramDefaults_steps (st : State F) : Inside fl rc T st (initProgramDefaults fl st) := by
  let st1 : State F := { st with
    unit := fl.one, rotUnit := fl.one, absolute := fun _ => true, modalAbsolute := true,
    ijkAbsolute := false, scale := fun _ => fl.one, g92 := fun _ => fl.zero }
  have h1 : Inside fl rc T st (setCurrentOffset fl st1 .g92 .home) :=
    setCurrentOffset_steps .g92 .home ⟨rfl, rfl, rfl, rfl, rfl, rfl, rfl, rfl, id⟩ rfl
  refine h1.trans (steps_logged [.temperature fl.zero, .fanSpeed fl.zero, .speedFactor fl.one] ?_
    ⟨rfl, rfl, rfl, rfl, rfl, rfl, rfl, rfl, rfl, rfl, rfl, rfl, fun h => by cases h⟩ rfl)
  intro e he
  simp only [List.mem_cons, List.not_mem_nil, or_false] at he
  rcases he with rfl | rfl | rfl <;> rfl

theorem handled_some {R : State F → State F → Prop} {st st' : State F} {line l : List Byte} (h : R st st')
    (hl : l <:+ line) : Handled R st line (st', some l) :=
  ⟨h, by intro l' e; injection e with e; subst e; exact hl⟩

theorem handled_none {R : State F → State F → Prop} {st st' : State F} {line : List Byte} (h : R st st') :
    Handled R st line (st', none) := ⟨h, by intro l' e; cases e⟩

theorem handleHome_sat (hs : ∀ l r, T l → r <:+ l → T r) (hp : ReadsWords fl Q T pair) {st : State F}
    {line : List Byte} (ht : T line) (hd : st.doWhile = false) :
    (handleHome pair st line).Sat (Handled (Inside fl rc T) st line) Q O := by
  unfold handleHome
  refine (words_steps (rc := rc) hs hp ?_ ht hd).bind fun r h => ?_
  · intro st a l v st' a' e
    split at e
    · cases e
    · injection e with e; injection e with e _; subst e; exact ⟨.refl _, rfl⟩
  · exact handled_some (.tail h.1 (.home _ _)) h.2

theorem g10Store_quiet (cs : Fin 9) (coords : Axis → Option F) : ∀ (as : List Axis) (st : State F),
    Quiet fl st (g10Store fl st cs coords as)
  | [], st => .refl st
  | a :: as, st => by
    simp only [g10Store]
    split
    · exact g10Store_quiet cs coords as st
    · exact (Quiet.store _ _ (.refl _)).trans (g10Store_quiet cs coords as _)

theorem g10Set_eq (st : State F) (cs : Fin 9) (coords : Axis → Option F) : ∃ st1, Quiet fl st st1 ∧
    g10Set fl st cs coords = { st1 with system := fun i => if i = cs then g10System fl st cs coords else st.system i } := by
  unfold g10Set
  generalize hs : ({ st with system := fun i => if i = cs then g10System fl st cs coords else st.system i } : State F) = a
  have hq : Quiet fl a (g10Store fl a cs coords allAxes) := g10Store_quiet cs coords allAxes a
  have hq' := quiet_reframe st.system st.g92 hq
  have e1 : reframe st.system st.g92 a = st := by rw [← hs]; rfl
  rw [e1] at hq'
  generalize g10Store fl a cs coords allAxes = b at hq hq'
  refine ⟨_, hq', ?_⟩
  have e3 : b.system = fun i => if i = cs then g10System fl st cs coords else st.system i := by rw [hq.eq, ← hs]
  have e4 : b.g92 = st.g92 := by rw [hq.eq, ← hs]
  rw [← e3, ← e4]
  rfl

theorem g10Apply_steps (st : State F) (g : G10 F) : Inside fl rc T st (g10Apply fl st g) := by
  unfold g10Apply
  split
  · exact .one (.say _ _ rfl)
  · split
    · exact .one (.say _ _ rfl)
    · simp only
      generalize (⟨(g.p - 1).toNat, _⟩ : Fin 9) = cs
      obtain ⟨st1, hq, e⟩ := g10Set_eq (fl := fl) st cs g.coords
      rw [e]
      split
      · rename_i hn
        have ho : st1.origin = st.origin := by rw [hq.eq]
        exact .tail (.one (.quiet hq)) (.shift _ ⟨rfl, rfl, rfl, rfl, rfl, rfl, rfl, rfl, id⟩ (ho.trans hn))
      · rename_i hn
        refine .tail (.one (.quiet hq)) (.modal ⟨?_, rfl, rfl, rfl, rfl, rfl, rfl, rfl, rfl, rfl, rfl, rfl, id⟩)
        have ho : st1.origin = st.origin := by rw [hq.eq]
        have hsys : st1.system = st.system := by rw [hq.eq]
        funext a
        show fl.add (State.currentOrigin _ a) _ = fl.add (State.currentOrigin _ a) _
        congr 1
        unfold State.currentOrigin
        simp only [ho]
        cases hor : st.origin with
        | machine => rfl
        | system i =>
          have : i ≠ cs := fun hi => hn (by rw [hor, hi])
          simp only [if_neg this, hsys]

theorem handleG10_sat (hs : ∀ l r, T l → r <:+ l → T r) (hp : ReadsWords fl Q T pair) {st : State F}
    {line : List Byte} (ht : T line) (hd : st.doWhile = false) :
    (handleG10 fl pair st line).Sat (Handled (Inside fl rc T) st line) Q O := by
  unfold handleG10
  refine (words_steps (rc := rc) hs hp ?_ ht hd).bind fun r h => ?_
  · intro st a l v st' a' e
    unfold g10Step at e
    repeat' split at e
    all_goals first | cases e; done | (injection e with e; injection e with e _; subst e; exact ⟨.refl _, rfl⟩)
  · exact handled_some (h.1.trans (g10Apply_steps _ _)) h.2

theorem handleG51_sat (hs : ∀ l r, T l → r <:+ l → T r) (hp : ReadsWords fl Q T pair) {st : State F}
    {line : List Byte} (ht : T line) (hd : st.doWhile = false) :
    (handleG51 pair st line).Sat (Handled (Inside fl rc T) st line) Q O := by
  unfold handleG51
  refine (words_steps (rc := rc) hs hp ?_ ht hd).bind fun r h => handled_some h.1 h.2
  intro st a l v st' a' e
  split at e
  · cases e
  · injection e with e; injection e with e _; subst e
    split
    · exact ⟨.one (.modal ⟨rfl, rfl, rfl, rfl, rfl, rfl, rfl, rfl, rfl, rfl, rfl, rfl, id⟩), rfl⟩
    · exact ⟨.refl _, rfl⟩

theorem handleG90_steps (st : State F) (v : F) : Inside fl rc T st (handleG90 fl st v) := by
  unfold handleG90
  split
  · exact .one (.modal ⟨rfl, rfl, rfl, rfl, rfl, rfl, rfl, rfl, rfl, rfl, rfl, rfl, id⟩)
  · split
    · exact .one (.modal ⟨rfl, rfl, rfl, rfl, rfl, rfl, rfl, rfl, rfl, rfl, rfl, rfl, id⟩)
    · split
      · exact .tail (.one (.say _ .error rfl)) (.modal ⟨rfl, rfl, rfl, rfl, rfl, rfl, rfl, rfl, rfl, rfl, rfl, rfl, id⟩)
      · split
        · exact .one (.modal ⟨rfl, rfl, rfl, rfl, rfl, rfl, rfl, rfl, rfl, rfl, rfl, rfl, id⟩)
        · exact .refl _

theorem changeCoordSystem_steps (st : State F) (v : F) : Inside fl rc T st (changeCoordSystem fl st v) := by
  unfold changeCoordSystem
  split
  · exact .one (.say _ .error rfl)
  · exact .tail (.one (.quiet (.store selectedParam _ (.refl _)))) (.shift _ ⟨rfl, rfl, rfl, rfl, rfl, rfl, rfl, rfl, id⟩ rfl)

theorem handleG92_sat (hs : ∀ l r, T l → r <:+ l → T r) (hp : ReadsWords fl Q T pair) {st : State F} {sub : F}
    {line : List Byte} (ht : T line) (hd : st.doWhile = false) :
    (handleG92 fl pair st sub line).Sat (Handled (Inside fl rc T) st line) Q O := by
  unfold handleG92
  split
  · have key := words_sat (I := fun st' (_ : Unit) => Inside fl rc T st (reframe st'.system st.g92 st')) hs hp
      (step := g92Step fl) ?_ ?_ ?_ (wordFuel line) st () line ht hd (.refl _) (by unfold wordFuel; omega)
    · refine (key.weaken fun _ h => h).bind fun r h => handled_some (.trans h.1 (setCurrentOffset_steps _ _ ⟨rfl, rfl, rfl, rfl, rfl, rfl, rfl, rfl, id⟩ rfl)) h.2
    · intro st1 st2 _ h q
      have e : st2.system = st1.system := by rw [q.eq]
      rw [e]
      exact .tail h (.quiet (quiet_reframe _ _ q))
    · intro st1 _ l h hl
      have e : (whileStart st1 l).system = st1.system := by unfold whileStart; split <;> rfl
      rw [e, whileStart_reframe]
      exact .tail h (.start _ _ hl)
    · intro st1 a1 l v st2 a2 h hd1 e
      unfold g92Step at e
      split at e
      · cases e
      · injection e with e; injection e with e _; subst e
        exact ⟨h, hd1⟩
  · split
    · exact handled_some (setCurrentOffset_steps _ _ ⟨rfl, rfl, rfl, rfl, rfl, rfl, rfl, rfl, id⟩ rfl) (List.suffix_refl _)
    · split
      · exact handled_some (setCurrentOffset_steps _ _ (.refl _) rfl) (List.suffix_refl _)
      · split
        · exact handled_some (setCurrentOffset_steps _ _ (.refl _) rfl) (List.suffix_refl _)
        · exact handled_some (.refl _) (List.suffix_refl _)

theorem pair_steps {st : State F} {line : List Byte} {r : State F × Option (Word F)} (h : PairOk fl T st line r) :
    Inside fl rc T st r.1 ∧ ∀ w, r.2 = some w → w.rest <:+ line := by
  obtain ⟨st1, hq, h⟩ := h
  rcases h with ⟨w, e, h3, _⟩ | e | ⟨l, hl, e⟩
  · subst e
    exact ⟨.one (.quiet hq), by intro w' e'; injection e' with e'; subst e'; exact h3.1⟩
  · subst e; exact ⟨.one (.quiet hq), by intro w' e'; cases e'⟩
  · subst e; exact ⟨.tail (.one (.quiet hq)) (.start _ _ hl), by intro w' e'; cases e'⟩

theorem setParam_sat (hp : ReadsWords fl Q T pair) {letter : Byte} {setter : F → Event F} {factor : F}
    (he : ∀ v, (setter v).plain = true) {st : State F} {line : List Byte} (ht : T line) (hd : st.doWhile = false) :
    (setParam fl pair letter setter factor st line).Sat (Handled (Inside fl rc T) st line) Q O := by
  unfold setParam
  refine Out.Sat.bind ((hp st line ht hd).weaken fun _ h => h) fun r h => ?_
  obtain ⟨h1, h2⟩ := pair_steps (rc := rc) h
  split
  · rename_i w e
    split
    · exact handled_some (h1.say _ (he _)) (h2 w e)
    · exact handled_some h1 (List.suffix_refl _)
  · exact handled_some h1 (List.suffix_refl _)

theorem moveApply_steps (st : State F) (m : MoveWords F) : Inside fl rc T st (moveApply rc st m) := by
  unfold moveApply
  split
  · have h1 : Inside fl rc T st (st.say (.clampToRange m.affected m.pos)) := .one (.say _ _ rfl)
    simp only [ask]
    generalize hs1 : st.say (.clampToRange m.affected m.pos) = st1 at h1 ⊢
    generalize rc.clamp st1.log m.pos = p
    generalize he : (if st1.modalG1 = true then Event.coordinatedMove m.feed p else Event.rapidMove m.feed p) = e
    have hm : MoveTo e p := by
      rw [← he]
      split
      · exact ⟨_, Or.inl rfl⟩
      · exact ⟨_, Or.inr rfl⟩
    unfold reached
    split
    · rename_i ha; exact .tail h1 (.moved _ e p hm ha)
    · rename_i ha; exact .tail h1 (.refused _ e p hm ha)
  · exact .refl _

/-! An axis letter without a command changes the position, then words are read; these do not touch the position, so they
can be read before it is changed. -/

/-- The same at another position. -/
def repos (p : Axes F) (st : State F) : State F := { st with pos := p }

theorem quiet_repos (p : Axes F) {a b : State F} (h : Quiet fl a b) : Quiet fl (repos p a) (repos p b) := by
  induction h with
  | refl => exact .refl _
  | store n v _ ih =>
    have e : ∀ c : State F, repos p (storeParameter c n v) = storeParameter (repos p c) n v := by
      intro c
      unfold storeParameter repos
      simp only
      split
      · rfl
      · split <;> rfl
    rw [e]
    exact .store n v ih
  | error _ ih => exact .error ih
  | done v _ ih => exact .done v ih

theorem whileStart_repos (p : Axes F) (st : State F) (l : List Byte) :
    repos p (whileStart st l) = whileStart (repos p st) l := by
  unfold whileStart
  split <;> rfl

theorem bareApply_steps (old : Axes F) (a : Axis) (v : F) (st : State F) (m : MoveWords F) (hp : st.pos = setAxis old a v)
    (hm : m.change = true) : Inside fl rc T (repos old st) (moveApply rc st m) := by
  unfold moveApply
  rw [if_pos hm]
  have h1 : Inside fl rc T (repos old st) (repos old (st.say (.clampToRange m.affected m.pos))) :=
    .one (.say (repos old st) (.clampToRange m.affected m.pos) rfl)
  simp only [ask]
  have hp1 : (st.say (.clampToRange m.affected m.pos)).pos = setAxis old a v := hp
  generalize hs1 : st.say (.clampToRange m.affected m.pos) = st1 at h1 hp1 ⊢
  generalize rc.clamp st1.log m.pos = p
  generalize he : (if st1.modalG1 = true then Event.coordinatedMove m.feed p else Event.rapidMove m.feed p) = e
  have hm : MoveTo e p := by
    rw [← he]
    split
    · exact ⟨_, Or.inl rfl⟩
    · exact ⟨_, Or.inr rfl⟩
  unfold reached
  split
  · rename_i ha
    exact .tail h1 (.moved (repos old st1) e p hm ha)
  · rename_i ha
    have := Micro.bareRefused (fl := fl) (rc := rc) (T := T) (repos old st1) a v e p hm ha
    have e1 : ({ (repos old st1).say e with pos := setAxis (repos old st1).pos a v } : State F) = st1.say e := by
      show ({ st1.say e with pos := setAxis old a v } : State F) = st1.say e
      rw [← hp1]
      rfl
    rw [e1] at this
    exact .tail h1 this

theorem bareMove_sat (hs : ∀ l r, T l → r <:+ l → T r) (hp : ReadsWords fl Q T pair) {st : State F} (a : Axis) (v : F)
    {line : List Byte} (ht : T line) (hd : st.doWhile = false) :
    (handleMove fl rc pair true (repos (setAxis st.pos a v) st) line).Sat (Handled (Inside fl rc T) st line) Q O := by
  unfold handleMove
  have key := words_sat (I := fun st' (m : MoveWords F) => Inside fl rc T st (repos st.pos st') ∧
    st'.pos = setAxis st.pos a v ∧ m.change = true) hs hp (step := moveStep fl) ?_ ?_ ?_ (wordFuel line)
    (repos (setAxis st.pos a v) st) ⟨true, fl.minusOne, (repos (setAxis st.pos a v) st).pos, fun _ => false⟩ line ht hd
    ⟨.refl _, rfl, rfl⟩ (by unfold wordFuel; omega)
  · refine (key.weaken fun _ h => h).bind fun r h => ?_
    exact handled_some (h.1.1.trans (bareApply_steps _ a v _ _ h.1.2.1 h.1.2.2)) h.2
  · intro st1 st2 _ h q
    exact ⟨.tail h.1 (.quiet (quiet_repos _ q)), by rw [q.eq]; exact h.2.1, h.2.2⟩
  · intro st1 _ l h hl
    refine ⟨?_, ?_, h.2.2⟩
    · rw [whileStart_repos]
      exact .tail h.1 (.start _ _ hl)
    · have : (whileStart st1 l).pos = st1.pos := by unfold whileStart; split <;> rfl
      rw [this]; exact h.2.1
  · intro st1 a1 l w st2 a2 h hd1 e
    unfold moveStep at e
    repeat' split at e
    all_goals first
      | cases e; done
      | (injection e with e; injection e with e e'; subst e e'
         first
          | exact ⟨⟨h.1, h.2.1, rfl⟩, hd1⟩
          | exact ⟨⟨.tail h.1 (.say (repos st.pos st1) _ rfl), h.2.1, h.2.2⟩, hd1⟩)

theorem handleMove_sat (hs : ∀ l r, T l → r <:+ l → T r) (hp : ReadsWords fl Q T pair) {force : Bool} {st : State F}
    {line : List Byte} (ht : T line) (hd : st.doWhile = false) :
    (handleMove fl rc pair force st line).Sat (Handled (Inside fl rc T) st line) Q O := by
  unfold handleMove
  refine (words_steps (rc := rc) hs hp ?_ ht hd).bind fun r h => handled_some (h.1.trans (moveApply_steps _ _)) h.2
  intro st a l v st' a' e
  unfold moveStep at e
  repeat' split at e
  all_goals first
    | cases e; done
    | (injection e with e; injection e with e _; subst e
       first
        | exact ⟨.refl _, rfl⟩
        | exact ⟨.one (.say _ _ rfl), rfl⟩)

theorem arcGen_target {normal : Axis} {cw : Bool} {position center target : Axes F} {ps : List (Axes F)}
    (h : arcGen fl normal cw position center target = some ps) : ∃ qs, ps = qs ++ [target] := by
  unfold arcGen at h
  split at h
  · cases h
  · simp only at h
    split at h
    · cases h
    · injection h with h; exact ⟨_, h.symm⟩

theorem arcApply_steps (st : State F) (cw : Bool) (m : ArcWords F) : Inside fl rc T st (arcApply fl rc st cw m) := by
  unfold arcApply
  split
  · exact .one (.say _ _ rfl)
  · split
    · exact .one (.say _ _ rfl)
    · split
      · exact .one (.say _ _ rfl)
      · rename_i offset _
        simp only [arcMove]
        generalize (fun a => if isLinear a = true then fl.add (st.pos a) (offset a) else st.pos a) = center
        cases hg : arcGen fl st.arcNormal cw st.pos center m.target with
        | none => exact .one (.ignored _ _ _ _ _ hg)
        | some ps =>
          obtain ⟨qs, rfl⟩ := arcGen_target hg
          unfold reached
          split
          · rename_i ha; exact .one (.curve _ _ _ _ ha)
          · rename_i ha; exact .one (.curveRefused _ _ _ ha)

theorem handleArc_sat (hs : ∀ l r, T l → r <:+ l → T r) (hp : ReadsWords fl Q T pair) {cw : Bool} {st : State F}
    {line : List Byte} (ht : T line) (hd : st.doWhile = false) :
    (handleArc fl rc pair cw st line).Sat (Handled (Inside fl rc T) st line) Q O := by
  unfold handleArc
  refine (words_steps (rc := rc) hs hp ?_ ht hd).bind fun r h => handled_some (h.1.trans (arcApply_steps _ _ _)) h.2
  intro st a l v st' a' e
  unfold arcStep at e
  simp only at e
  repeat' split at e
  all_goals first | cases e; done | (injection e with e; injection e with e _; subst e; exact ⟨.refl _, rfl⟩)

theorem splineGo_sat (hO : splineTimes fl 200 fl.zero = none → O) {st : State F} {feed : F}
    {cp1 cp2 target : Axes F} {rest line : List Byte} (hr : rest <:+ line) :
    (splineGo fl rc st feed cp1 cp2 target rest).Sat (Handled (Inside fl rc T) st line) Q O := by
  unfold splineGo splineMove
  split
  · rename_i e; exact hO e
  · rename_i ts _
    simp only [Out.bind, Out.Sat]
    generalize ts.map (fun t => bezierPoint fl t st.pos cp1 cp2 target) = ps
    refine handled_some ?_ hr
    unfold reached
    split
    · rename_i ha; exact .one (.curve _ _ _ _ ha)
    · rename_i ha; exact .one (.curveRefused _ _ _ ha)

theorem Handled.steps {a b : State F} {line : List Byte} {r : State F × Option (List Byte)}
    (h : Handled (Inside fl rc T) b line r) (hab : Inside fl rc T a b) : Handled (Inside fl rc T) a line r :=
  ⟨hab.trans h.1, h.2⟩

theorem handleSpline_sat (hO : splineTimes fl 200 fl.zero = none → O) (hs : ∀ l r, T l → r <:+ l → T r)
    (hp : ReadsWords fl Q T pair) {sub : F} {st : State F}
    {line : List Byte} (ht : T line) (hd : st.doWhile = false) :
    (handleSpline fl rc pair sub st line).Sat (Handled (Inside fl rc T) st line) Q O := by
  have err : ∀ st' : State F, Inside fl rc T st st' → Handled (Inside fl rc T) st line (st'.say .error, none) :=
    fun st' h => handled_none (h.say _ rfl)
  unfold handleSpline
  split
  · exact err _ (.refl _)
  · split
    · exact err _ (.refl _)
    · refine (words_steps (rc := rc) hs hp ?_ ht hd).bind fun r h => ?_
      · intro st a l v st' a' e
        unfold splineStep at e
        simp only at e
        repeat' split at e
        all_goals first | cases e; done | (injection e with e; injection e with e _; subst e; exact ⟨.refl _, rfl⟩)
      · obtain ⟨st1, m, rest, broken⟩ := r
        obtain ⟨h1, h2⟩ := h
        simp only at h1 h2 ⊢
        split
        · exact err _ h1
        · split
          · unfold cubicApply
            split
            · exact err _ h1
            · split
              · exact err _ h1
              · split
                · exact err _ h1
                · exact (splineGo_sat hO h2).mono fun r hr =>
                    hr.steps (h1.modal ⟨rfl, rfl, rfl, rfl, rfl, rfl, rfl, rfl, rfl, rfl, rfl, rfl, id⟩)
          · unfold quadraticApply
            split
            · exact err _ h1
            · split
              · exact err _ h1
              · exact (splineGo_sat hO h2).mono fun r hr =>
                  hr.steps (h1.modal ⟨rfl, rfl, rfl, rfl, rfl, rfl, rfl, rfl, rfl, rfl, rfl, rfl, id⟩)

theorem handleProbe_sat (hs : ∀ l r, T l → r <:+ l → T r) (hp : ReadsWords fl Q T pair) {st : State F}
    {line : List Byte} (ht : T line) (hd : st.doWhile = false) :
    (handleProbe fl rc pair st line).Sat (Handled (Inside fl rc T) st line) Q O := by
  unfold handleProbe
  refine (words_steps (rc := rc) hs hp ?_ ht hd).bind fun r h => ?_
  · intro st a l v st' a' e
    repeat' split at e
    all_goals first | cases e; done | (injection e with e; injection e with e _; subst e; exact ⟨.refl _, rfl⟩)
  · obtain ⟨st1, m, rest, _⟩ := r
    obtain ⟨h1, h2⟩ := h
    simp only at h1 h2 ⊢
    split
    · rename_i e
      exact handled_some (.tail h1 (.notProbed _ _ e)) h2
    · rename_i z e
      refine handled_some (Inside.trans (.tail h1 (.probed _ _ z e)) (setCurrentOffset_steps _ _ ?_ rfl)) h2
      exact ⟨rfl, rfl, rfl, rfl, rfl, rfl, rfl, rfl, id⟩

theorem handleM111_sat (hs : ∀ l r, T l → r <:+ l → T r) (hp : ReadsWords fl Q T pair) {st : State F}
    {line : List Byte} (ht : T line) (hd : st.doWhile = false) :
    (handleM111 rc pair st line).Sat (Handled (Inside fl rc T) st line) Q O := by
  unfold handleM111
  split
  · refine (words_steps (rc := rc) hs hp ?_ ht hd).bind fun r h => handled_some h.1 h.2
    intro st a l v st' a' e
    split at e
    · injection e with e; injection e with e _; subst e; exact ⟨.refl _, rfl⟩
    · cases e
  · exact handled_none (.refl _)

theorem receiverReads_sat (hp : ReadsWords fl Q T pair) : ∀ (n : Nat) (st : State F) (line : List Byte), T line →
    st.doWhile = false → line.length < n →
    (receiverReads rc pair n st line).Sat (Handled (Inside fl rc T) st line) Q O
  | 0, _, _, _, _, h => by omega
  | n + 1, st, line, ht, hd, hn => by
    have fin : ∀ (b : Bool) (st' : State F), Inside fl rc T st st' →
        Handled (Inside fl rc T) st line (st', if b then none else some line) := by
      intro b st' h
      cases b
      · exact handled_some h (List.suffix_refl _)
      · exact handled_none h
    simp only [receiverReads]
    split
    · refine Out.Sat.bind ((hp st line ht hd).weaken fun _ h => h) fun r h => ?_
      obtain ⟨h1, h2⟩ := pair_steps (rc := rc) h
      obtain ⟨st1, hq, h⟩ := h
      have hd1 : st1.doWhile = false := by rw [hq.eq]; exact hd
      rcases h with ⟨w, e, h3, h4⟩ | e | ⟨l, hl, e⟩
      · subst e
        simp only
        have h5 : Inside fl rc T st (st1.say (.word w.letter w.value)) := h1.say _ rfl
        split
        · have := h3.2
          exact (receiverReads_sat hp n (st1.say (.word w.letter w.value)) w.rest h4 hd1 (by omega)).mono fun r hr =>
            ⟨h5.trans hr.1, fun l e => (hr.2 l e).trans h3.1⟩
        · exact fin _ _ h5
      · subst e; exact fin _ _ h1
      · subst e; exact fin _ _ h1
    · exact fin _ _ (.refl _)

theorem unprocessed_sat (hp : ReadsWords fl Q T pair) {letter : Byte} {v : F} {st : State F}
    {line : List Byte} (ht : T line) (hd : st.doWhile = false) :
    (unprocessed rc pair st letter v line).Sat (Handled (Inside fl rc T) st line) Q O :=
  (receiverReads_sat hp _ (st.say (.unprocessed letter v)) line ht hd (by unfold wordFuel; omega)).mono fun _ h =>
    h.steps (.one (.say _ _ rfl))

theorem Out.Sat.ite {α : Type} {c : Prop} [Decidable c] {a b : Out α} {P : α → Prop} (ha : a.Sat P Q O)
    (hb : b.Sat P Q O) : (if c then a else b).Sat P Q O := by
  split
  · exact ha
  · exact hb

theorem modal_ok {st st' : State F} {line : List Byte} (h : SameCore fl st st') :
    (Out.ok (st', some line)).Sat (Handled (Inside fl rc T) st line) Q O :=
  handled_some (.one (.modal h)) (List.suffix_refl _)

theorem say_ok {st : State F} {e : Event F} {line : List Byte} (h : e.plain = true) :
    (Out.ok (st.say e, some line)).Sat (Handled (Inside fl rc T) st line) Q O :=
  handled_some (.one (.say _ _ h)) (List.suffix_refl _)

theorem commandG_sat (hO : splineTimes fl 200 fl.zero = none → O) (hs : ∀ l r, T l → r <:+ l → T r)
    (hp : ReadsWords fl Q T pair) {was : Bool} {v : F} {st : State F}
    {line : List Byte} (ht : T line) (hd : st.doWhile = false) :
    (commandG fl rc pair was st v line).Sat (Handled (Inside fl rc T) st line) Q O := by
  unfold commandG
  simp only
  refine Out.Sat.ite ((handleMove_sat (rc := rc) hs hp ht (st := { st with modalG1 := false }) hd).mono fun _ h => h.steps (.one (.modal ⟨rfl, rfl, rfl, rfl, rfl, rfl, rfl, rfl, rfl, rfl, rfl, rfl, id⟩))) ?_
  refine Out.Sat.ite ((handleMove_sat (rc := rc) hs hp ht (st := { st with modalG1 := true }) hd).mono fun _ h => h.steps (.one (.modal ⟨rfl, rfl, rfl, rfl, rfl, rfl, rfl, rfl, rfl, rfl, rfl, rfl, id⟩))) ?_
  refine Out.Sat.ite (handleArc_sat hs hp ht hd) ?_
  refine Out.Sat.ite (handleArc_sat hs hp ht hd) ?_
  refine Out.Sat.ite (setParam_sat hp (fun _ => rfl) ht hd) ?_
  refine Out.Sat.ite ((handleSpline_sat (rc := rc) hO hs hp ht (st := { st with haveSpline := was }) hd).mono fun _ h => h.steps (.one (.modal ⟨rfl, rfl, rfl, rfl, rfl, rfl, rfl, rfl, rfl, rfl, rfl, rfl, id⟩))) ?_
  refine Out.Sat.ite (handleG10_sat hs hp ht hd) ?_
  refine Out.Sat.ite (modal_ok ⟨rfl, rfl, rfl, rfl, rfl, rfl, rfl, rfl, rfl, rfl, rfl, rfl, id⟩) ?_
  refine Out.Sat.ite (modal_ok ⟨rfl, rfl, rfl, rfl, rfl, rfl, rfl, rfl, rfl, rfl, rfl, rfl, id⟩) ?_
  refine Out.Sat.ite (modal_ok ⟨rfl, rfl, rfl, rfl, rfl, rfl, rfl, rfl, rfl, rfl, rfl, rfl, id⟩) ?_
  refine Out.Sat.ite (modal_ok ⟨rfl, rfl, rfl, rfl, rfl, rfl, rfl, rfl, rfl, rfl, rfl, rfl, id⟩) ?_
  refine Out.Sat.ite (modal_ok ⟨rfl, rfl, rfl, rfl, rfl, rfl, rfl, rfl, rfl, rfl, rfl, rfl, id⟩) ?_
  refine Out.Sat.ite (handleHome_sat hs hp ht hd) ?_
  refine Out.Sat.ite (handleProbe_sat hs hp ht hd) ?_
  refine Out.Sat.ite (modal_ok ⟨rfl, rfl, rfl, rfl, rfl, rfl, rfl, rfl, rfl, rfl, rfl, rfl, id⟩) ?_
  refine Out.Sat.ite (handleG51_sat hs hp ht hd) ?_
  refine Out.Sat.ite (handled_some (changeCoordSystem_steps _ _) (List.suffix_refl _)) ?_
  refine Out.Sat.ite (handled_some (handleG90_steps _ _) (List.suffix_refl _)) ?_
  refine Out.Sat.ite (handleG92_sat hs hp ht hd) ?_
  exact unprocessed_sat hp ht hd

theorem commandM_sat (hs : ∀ l r, T l → r <:+ l → T r)
    (hp : ReadsWords fl Q T pair) {v : F} {st : State F} {line : List Byte} (ht : T line) (hd : st.doWhile = false) :
    (commandM fl rc pair st v line).Sat (fun r => Handled (Inside fl rc T) st line r ∨ r = (finishProgram fl st, some line)) Q O := by
  unfold commandM
  simp only
  refine Out.Sat.ite (.inr rfl) (Out.Sat.mono (P := Handled (Inside fl rc T) st line) ?_ fun _ h => .inl h)
  refine Out.Sat.ite (say_ok rfl) ?_
  refine Out.Sat.ite (say_ok rfl) ?_
  refine Out.Sat.ite (say_ok rfl) ?_
  refine Out.Sat.ite (modal_ok ⟨rfl, rfl, rfl, rfl, rfl, rfl, rfl, rfl, rfl, rfl, rfl, rfl, id⟩) ?_
  refine Out.Sat.ite (modal_ok ⟨rfl, rfl, rfl, rfl, rfl, rfl, rfl, rfl, rfl, rfl, rfl, rfl, id⟩) ?_
  refine Out.Sat.ite (setParam_sat hp (fun _ => rfl) ht hd) ?_
  refine Out.Sat.ite (setParam_sat hp (fun _ => rfl) ht hd) ?_
  refine Out.Sat.ite (say_ok rfl) ?_
  refine Out.Sat.ite ((setParam_sat hp (fun _ => rfl) ht hd).bind fun r h => ⟨h.1.say _ rfl, h.2⟩) ?_
  refine Out.Sat.ite (say_ok rfl) ?_
  refine Out.Sat.ite (handleM111_sat hs hp ht hd) ?_
  refine Out.Sat.ite (setParam_sat hp (fun _ => rfl) ht hd) ?_
  refine Out.Sat.ite (say_ok rfl) ?_
  refine Out.Sat.ite (handled_some (.one (.load _)) (List.suffix_refl _)) ?_
  exact unprocessed_sat hp ht hd

end

theorem ask_same_steps (st : State F) (f : F) : Inside fl rc T st (ask rc st (.coordinatedMove f st.pos)).1 := by
  cases ha : rc.accepts (.coordinatedMove f st.pos :: st.log) with
  | true => exact .one (.moved st _ st.pos ⟨_, Or.inl rfl⟩ ha)
  | false => exact .one (.refused st _ st.pos ⟨_, Or.inl rfl⟩ ha)

/-- What a command does: steps within the program, or the end of the program. -/
def Acts (fl : Num F) (rc : Receiver F) (T : List Byte → Prop) (a b : State F) : Prop :=
  Inside fl rc T a b ∨ ∃ l v, b = (finishProgram fl { a with haveSpline := false }).say (.commandDone l v)

theorem Acts.steps {a b : State F} (h : Acts fl rc T a b) : Steps fl rc T a b := by
  rcases h with h | ⟨l, v, h⟩
  · exact h.steps
  · subst h
    exact .tail (.finish (.one (.modal ⟨rfl, rfl, rfl, rfl, rfl, rfl, rfl, rfl, rfl, rfl, rfl, rfl, id⟩))) (.say _ _ rfl)

/-- **Every command consists of elementary steps, or ends the program.** -/
theorem commands_acts (hO : splineTimes fl 200 fl.zero = none → O) (hs : ∀ l r, T l → r <:+ l → T r) :
    CommandsAre fl rc Q T O (Acts fl rc T) := by
  intro pair hp st letter v line ht hd _
  have h0 : Inside fl rc T st { st with haveSpline := false } := .one (.modal ⟨rfl, rfl, rfl, rfl, rfl, rfl, rfl, rfl, rfl, rfl, rfl, rfl, id⟩)
  have done : ∀ {l : Byte} {v : F} {r : State F × Option (List Byte)} {a : State F}, Inside fl rc T st a →
      Handled (Inside fl rc T) a line r →
      Handled (Acts fl rc T) st line (r.1.say (.commandDone l v), r.2) :=
    fun ha h => ⟨.inl ((ha.trans h.1).say _ rfl), h.2⟩
  unfold command
  generalize hs0 : ({ st with haveSpline := false } : State F) = st0 at h0
  have hd0 : st0.doWhile = false := by rw [← hs0]; exact hd
  simp only
  refine Out.Sat.ite ((commandG_sat (rc := rc) hO hs hp ht hd0).bind fun r h => done h0 h) ?_
  refine Out.Sat.ite ((commandM_sat (rc := rc) hs hp ht hd0).bind fun r h => ?_) ?_
  · rcases h with h | h
    · exact done h0 h
    · subst h
      exact handled_some (.inr ⟨_, _, by rw [hs0]⟩) (List.suffix_refl _)
  refine Out.Sat.ite (done h0 (handled_some (ask_same_steps _ _) (List.suffix_refl _))) ?_
  refine Out.Sat.ite (handled_some (.inl h0) (List.suffix_refl _)) ?_
  split
  · exact (unprocessed_sat (rc := rc) hp ht hd0).bind fun r h => done h0 h
  · rename_i a _
    exact (bareMove_sat (rc := rc) hs hp a _ ht hd0).bind fun r h => done h0 h

theorem commands_steps (hO : splineTimes fl 200 fl.zero = none → O) (hs : ∀ l r, T l → r <:+ l → T r) :
    CommandsAre fl rc Q T O (Steps fl rc T) := fun pair hp st letter v line ht hd hi =>
  (commands_acts hO hs pair hp st letter v line ht hd hi).mono fun _ h => ⟨h.1.steps, h.2⟩

/-- **A program consists of elementary steps.** -/
theorem runLines_steps (hfl : fl.toFloat_.Ok) (hs : Safer fl Q T) (n : Nat) (ls : List (List Byte)) (st : State F)
    (ht : ∀ l ∈ ls, T l) (hx : Texts T st) : (runLines fl rc n st ls).Sat (Steps fl rc T st) Q True :=
  runLines_sat hfl hs (steps_blockRel hs) (commands_steps (fun _ => trivial) hs.suffix) n ls st ht hx

end BeagleG.Parser
