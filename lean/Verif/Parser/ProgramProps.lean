import Verif.Parser.FlowProps
/-!
# The parser: programs begin and end (C59)
-/
namespace BeagleG.Parser
open Text Expr

variable {F : Type} {fl : Num F} {rc : Receiver F} {T : List Byte → Prop}

/-- Whether the last program that began has not ended, according to the events (latest first). -/
def running : List (Event F) → Bool
  | [] => false
  | .start :: _ => true
  | .finished _ :: _ => false
  | _ :: l => running l

/-- Events that begin or end a program. -/
def Event.bracket : Event F → Bool
  | .start => true
  | .finished _ => true
  | _ => false

/-- What may be announced without a program: the end of a line or of a command, errors, and that temperature, fan,
speed and offset are back at their defaults. -/
inductive Outside (fl : Num F) : Event F → Prop
  | error : Outside fl .error
  | blockDone : Outside fl .blockDone
  | commandDone (l : Byte) (v : F) : Outside fl (.commandDone l v)
  | temperature : Outside fl (.temperature fl.zero)
  | fanSpeed : Outside fl (.fanSpeed fl.zero)
  | speedFactor : Outside fl (.speedFactor fl.one)
  | originOffset (o : Axes F) (n : FrameName) : Outside fl (.originOffset o n)

/-- Events (latest first): a program begins only if none is running, ends only if one is running, and everything
but the events described by `Outside` happens while a program is running. -/
def Bracketed (fl : Num F) : List (Event F) → Prop
  | [] => True
  | e :: l => Bracketed fl l ∧
    ((e = .start ∧ running l = false) ∨ ((∃ b, e = .finished b) ∧ running l = true) ∨
      (e.bracket = false ∧ (running l = true ∨ Outside fl e)))

theorem running_append {es : List (Event F)} (h : ∀ e ∈ es, e.bracket = false) (l : List (Event F)) :
    running (es ++ l) = running l := by
  induction es with
  | nil => rfl
  | cons e es ih =>
    rw [← ih fun e he => h e (by simp [he])]
    have := h e (by simp)
    cases e <;> simp_all [running, Event.bracket]

theorem bracketed_append {es : List (Event F)} (h : ∀ e ∈ es, e.bracket = false) {l : List (Event F)}
    (hl : Bracketed fl l) (ho : running l = true ∨ ∀ e ∈ es, Outside fl e) : Bracketed fl (es ++ l) := by
  induction es with
  | nil => exact hl
  | cons e es ih =>
    refine ⟨ih (fun e he => h e (by simp [he])) (ho.imp_right fun ho e he => ho e (by simp [he])), .inr (.inr ⟨h e (by simp), ?_⟩)⟩
    have hr : running (es.append l) = running l := running_append (fun e he => h e (List.mem_cons_of_mem _ he)) l
    rw [hr]
    exact ho.imp_right fun ho => ho e (by simp)

/-- The events of a step and whether a program is in progress. -/
def Adds (P : Event F → Prop) (a b : State F) : Prop :=
  b.inProgress = a.inProgress ∧ ∃ es, b.log = es ++ a.log ∧ ∀ e ∈ es, e.bracket = false ∧ P e

theorem Adds.refl {P : Event F → Prop} (a : State F) : Adds P a a := ⟨rfl, [], rfl, by simp⟩

theorem Adds.trans {P : Event F → Prop} {a b c : State F} (h : Adds P a b) (h' : Adds P b c) : Adds P a c := by
  obtain ⟨h1, es, h2, h3⟩ := h
  obtain ⟨h1', es', h2', h3'⟩ := h'
  refine ⟨h1'.trans h1, es' ++ es, by rw [h2', h2, List.append_assoc], ?_⟩
  intro e he
  rcases List.mem_append.1 he with he | he
  · exact h3' e he
  · exact h3 e he

theorem Adds.one {P : Event F → Prop} {a b : State F} (e : Event F) (hb : e.bracket = false) (hp : P e)
    (hl : b.log = e :: a.log) (hi : b.inProgress = a.inProgress) : Adds P a b :=
  ⟨hi, [e], hl, by simp [hb, hp]⟩

theorem quiet_adds {a b : State F} (h : Quiet fl a b) : Adds (Outside fl) a b := by
  induction h with
  | refl => exact .refl _
  | store n v _ ih =>
    refine ih.trans ?_
    unfold storeParameter
    split
    · exact .refl _
    · split
      · exact .one .error rfl .error rfl rfl
      · exact ⟨rfl, [], rfl, by simp⟩
  | error _ ih => exact ih.trans (.one .error rfl .error rfl rfl)
  | done v _ ih => exact ih.trans (.one _ rfl (.commandDone 35 v) rfl rfl)

theorem whileStart_adds (a : State F) (l : List Byte) : Adds (Outside fl) a (whileStart a l) := by
  unfold whileStart
  split
  · exact .one .error rfl .error rfl rfl
  · exact ⟨rfl, [], rfl, by simp⟩

theorem moves_adds (feed : F) (ps : List (Axes F)) (st : State F) :
    Adds (fun _ => True) st (moves rc feed st ps).1 := by
  induction ps generalizing st with
  | nil => exact .refl _
  | cons p ps ih =>
    have h1 : Adds (fun _ => True) st (ask rc st (.coordinatedMove feed p)).1 := .one _ rfl trivial rfl rfl
    simp only [moves]
    split
    · exact h1.trans (ih _)
    · exact h1

theorem Adds.weaken {P P' : Event F → Prop} {a b : State F} (h : Adds P a b) (hp : ∀ e, P e → P' e) : Adds P' a b :=
  ⟨h.1, h.2.imp fun _ h => ⟨h.1, fun e he => ⟨(h.2 e he).1, hp e (h.2 e he).2⟩⟩⟩

theorem moveTo_bracket {e : Event F} {p : Axes F} (h : MoveTo e p) : e.bracket = false := by
  obtain ⟨f, rfl | rfl⟩ := h <;> rfl

theorem micro_adds {a b : State F} (h : Micro fl rc T a b) : Adds (fun _ => True) a b := by
  cases h with
  | quiet h => exact (quiet_adds h).weaken fun _ _ => trivial
  | start l _ => exact (whileStart_adds (fl := fl) a l).weaken fun _ _ => trivial
  | collect l _ _ => exact ⟨rfl, [], rfl, by simp⟩
  | say e h =>
    refine .one e ?_ trivial rfl rfl
    cases e <;> first | rfl | cases h
  | modal h => exact ⟨h.rest.inProgress, [], h.rest.log, by simp⟩
  | shift name h _ => exact ⟨h.inProgress, [_], by rw [← h.log]; rfl, by simp [Event.bracket]⟩
  | load => exact .one .loadParams rfl trivial rfl rfl
  | moved e p h _ => exact .one e (moveTo_bracket h) trivial rfl rfl
  | refused e p h _ => exact .one e (moveTo_bracket h) trivial rfl rfl
  | curve feed ps target _ =>
    have := moves_adds (rc := rc) feed (ps ++ [target]) a
    exact ⟨this.1, this.2⟩
  | curveRefused feed ps _ => exact moves_adds feed ps a
  | ignored _ _ _ _ _ => exact .one (.arcIgnored _) rfl trivial rfl rfl
  | bareRefused _ _ e p h _ => exact .one e (moveTo_bracket h) trivial rfl rfl
  | home flags => exact .one _ rfl trivial rfl rfl
  | probed feed z _ => exact .one (.probeAxis feed) rfl trivial rfl rfl
  | notProbed feed _ => exact .one (.probeAxis feed) rfl trivial rfl rfl

theorem inside_adds {a b : State F} (h : Inside fl rc T a b) : Adds (fun _ => True) a b := by
  induction h with
  | refl => exact .refl _
  | tail _ m ih => exact ih.trans (micro_adds m)

/-- The events are bracketed, and the parser knows whether a program is running. -/
def Told (fl : Num F) (st : State F) : Prop := Bracketed fl st.log ∧ running st.log = st.inProgress

theorem Told.outside {a b : State F} (h : Told fl a) (hb : Adds (Outside fl) a b) : Told fl b := by
  obtain ⟨h1, es, h2, h3⟩ := hb
  refine ⟨?_, ?_⟩
  · rw [h2]; exact bracketed_append (fun e he => (h3 e he).1) h.1 (.inr fun e he => (h3 e he).2)
  · rw [h2, running_append fun e he => (h3 e he).1, h1, h.2]

theorem Told.inside {a b : State F} (h : Told fl a) (hi : a.inProgress = true) (hb : Adds (fun _ => True) a b) :
    Told fl b := by
  obtain ⟨h1, es, h2, h3⟩ := hb
  refine ⟨?_, ?_⟩
  · rw [h2]; exact bracketed_append (fun e he => (h3 e he).1) h.1 (.inl (h.2.trans hi))
  · rw [h2, running_append fun e he => (h3 e he).1, h1, h.2]

theorem Told.start {a : State F} (h : Told fl a) : Told fl (startProgram a) := by
  unfold startProgram
  split
  · exact h
  · rename_i hi
    have : a.inProgress = false := by simpa using hi
    exact ⟨⟨h.1, .inl ⟨rfl, h.2.trans this⟩⟩, rfl⟩

theorem initProgramDefaults_adds (a : State F) : Adds (Outside fl) a (initProgramDefaults fl a) := by
  refine ⟨rfl, [.temperature fl.zero, .fanSpeed fl.zero, .speedFactor fl.one,
    .originOffset (fun b => fl.add (a.currentOrigin b) fl.zero) .home], rfl, ?_⟩
  intro e he
  simp only [List.mem_cons, List.not_mem_nil, or_false] at he
  rcases he with rfl | rfl | rfl | rfl
  · exact ⟨rfl, .temperature⟩
  · exact ⟨rfl, .fanSpeed⟩
  · exact ⟨rfl, .speedFactor⟩
  · exact ⟨rfl, .originOffset _ _⟩

theorem Told.finish {a : State F} (h : Told fl a) (hi : a.inProgress = true) : Told fl (finishProgram fl a) := by
  have h1 : Told fl { a.say (.finished false) with inProgress := false } :=
    ⟨⟨h.1, .inr (.inl ⟨⟨_, rfl⟩, h.2.trans hi⟩)⟩, rfl⟩
  exact h1.outside (initProgramDefaults_adds _)

/-- Steps after which the events are still bracketed. -/
def TellSteps (fl : Num F) (rc : Receiver F) (T : List Byte → Prop) (a b : State F) : Prop :=
  Steps fl rc T a b ∧ (Told fl a → Told fl b)

theorem tellSteps_blockRel {Q : Fault → Prop} (hs : Safer fl Q T) : BlockRel fl T (TellSteps fl rc T) where
  refl _ := ⟨.refl _, id⟩
  trans h h' := ⟨h.1.trans h'.1, h'.2 ∘ h.2⟩
  texts h := (steps_blockRel (rc := rc) hs).texts h.1
  quiet h := ⟨(steps_blockRel hs).quiet h, fun ht => ht.outside (quiet_adds h)⟩
  start a l h := ⟨(steps_blockRel hs).start a l h, fun ht => ht.outside (whileStart_adds a l)⟩
  collect a l h hd := ⟨(steps_blockRel hs).collect a l h hd, fun ht => ht.outside ⟨rfl, [], rfl, by simp⟩⟩
  endLoop a := ⟨(steps_blockRel hs).endLoop a, fun ht => ht.outside ⟨rfl, [], rfl, by simp⟩⟩
  program a := ⟨(steps_blockRel hs).program a, Told.start⟩
  block a := ⟨(steps_blockRel hs).block a, fun ht => ht.outside (.one _ rfl .blockDone rfl rfl)⟩

theorem commands_tell {Q : Fault → Prop} {O : Prop} (hO : splineTimes fl 200 fl.zero = none → O)
    (hs : ∀ l r, T l → r <:+ l → T r) : CommandsAre fl rc Q T O (TellSteps fl rc T) := by
  intro pair hp st letter v line ht hd hi
  refine (commands_acts hO hs pair hp st letter v line ht hd hi).mono fun r h => ⟨⟨h.1.steps, fun ht => ?_⟩, h.2⟩
  rcases h.1 with h | ⟨l, v, h⟩
  · exact ht.inside hi (inside_adds h)
  · rw [h]
    have h1 : Told fl { st with haveSpline := false } := ht
    exact (h1.finish hi).outside (.one _ rfl (.commandDone l v) rfl rfl)

/-- **C59 for the lines of one stream. Programs are announced properly**: whatever lines are parsed, the beginning of a program is announced
exactly once before its first command, its end only if one is running, nothing is done without a program, and the
parser always knows whether a program is running. -/
theorem C59_program_events_partial (hfl : fl.toFloat_.Ok) (n : Nat) (lines : List (List Byte)) (st st' : State F)
    (hlines : ∀ l ∈ lines, Clean l) (hx : Texts Clean st) (ht : Told fl st)
    (hrun : runLines fl rc n st lines = .ok st') : Told fl st' :=
  ((runLines_sat (rc := rc) hfl clean_safer (tellSteps_blockRel clean_safer)
    (commands_tell (fun _ => trivial) (clean_safer (fl := fl)).suffix) n lines st hlines hx).ok hrun).2 ht

theorem initCoordSystems_adds (a : State F) : Adds (Outside fl) a (initCoordSystems fl a) := by
  have hsys : Adds (Outside fl) a { a with system := loadSystems fl a } := ⟨rfl, [], rfl, by simp⟩
  have hinf : ∀ (b : State F) (n : FrameName), Adds (Outside fl) b (informOrigin fl b n) := fun b n => .one _ rfl (.originOffset _ _) rfl rfl
  unfold initCoordSystems
  simp only
  split
  · refine (hsys.trans (quiet_adds (.store selectedParam fl.one (.refl _)))).trans (Adds.trans ?_ (hinf _ _))
    exact ⟨rfl, [], rfl, by simp⟩
  · refine hsys.trans (Adds.trans ?_ (hinf _ _))
    exact ⟨rfl, [], rfl, by simp⟩

/-- A new parser has told nothing that needs a program. -/
theorem C59_initial (params : Option (List Byte → Option F)) (home : Axes F) : Told fl (initial fl params home) ∧
    (initial fl params home).inProgress = false := by
  have key : ∀ a : State F, Told fl a → a.inProgress = false →
      Told fl (initCoordSystems fl (initProgramDefaults fl a)) ∧
        (initCoordSystems fl (initProgramDefaults fl a)).inProgress = false := by
    intro a h hi
    have h1 := initProgramDefaults_adds (fl := fl) a
    have h2 := initCoordSystems_adds (fl := fl) (initProgramDefaults fl a)
    exact ⟨(h.outside h1).outside h2, (h2.1.trans h1.1).trans hi⟩
  exact key _ ⟨trivial, rfl⟩ rfl

/-- **A command never runs without an announced program**: if a line causes a move, homing, probing or anything else
that is not described by `Outside`, then at that moment the last announcement was a beginning. -/
theorem C59_within {log before after : List (Event F)} {e : Event F} (h : Bracketed fl log)
    (hl : log = after ++ e :: before) (he : ¬ Outside fl e) (hs : e ≠ .start) : running before = true := by
  subst hl
  induction after with
  | nil =>
    rcases h.2 with ⟨h, _⟩ | ⟨_, h⟩ | ⟨_, h | h⟩
    · exact absurd h hs
    · exact h
    · exact h
    · exact absurd h he
  | cons a after ih => exact ih h.1

/-- Between two beginnings there is an end. -/
theorem C59_once {log before between after : List (Event F)} (h : Bracketed fl log)
    (hl : log = after ++ .start :: (between ++ .start :: before)) : ∃ b, .finished b ∈ between := by
  subst hl
  induction after with
  | cons a after ih => exact ih h.1
  | nil =>
    have hr : running (between ++ Event.start :: before) = false := by
      rcases h.2 with ⟨_, h⟩ | ⟨⟨_, h⟩, _⟩ | ⟨h, _⟩
      · exact h
      · cases h
      · cases h
    clear h
    induction between with
    | nil => cases hr
    | cons e es ih =>
      by_cases he : ∃ b, e = .finished b
      · obtain ⟨b, rfl⟩ := he; exact ⟨b, by simp⟩
      · have : running (es ++ Event.start :: before) = false := by
          cases e <;> first | exact hr | exact absurd ⟨_, rfl⟩ he | cases hr
        obtain ⟨b, hb⟩ := ih this
        exact ⟨b, by simp [hb]⟩

/-- The end of a stream, gcode-streamer.cc line 90 and gcode-parser.cc line 2003: the receiver is told by the
streamer, the parser does not learn about it. -/
def endOfStream (st : State F) : State F := st.say (.finished true)

/-- For examples: is this a beginning? -/
def Event.isStart : Event F → Bool
  | .start => true
  | _ => false

/-- **After the end of a stream without M2 or M30 the next program is not announced** (and with auto-fan-pwm
configured, the fan is not switched on for it, gcode-machine-control.cc 781-784): the second stream makes a move,
and there is no beginning since the end of the first one. -/
theorem C59_next_stream : ∃ st st', runLines exNum (exReceiver true) 0 exState [text "G1 X1"] = .ok st ∧
    runLines exNum (exReceiver true) 0 (endOfStream st) [text "G1 X2"] = .ok st' ∧
    running (endOfStream st).log = false ∧ (endOfStream st).inProgress = true ∧ running st'.log = false ∧
    (st'.log.filter Event.bracket).map Event.isStart = [false, true] ∧
    (st'.log.filter Event.isMove).length = 2 :=
  ⟨_, _, rfl, rfl, by decide +kernel⟩

/-- Non-vacuity: two programs in one stream, each of them announced. -/
example : ∃ st, runLines exNum (exReceiver true) 0 exState [text "G1 X1", text "M30", text "#1=5", text "G1 X2"] = .ok st ∧
    (st.log.filter Event.bracket).map Event.isStart = [true, false, true] :=
  ⟨_, rfl, by decide +kernel⟩

end BeagleG.Parser
