import Verif.Whole.PositionProps
import Verif.Parser.CurveProps
import Verif.Machine.ProbeExample
/-!
# C80: examples, and what does not hold
-/
namespace BeagleG.Whole

open _root_.BeagleG.Parser (Receiver ratNum ratReceiver pickyReceiver text runLines Out)

section
variable {β σ : Type} (e : Machine.Env Rat β σ) (rc : Receiver Rat)

/-- The state after a call; `none` if the answer is not the one the parser got. -/
def reply (log : List (Parser.Event Rat)) (ev : Parser.Event Rat) (s : Machine.State Rat β σ) :
    Option (Machine.State Rat β σ) :=
  let moved (r : Option (Machine.Answer Rat × Machine.State Rat β σ)) : Option (Machine.State Rat β σ) :=
    match r with
    | some (.bool b, s') => if b = rc.accepts (ev :: log) then some s' else none
    | _ => none
  match ev with
  | .start => (Machine.handle e .start s).map Prod.snd
  | .finished b => (Machine.handle e (.finished b) s).map Prod.snd
  | .goHome axes => (Machine.handle e (.home (regs axes)) s).map Prod.snd
  | .probeAxis feed => match Machine.handle e (.probe feed 2) s with
    | some (.probed r, s') => if r = rc.probe (ev :: log) then some s' else none
    | _ => none
  | .speedFactor v => (Machine.handle e (.speedFactor v) s).map Prod.snd
  | .fanSpeed v => (Machine.handle e (.fan v) s).map Prod.snd
  | .dwell _ => (Machine.handle e .dwell s).map Prod.snd
  | .motorsEnable on => (Machine.handle e (.motors on) s).map Prod.snd
  | .waitForStart => (Machine.handle e .waitForStart s).map Prod.snd
  | .coordinatedMove f p => moved (Machine.handle e (.coordinated f (regs p)) s)
  | .rapidMove f p => moved (Machine.handle e (.rapid f (regs p)) s)
  | .unprocessed l v => (Machine.handle e (.unprocessed (Char.ofNat l.toNat) v []) s).map Prod.snd
  | .clampToRange aff p => if Parser.allAxes.all fun a =>
      rc.clamp (ev :: log) p a = Machine.clampToRange e (regs aff) (regs p) (num a) then some s else none
  | _ => some s

theorem reply_handles {log : List (Parser.Event Rat)} {ev : Parser.Event Rat} {s s' : Machine.State Rat β σ}
    (h : reply e rc log ev s = some s') : Handles e rc log ev s s' := by
  have mapped : ∀ {x : Option (Machine.Answer Rat × Machine.State Rat β σ)}, x.map Prod.snd = some s' →
      ∃ a, x = some (a, s') := by
    intro x h
    cases x with
    | none => cases h
    | some r => cases h; exact ⟨r.1, rfl⟩
  cases ev <;> simp only [reply] at h <;> simp only [Handles]
  case start => exact mapped h
  case finished => exact mapped h
  case goHome => exact mapped h
  case speedFactor => exact mapped h
  case fanSpeed => exact mapped h
  case dwell => exact mapped h
  case motorsEnable => exact mapped h
  case waitForStart => exact mapped h
  case unprocessed => exact ⟨[], mapped h⟩
  case probeAxis =>
    split at h
    · rename_i hx
      split at h
      · rename_i hr
        cases h
        rw [hx, hr]
      · cases h
    · cases h
  case coordinatedMove =>
    split at h
    · rename_i hx
      split at h
      · rename_i hr
        cases h
        rw [hx, hr]
      · cases h
    · cases h
  case rapidMove =>
    split at h
    · rename_i hx
      split at h
      · rename_i hr
        cases h
        rw [hx, hr]
      · cases h
    · cases h
  case clampToRange =>
    split at h
    · rename_i hx
      cases h
      refine ⟨rfl, fun a => ?_⟩
      have := List.all_eq_true.1 hx a (by cases a <;> decide)
      exact of_decide_eq_true this
    · cases h
  all_goals (cases h; rfl)

/-- The state after the calls (latest first). -/
def replay (log0 : List (Parser.Event Rat)) : List (Parser.Event Rat) → Machine.State Rat β σ →
    Option (Machine.State Rat β σ)
  | [], s => some s
  | ev :: es, s => (replay log0 es s).bind (reply e rc (es ++ log0) ev)

theorem replay_joint {log0 : List (Parser.Event Rat)} {s0 : Machine.State Rat β σ} :
    ∀ (es : List (Parser.Event Rat)) {s : Machine.State Rat β σ}, replay e rc log0 es s0 = some s →
      Joint e rc (fun _ _ => True) log0 s0 (es ++ log0) s
  | [], s, h => by cases h; exact .here
  | ev :: es, s, h => by
    simp only [replay] at h
    cases h1 : replay e rc log0 es s0 with
    | none => rw [h1] at h; cases h
    | some s1 =>
      rw [h1] at h
      exact .call (replay_joint es h1) (reply_handles e rc h) trivial

end

/-- The machine of `Machine.ratEnv`: X and Y have no switch, Z is homed at its upper end, at 1 mm. No switch is ever
pressed but the one of Z, which is released at once. -/
def machine : Machine.Env Rat Machine.Lag Unit := Machine.ratEnv fun t _ => t % 2 = 0

/-- A new parser at the home position. -/
def parser : Parser.State Rat := Parser.initial ratNum (some fun _ => none) fun a => Machine.homePos machine (num a)

/-- Position of the parser on an axis, and of the planner in steps (40 to a millimeter), after some text. -/
def places (rc : Receiver Rat) (lines : List (List Text.Byte)) (a : Parser.Axis) : Option (Rat × Int) :=
  match runLines ratNum rc 0 parser lines with
  | .ok st => (replay machine rc parser.log (st.log.take (st.log.length - parser.log.length)) Machine.ratState).map
      fun s => (st.pos a, s.planner.position (num a))
  | _ => none

/-- The parser only adds calls. -/
theorem run_suffix {F : Type} {fl : Parser.Num F} {rc : Receiver F} (hfl : fl.toFloat_.Ok) (n : Nat)
    (lines : List (List Text.Byte)) (st st' : Parser.State F) (hlines : ∀ l ∈ lines, Expr.Clean l)
    (hx : Parser.Texts Expr.Clean st) (hrun : runLines fl rc n st lines = .ok st') : st.log <:+ st'.log := by
  refine ((Parser.runLines_steps (rc := rc) hfl Parser.clean_safer n lines st hlines hx).ok hrun).induct
    (I := fun s => st.log <:+ s.log) ?_ ?_ ?_ (List.suffix_refl _)
  · intro a b h m
    obtain ⟨_, es, h2, _⟩ := Parser.micro_adds m
    rw [h2]
    exact h.trans (List.suffix_append _ _)
  · intro a h
    unfold Parser.startProgram
    split
    · exact h
    · exact h.trans (List.suffix_cons _ _)
  · intro a h
    obtain ⟨_, es, h2, _⟩ := Parser.initProgramDefaults_adds (fl := fl) (a.say (.finished false))
    show _ <:+ (Parser.initProgramDefaults fl (a.say (.finished false))).log
    rw [h2]
    exact (h.trans (List.suffix_cons _ _)).trans (List.suffix_append _ _)

/-- What `places` computes happens. -/
theorem places_happens {rc : Receiver Rat} {lines : List (List Text.Byte)} {a : Parser.Axis} {x : Rat} {k : Int}
    (hlines : ∀ l ∈ lines, ∀ c ∈ l, c ≠ 0) (h : places rc lines a = some (x, k)) :
    ∃ st s, runLines ratNum rc 0 parser lines = .ok st ∧
      Joint machine rc (fun _ _ => True) parser.log Machine.ratState st.log s ∧ st.pos a = x ∧
      s.planner.position (num a) = k := by
  unfold places at h
  cases hr : runLines ratNum rc 0 parser lines with
  | ok st =>
    rw [hr] at h
    dsimp only at h
    have hx : Parser.Texts Expr.Clean parser := by
      have e1 : parser.whileCond = [] := by decide +kernel
      have e2 : parser.whileBody = [] := by decide +kernel
      exact ⟨by rw [e1]; simp [Expr.Clean], by rw [e2]; simp [Expr.Clean]⟩
    obtain ⟨es, hes⟩ := run_suffix Parser.ratNum_ok 0 lines parser st hlines hx hr
    have ht : st.log.take (st.log.length - parser.log.length) = es := by
      rw [← hes, List.length_append, Nat.add_sub_cancel, List.take_left]
    rw [ht] at h
    cases hp : replay machine rc parser.log es Machine.ratState with
    | none => rw [hp] at h; cases h
    | some s =>
      rw [hp] at h
      cases h
      exact ⟨st, s, rfl, hes ▸ replay_joint machine rc es hp, rfl, rfl⟩
  | fault f => rw [hr] at h; cases h
  | outOfFuel => rw [hr] at h; cases h

/-- Parser and planner disagree about X after some text. -/
def Astray (rc : Receiver Rat) (lines : List (List Text.Byte)) (a : Parser.Axis) (x : Rat) (k : Int) : Prop :=
  ∃ st s, runLines ratNum rc 0 parser lines = .ok st ∧
    Joint machine rc (fun _ _ => True) parser.log Machine.ratState st.log s ∧ st.pos a = x ∧
    s.planner.position (num a) = k ∧ ¬ Tracks machine st s

theorem astray {rc : Receiver Rat} {lines : List (List Text.Byte)} {a : Parser.Axis} {x : Rat} {k : Int}
    (hlines : ∀ l ∈ lines, ∀ c ∈ l, c ≠ 0) (h : places rc lines a = some (x, k))
    (hk : k ≠ Machine.ratArith.lround (x * 40)) : Astray rc lines a x k := by
  obtain ⟨st, s, h1, h2, h3, h4⟩ := places_happens hlines h
  refine ⟨st, s, h1, h2, h3, h4, fun ht => hk ?_⟩
  have := ht a
  rw [h3, h4] at this
  exact this

/-- They begin at the same place. -/
theorem begin_together : Tracks machine parser Machine.ratState := by
  intro a
  revert a
  have : ∀ a ∈ Parser.allAxes, Machine.ratState.planner.position (num a) =
      machine.A.lround (machine.A.mul (parser.pos a) (machine.plan.stepsPerMm (num a))) := by decide +kernel
  exact fun a => this a (by cases a <;> decide)

/-- Non-vacuity of `C80_agree_partial`: a program with relative moves, homing and an arc. -/
example : places (ratReceiver true) [text "G1 X5 F60", text "G91", text "G0 X2 Y3", text "G28 Z0"] .X = some (7, 280) ∧
    places (ratReceiver true) [text "G1 X5 F60", text "G91", text "G0 X2 Z0", text "G28 Z0"] .Z = some (1, 40) := by
  constructor <;> decide +kernel

/-- **C80 does not hold for homing of an axis without a switch**: the parser then takes X to be at 0, the machine is at
5 mm. A line that only sets the feed rate then moves X to 0, because it asks for a move to the position of the parser
(gcode-parser.cc 1954-1958). -/
theorem C80_home_without_switch :
    Astray (ratReceiver true) [text "G1 X5 F60", text "G28 X0"] .X 0 200 ∧
    places (ratReceiver true) [text "G1 X5 F60", text "G28 X0", text "F500"] .X = some (0, 0) :=
  ⟨astray (by decide) (by decide +kernel) (by decide +kernel), by decide +kernel⟩

/-- **C80 does not hold for a line with only an axis, out of range**: the move is refused, but the parser takes the
machine to be there. A relative move by which the machine should go to X1 is refused as well then. -/
theorem C80_bare_axis_refused :
    Astray (pickyReceiver 1) [text "G0 ", text "X500"] .X 500 0 ∧
    Astray { ratReceiver true with accepts := fun _ => false } [text "G0 ", text "X500", text "G91", text "G0 X1"] .X 500 0 :=
  ⟨astray (by decide) (by decide +kernel) (by decide +kernel), astray (by decide) (by decide +kernel) (by decide +kernel)⟩

/-- **C80 does not hold for an arc around the point where it starts**: it is not made, the parser takes the machine to
be at its end. -/
theorem C80_arc_ignored : Astray (ratReceiver true) [text "G2 X10 I0 J0 F60"] .X 10 0 :=
  astray (by decide) (by decide +kernel) (by decide +kernel)

/-- **C80 does not hold for an arc that leaves the range**: the pieces up to there are made, but the parser takes the
machine to be where the arc starts. -/
theorem C80_arc_interrupted : Astray (pickyReceiver 27) [text "G3 X1 Y1 I1 E200 F60"] .E 0 4000 :=
  astray (by decide) (by decide +kernel) (by decide +kernel)

end BeagleG.Whole
