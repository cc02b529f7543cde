import Verif.Machine.PlaceProps
import Verif.Parser.ProgramProps
/-!
# Parser and machine control together

`GCodeParser` calls the methods of its `EventReceiver` (gcode-parser.h 181-325); in the program this is
`GCodeMachineControl::Impl` (gcode-machine-control.cc 81-138). The model of the parser writes down its calls and
asks a `Receiver` for the answers; the model of the machine control handles one call after the other. Here they are
put together: the machine handles the calls of the parser in their order, and its answers are those the parser got.

Simplifications:
* `unprocessed`: the words the machine reads are not related to the words in the line (any words are allowed).
* `input_idle` may be called at any time (it is called by the event loop between lines, gcode-streamer.cc 129-136).
* `change_spindle_speed`, `set_temperature`, `wait_temperature`, `gcode_command_done`, `gcode_block_done` and
  `inform_origin_offset` do not change the state of the machine model (gcode-machine-control.cc 365-373, 382-384; for
  the origin see `Machine.Report`).
-/
namespace BeagleG.Whole

variable {F β σ : Type}

/-- Number of an axis: `GCodeParserAxis`, gcode-parser.h 45-57, is the same enumeration in both. -/
def num : Parser.Axis → Planner.Axis
  | .X => 0 | .Y => 1 | .Z => 2 | .A => 3 | .B => 4 | .C => 5 | .U => 6 | .V => 7 | .W => 8 | .E => 9

/-- Axis with a number. gcode-parser.h 45-57. -/
def axisAt : Planner.Axis → Parser.Axis :=
  fun i => [Parser.Axis.X, .Y, .Z, .A, .B, .C, .U, .V, .W, .E].getD i.val .X

theorem axisAt_num (a : Parser.Axis) : axisAt (num a) = a := by cases a <;> rfl

theorem num_axisAt (i : Planner.Axis) : num (axisAt i) = i := by revert i; decide

theorem num_index (a : Parser.Axis) : (num a).val = a.index := by cases a <;> rfl

/-- `AxesRegister` and `AxisBitmap_t` as the machine sees them. gcode-parser.h 61, 64. -/
def regs {α : Type} (p : Parser.Axis → α) : Planner.Axis → α := fun i => p (axisAt i)

/-- The machine handles a call of the parser: the states before and after, with the answer the parser got. `log` are
the calls before. The calls at gcode-machine-control.cc 85-106. -/
def Handles (e : Machine.Env F β σ) (rc : Parser.Receiver F) (log : List (Parser.Event F)) (ev : Parser.Event F)
    (s s' : Machine.State F β σ) : Prop :=
  match ev with
  | .start => ∃ a, Machine.handle e .start s = some (a, s')
  | .finished b => ∃ a, Machine.handle e (.finished b) s = some (a, s')
  | .goHome axes => ∃ a, Machine.handle e (.home (regs axes)) s = some (a, s')
  | .probeAxis feed => Machine.handle e (.probe feed 2) s = some (.probed (rc.probe (ev :: log)), s')
  | .speedFactor v => ∃ a, Machine.handle e (.speedFactor v) s = some (a, s')
  | .fanSpeed v => ∃ a, Machine.handle e (.fan v) s = some (a, s')
  | .dwell _ => ∃ a, Machine.handle e .dwell s = some (a, s')
  | .motorsEnable on => ∃ a, Machine.handle e (.motors on) s = some (a, s')
  | .waitForStart => ∃ a, Machine.handle e .waitForStart s = some (a, s')
  | .coordinatedMove f p => Machine.handle e (.coordinated f (regs p)) s = some (.bool (rc.accepts (ev :: log)), s')
  | .rapidMove f p => Machine.handle e (.rapid f (regs p)) s = some (.bool (rc.accepts (ev :: log)), s')
  | .unprocessed l v => ∃ args a, Machine.handle e (.unprocessed (Char.ofNat l.toNat) v args) s = some (a, s')
  | .clampToRange aff p => s' = s ∧
      ∀ a, rc.clamp (ev :: log) p a = Machine.clampToRange e (regs aff) (regs p) (num a)
  | _ => s' = s

/-- The machine has handled the calls `log` (latest first) after the calls `log0`, and came from state `s0` to `s`.
After each call `P` holds for the calls so far and the state. Specification; no code of its own. -/
inductive Joint (e : Machine.Env F β σ) (rc : Parser.Receiver F)
    (P : List (Parser.Event F) → Machine.State F β σ → Prop) (log0 : List (Parser.Event F))
    (s0 : Machine.State F β σ) : List (Parser.Event F) → Machine.State F β σ → Prop
  | here : Joint e rc P log0 s0 log0 s0
  | idle {log : List (Parser.Event F)} {s s' : Machine.State F β σ} {first : Bool} {a : Machine.Answer F} :
      Joint e rc P log0 s0 log s → Machine.handle e (.idle first) s = some (a, s') → Joint e rc P log0 s0 log s'
  | call {log : List (Parser.Event F)} {s s' : Machine.State F β σ} {ev : Parser.Event F} :
      Joint e rc P log0 s0 log s → Handles e rc log ev s s' → P (ev :: log) s' → Joint e rc P log0 s0 (ev :: log) s'

/-- The planner is where the parser believes the machine is: at its position, rounded to whole steps.
Specification; no code of its own. -/
def Tracks (e : Machine.Env F β σ) (st : Parser.State F) (s : Machine.State F β σ) : Prop :=
  ∀ a, s.planner.position (num a) = e.A.lround (e.A.mul (st.pos a) (e.plan.stepsPerMm (num a)))

/-- Nothing has gone wrong with a call: a move was made; after homing, the axes asked for are at their home positions
`origin`; an arc that is too short to be made ends where the machine is already. Specification; no code of its own. -/
def Undisturbed (e : Machine.Env F β σ) (rc : Parser.Receiver F) (origin : Parser.Axes F) :
    List (Parser.Event F) → Machine.State F β σ → Prop
  | [], _ => True
  | ev :: log, s =>
    match ev with
    | .coordinatedMove _ _ => rc.accepts (ev :: log) = true
    | .rapidMove _ _ => rc.accepts (ev :: log) = true
    | .goHome axes => ∀ a, axes a = true →
        s.planner.position (num a) = e.A.lround (e.A.mul (origin a) (e.plan.stepsPerMm (num a)))
    | .arcIgnored target => ∀ a,
        s.planner.position (num a) = e.A.lround (e.A.mul (target a) (e.plan.stepsPerMm (num a)))
    | _ => True

end BeagleG.Whole
