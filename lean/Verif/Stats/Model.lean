import Verif.Machine.Model
/-!
# Model of `/repo/src/determine-print-stats.cc`

Statistics of a G-code file: a receiver that looks at the events of the parser and passes them on to the
machine control, which sends its segments to a queue that only sums up their time.

Simplifications:
* The statistics are part of the state of the motor backend, because both the receiver and the queue
  write them. Next to them, the backend keeps a record of what was added to the time; the code has no such
  record, and nothing depends on it.
* Events of the parser that neither change the statistics nor the machine control are `other`:
  temperatures, `inform_origin_offset`, and those that are not overridden here and so never reach the
  machine control: `wait_for_start`, `input_idle`, `probe_axis`, `clamp_to_range`, `change_spindle_speed`,
  `gcode_command_done`.
* Which events the parser sends is arbitrary (the parser is the topic of other files).
* `int` does not overflow in `2 * max_steps`.
-/
namespace BeagleG.Stats

open Planner (Axis Motor Arith Command)
open Hardware Machine

variable {F σ : Type}

/-- `BeagleGPrintStats`, determine-print-stats.h 26-33. -/
structure Stats (F : Type) where
  time : F
  xMin : F
  xMax : F
  yMin : F
  yMax : F
  zMin : F
  zMax : F
  lastZ : F
  filament : F

/-- What contributes to the time. Recorded for the specification at determine-print-stats.cc 62, 112. -/
inductive Item (F : Type) where
  | segment (cmd : Command F)
  | dwell (ms : F)

/-- The statistics and the record. determine-print-stats.h 22-40 and the record of the specification. -/
structure Book (F : Type) where
  stats : Stats F
  items : List (Item F)

section
variable (A : Arith F)

/-- The initial values, lines 129-132: `y_min` is set twice, `z_min` stays zero. -/
def initial : Stats F where
  time := A.zero
  xMin := A.ofInt 10000000
  xMax := A.zero
  yMin := A.ofInt 10000000
  yMax := A.zero
  zMin := A.zero
  zMax := A.zero
  lastZ := A.zero
  filament := A.zero

/-- `std::max` determine-print-stats.cc 84, 108. -/
def fmax (a b : F) : F := if A.lt a b then b else a

/-- `update_coordinate_stats` and `set_min_max`, lines 82-94. X, Y, Z, E are the axes 0, 1, 2, 9. -/
def updateCoordinates (s : Stats F) (pos : Axis → F) : Stats F where
  time := s.time
  xMin := A.min (pos 0) s.xMin
  xMax := fmax A (pos 0) s.xMax
  yMin := A.min (pos 1) s.yMin
  yMax := fmax A (pos 1) s.yMax
  zMin := A.min (pos 2) s.zMin
  zMax := fmax A (pos 2) s.zMax
  lastZ := if A.lt s.filament (pos 9) then pos 2 else s.lastZ
  filament := pos 9

/-- The largest number of steps, lines 105-109. -/
def maxSteps (cmd : Command F) : Int :=
  (List.finRange 8).foldl (fun acc m => max ((cmd.steps m).natAbs : Int) acc) 0

/-- The time of a segment, line 112. -/
def segmentTime (cmd : Command F) : F :=
  A.toFloat (A.div (A.toFloat (A.ofInt (2 * maxSteps cmd))) (A.toFloat (A.add cmd.v0 cmd.v1)))

/-- The time of an item: line 112 and line 61. -/
def itemTime : Item F → F
  | .segment cmd => segmentTime A cmd
  | .dwell ms => A.toFloat (A.div ms (A.ofInt 1000))

/-- `total_time_seconds += ..` determine-print-stats.cc 62, 112. -/
def spend (b : Book F) (i : Item F) : Book F where
  stats := { b.stats with time := A.toFloat (A.add b.stats.time (itemTime A i)) }
  items := b.items ++ [i]

/-- `StatsSegmentQueue`, lines 100-124. -/
def statsQueue : Queue F (Book F) where
  enqueue x cmd := ((x.1, spend A x.2 (.segment cmd)), true)
  waitQueueEmpty x := x
  setExternalPosition x _ _ := x
  motorEnable x _ := x
  position _ := none

end

/-- The events of the parser as far as they matter here. determine-print-stats.cc 46-79. -/
inductive Event (F : Type) where
  | start
  | finished (endOfStream : Bool)
  | speedFactor (factor : F)
  | fan (speed : F)
  | motors (enable : Bool)
  | home (axes : Axis → Bool)
  | dwell (ms : F)
  | rapid (feed : F) (pos : Axis → F)
  | coordinated (feed : F) (pos : Axis → F)
  | unprocessed (letter : Char) (value : F) (args : List (Char × F))
  | other

/-- What is passed on to the machine control, lines 45-78. -/
def Event.delegated : Event F → Option (Machine.Event F)
  | .start => some .start
  | .finished eos => some (.finished eos)
  | .speedFactor f => some (.speedFactor f)
  | .fan v => some (.fan v)
  | .motors on => some (.motors on)
  | .home _ => none
  | .dwell _ => some .dwell
  | .rapid feed pos => some (.rapid feed pos)
  | .coordinated feed pos => some (.coordinated feed pos)
  | .unprocessed l v args => some (.unprocessed l v args)
  | .other => none

/-- What is noted before the event is passed on. determine-print-stats.cc 61-75, 86-94. -/
def Event.note (A : Arith F) : Event F → Book F → Book F
  | .dwell ms, b => spend A b (.dwell ms)
  | .rapid _ pos, b => { b with stats := updateCoordinates A b.stats pos }
  | .coordinated _ pos, b => { b with stats := updateCoordinates A b.stats pos }
  | _, b => b

section
variable (e : Env F (Book F) σ)

/-- The book of a state. The member `stats_`, determine-print-stats.cc 96, 123. -/
abbrev book (s : Machine.State F (Book F) σ) : Book F := s.planner.backend.2

/-- The state with another book. The member `stats_`, determine-print-stats.cc 96, 123. -/
def withBook (s : Machine.State F (Book F) σ) (b : Book F) : Machine.State F (Book F) σ :=
  { s with planner := { s.planner with backend := (s.planner.backend.1, b) } }

/-- `StatsCollectingEventDelegator`, lines 39-98, on one event. -/
def handle (ev : Event F) (s : Machine.State F (Book F) σ) : Option (Machine.State F (Book F) σ) :=
  let s := withBook s (ev.note e.A (book s))
  match ev.delegated with
  | none => some s
  | some m => (Machine.handle e m s).map Prod.snd

/-- All events of a file. `parser.ReadFile`, determine-print-stats.cc 151. -/
def run : Machine.State F (Book F) σ → List (Event F) → Option (Machine.State F (Book F) σ)
  | s, [] => some s
  | s, ev :: evs => (handle e ev s).bind fun s => run s evs

/-- `determine_print_stats`, lines 127-155: the statistics after all events, if `Create` succeeded.
`s` is the state of the machine control when created. -/
def determinePrintStats (s : Machine.State F (Book F) σ) (evs : List (Event F)) : Option (Stats F) :=
  (run e (withBook s ⟨initial e.A, []⟩) evs).map fun s => (book s).stats

end
end BeagleG.Stats
