import Mathlib.Data.Rat.Floor
import Mathlib.Algebra.Order.Field.Basic
import Verif.Parser.Model

/-!
# gcode2ps: the picture of the G-code

Model of `AxesRange` and `GCodePrintVisualizer` (/repo/src/gcode2ps.cc lines 112-154 and 647-834): the
event receiver that is run twice over a file, first to find the range to show, then to draw.

Simplifications: `float` is ℚ (exact).  Calls of the device are values of `Draw`; what they print is not
modelled beyond the path, the gray level and the style.  `arc_move` and `spline_move` are split in the call
that shows the help lines (`arcHelp`, `splineHelp`) and the moves that the default implementation makes of
the curve, which come as `move`.  Options without effect on the path (`output_js_vertices`, fonts) are left
out.
-/

namespace BeagleG.Visualizer

open _root_.BeagleG.Parser (Axis Axes)

/-- X, Y and Z of a position. gcode2ps.cc 112-148. -/
def xyz (p : Axes ℚ) : Fin 3 → ℚ
  | 0 => p .X
  | 1 => p .Y
  | 2 => p .Z

/-- `AxesRange` (gcode2ps.cc lines 112-155). -/
structure Range where
  lo : Fin 3 → ℚ
  hi : Fin 3 → ℚ

/-- `AxesRange()` (lines 114-117). -/
def Range.empty : Range := ⟨fun _ => 1000000, fun _ => -1000000⟩

/-- `Update` (lines 120-127). -/
def Range.update (r : Range) (p : Axes ℚ) : Range :=
  ⟨fun i => min (xyz p i) (r.lo i), fun i => max (xyz p i) (r.hi i)⟩

/-- `ZeroUnusedAxes` (lines 129-133). -/
def Range.zeroUnused (r : Range) : Range :=
  ⟨fun i => if r.hi i < r.lo i then 0 else r.lo i, fun i => if r.hi i < r.lo i then 0 else r.hi i⟩

/-- `ProcessingStep` (line 647). -/
inductive Pass where
  | init | preprocess | generate
deriving DecidableEq

/-- `VisualizationOptions` (lines 79-92), as far as used here. -/
structure Opts where
  showIjk : Bool := true
  showLaser : Bool := false
  includeBox : Bool := false
  includeOrigin : Bool := true

/-- The calls of the event receiver that the visualizer reacts on. gcode2ps.cc 675-799. -/
inductive Call where
  | start
  | finished (endOfStream : Bool)
  | home
  | move (rapid : Bool) (pos : Axes ℚ)
  | arcHelp (center target : Axes ℚ)
  | splineHelp (start cp1 cp2 target : Axes ℚ)
  | spindle (value : ℚ)
  | origin (pos : Axes ℚ)
  | commandDone (letter : Char) (value : ℚ)
  | other

/-- The calls of the device. gcode2ps.cc 397-467. -/
inductive Draw where
  /-- `InitializeLineParameters`, lines 161-163: black -/
  | black
  /-- `moveto`, lines 400-403 -/
  | moveTo (p : Axes ℚ)
  /-- `lineto_s`, lines 409-411 -/
  | lineTo (p : Axes ℚ)
  /-- `set_move_style`, lines 460-464: sets the colour of moves or of rapid moves -/
  | style (rapid : Bool)
  /-- `set_intensity`, line 467 -/
  | gray (value : ℚ)
  /-- `ShowArcHelpLines`, lines 421-434: from the current point to the center and on to the end -/
  | arcHelp (center target : Axes ℚ)
  /-- `ShowSplineHelpLines`, lines 437-455 -/
  | splineHelp (start cp1 cp2 target : Axes ℚ)
  /-- `ShowNamedOrigin`, lines 311-348 -/
  | mark (origin : Axes ℚ)
  /-- `stroke`, line 458 -/
  | stroke

/-- The fields of `GCodePrintVisualizer` (lines 821-833). -/
structure State where
  intensity : ℚ
  lastIntensity : ℚ
  lastRapid : Bool
  justHomed : Bool
  laserMin : ℚ
  laserMax : ℚ
  range : Range
  pass : Pass
  preferInch : Bool

variable (o : Opts) (origin : Axes ℚ)

/-- The constructor (lines 654-661) and the initial values (lines 824-834). -/
def initial (moveRange : Axes ℚ) : State where
  intensity := 1
  lastIntensity := 1
  lastRapid := false
  justHomed := true
  laserMin := 1000000
  laserMax := -1000000
  range := if o.includeBox then Range.empty.update moveRange else Range.empty
  pass := .init
  preferInch := false

/-- `go_home` (lines 675-682). -/
def goHome (s : State) : State × List Draw :=
  ({ s with
      range := if o.includeOrigin then s.range.update origin else s.range
      justHomed := true },
    if s.pass = .generate then [.moveTo origin] else [])

/-- `do_move` (lines 703-737).  `axes == machine_origin_` compares all axes. -/
def doMove (s : State) (rapid : Bool) (p : Axes ℚ) : State × List Draw :=
  if !o.includeOrigin ∧ (∀ a ∈ Parser.allAxes, p a = origin a) then (s, [])
  else if s.pass = .preprocess then ({ s with range := s.range.update p, justHomed := false }, [])
  else
    let style := if rapid = s.lastRapid then [] else [Draw.style rapid]
    let shows := o.showLaser && decide (s.laserMin < s.laserMax) && decide (s.intensity ≠ s.lastIntensity)
    let gray := if shows then
      [Draw.gray (1 - (s.intensity - s.laserMin) / (s.laserMax - s.laserMin))] else []
    let path := if s.justHomed && !o.includeOrigin then Draw.moveTo p else Draw.lineTo p
    ({ s with
        lastRapid := rapid
        lastIntensity := if shows then s.intensity else s.lastIntensity
        justHomed := false },
      style ++ gray ++ [path])

/-- A call of the event receiver: lines 670-808. -/
def handle (s : State) : Call → State × List Draw
  | .start => (s, if s.pass = .generate then
      .black :: (if o.includeOrigin then [.moveTo origin] else []) else [])
  | .finished eos => (if s.pass = .preprocess then { s with range := s.range.zeroUnused } else s,
      if s.pass = .generate ∧ eos then [.stroke] else [])
  | .home => goHome o origin s
  | .move rapid p => doMove o origin s rapid p
  | .arcHelp c t => (s, if s.pass = .generate ∧ o.showIjk then [.arcHelp c t] else [])
  | .splineHelp a b c d => (s, if s.pass = .generate ∧ o.showIjk then [.splineHelp a b c d] else [])
  | .spindle v =>
    ({ s with intensity := v, laserMin := min v s.laserMin, laserMax := max v s.laserMax }, [])
  | .origin p => (s, if s.pass = .generate then [.mark p] else [])
  | .commandDone l v =>
    (if l = 'G' then
      (if v = 21 ∨ v = 71 then { s with preferInch := false }
        else if v = 20 ∨ v = 70 then { s with preferInch := true } else s)
      else s, [])
  | .other => (s, [])

/-- Calls one after the other. gcode2ps.cc 675-799, called in turn. -/
def run (s : State) : List Call → State × List Draw
  | [] => (s, [])
  | c :: cs =>
    let r := handle o origin s c
    let r' := run r.1 cs
    (r'.1, r.2 ++ r'.2)

/-- `SetPass` (line 668). -/
def State.setPass (s : State) (p : Pass) : State := { s with pass := p }

/-- `main` (lines 1364-1370 and 1453-1456): the file in the first pass, the calls of `Reset` (lines
1140-1156), the file in the second pass. -/
def visualize (moveRange : Axes ℚ) (first reset second : List Call) : State × List Draw :=
  let s1 := (run o origin ((initial o moveRange).setPass .preprocess) first).1
  let s2 := (run o origin (s1.setPass .init) reset).1
  run o origin (s2.setPass .generate) second

/-- The range that the frame is drawn for (lines 1374-1403): that behind `Reset`. -/
def shownRange (moveRange : Axes ℚ) (first reset : List Call) : Range :=
  let s1 := (run o origin ((initial o moveRange).setPass .preprocess) first).1
  (run o origin (s1.setPass .init) reset).1.range

end BeagleG.Visualizer
