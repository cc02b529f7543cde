import Mathlib.Algebra.Order.Floor.Ring
import Mathlib.Algebra.Order.Field.Basic
import Mathlib.Data.Rat.Floor
import Mathlib.Data.Fin.VecNotation

/-!
# gcode2ps: the path of the machine (model)

Model of `SegmentQueuePrinter` (/repo/src/gcode2ps.cc lines 841-1082), which stands in for the motors: it
gets the segments of the planner twice, the first time to find the range of speeds, the second time to draw.

Simplifications:
* `float` is ℚ (exact), `sqrtf` is a parameter; `int` does not overflow.
* `none` stands for undefined behaviour, a failed assertion, or a number that is not finite (a division by a
  `steps_per_mm` of zero).  In the first pass the latter is noticed by the code in the second pass only.
* Comments within the output are left out; so is the output for JavaScript (lines 848-854).
-/

namespace BeagleG.Visualizer.Path

/-- The members of `MachineControlConfig` that are read: `steps_per_mm` and `move_range_mm` by number of the
motor; "here, we have motor=axis" (line 881). -/
structure Config where
  perMm : Fin 8 → ℚ
  range : Fin 3 → ℚ

/-- `show_speeds` and `show_out_of_range` of `VisualizationOptions`. gcode2ps.cc 79-92. -/
structure Opts where
  showSpeeds : Bool
  showOutOfRange : Bool

/-- `LinearSegmentSteps` (segment-queue.h lines 28-42) without the aux bits. -/
structure Segment where
  v0 : ℚ
  v1 : ℚ
  steps : Fin 8 → Int

/-- The colours: an entry of `viridis_colors`, `OutOfRangeColor`, `MachineMoveColor`. gcode2ps.cc 603-640, 938-1037. -/
inductive Colour where
  | scale (index : Int)
  | outOfRange
  | machine
  deriving DecidableEq, Repr

/-- What is printed: `switch_color`, `set_color`, `lineto`, `moveto` of the device (lines 400-418). -/
inductive Out where
  | switchColour (c : Colour)
  | setColour (c : Colour)
  | line (x y z : ℚ)
  | move (x y z : ℚ)
  deriving DecidableEq, Repr

/-- The members (lines 1068-1079).  `inside` is `last_outside_machine_cube`. -/
structure State where
  minV : ℚ := 10 ^ 10
  maxV : ℚ := -10 ^ 10
  colourLength : ℚ := 1
  lastColour : Int := -1
  pos : Fin 8 → Int := fun _ => 0
  minColour : ℚ := 0
  maxColour : ℚ := 0
  inside : Bool := false

/-- The loop for the motor with the most steps (lines 878-882). -/
def dominant (steps : Fin 8 → Int) : Fin 8 :=
  (List.finRange 8).foldl (fun d i => if (steps d).natAbs < (steps i).natAbs then i else d) 0

/-- The position of the motors in millimeters (lines 1031-1033, 1050-1052). -/
def place (c : Config) (pos : Fin 3 → ℚ) : Option (ℚ × ℚ × ℚ) :=
  if c.perMm 0 = 0 ∨ c.perMm 1 = 0 ∨ c.perMm 2 = 0 then none
  else some (pos 0 / c.perMm 0, pos 1 / c.perMm 1, pos 2 / c.perMm 2)

/-- The first three motors. gcode2ps.cc 938-1037. -/
def xyz (pos : Fin 8 → Int) : Fin 3 → ℚ := fun i => pos (i.castLE (by decide))

/-- `segment_len` (lines 898-902, 948-950, 963-964). -/
def length (sqrt : ℚ → ℚ) (c : Config) (steps : Fin 8 → Int) : Option ℚ :=
  (place c (xyz steps)).map fun d => sqrt (d.1 * d.1 + d.2.1 * d.2.1 + d.2.2 * d.2.2)

/-- `segment_speed_factor` (lines 905-907, 969-971). -/
def factor (c : Config) (p : Segment) (len : ℚ) : ℚ :=
  len / ((p.steps (dominant p.steps)).natAbs / c.perMm (dominant p.steps))

/-- `RememberMinMax` (lines 872-875). -/
def State.remember (s : State) (v : ℚ) : State :=
  { s with maxV := max v s.maxV, minV := min v s.minV }

/-- "Nothing really to do" (lines 883-886). -/
def idle (c : Config) (p : Segment) : Bool :=
  c.perMm (dominant p.steps) = 0 || p.steps (dominant p.steps) = 0

/-- `Enqueue` in the first pass (lines 890-913). -/
def count (sqrt : ℚ → ℚ) (c : Config) (s : State) (p : Segment) : Option State :=
  if idle c p then some s
  else if (p.steps 0).natAbs + (p.steps 1).natAbs + (p.steps 2).natAbs ≤ 3 then some s
  else (length sqrt c p.steps).map fun len =>
    let perMm := c.perMm (dominant p.steps)
    (s.remember (factor c p len * (p.v0 / perMm))).remember (factor c p len * (p.v1 / perMm))

/-- `EmitMovetoPos` (lines 1049-1054). -/
def emitMove (c : Config) (pos : Fin 8 → Int) : Option (List Out) :=
  (place c (xyz pos)).map fun q => [.move q.1 q.2.1 q.2.2]

/-- `SetPass` for the second pass (lines 859-870), with `SetColorSegmentLength` (line 922). -/
def startOutput (c : Config) (s : State) (colourLength : ℚ) : Option (State × List Out) :=
  (emitMove c s.pos).map fun out =>
    ({ s with minColour := s.minV + 1 / 10 * (s.maxV - s.minV), maxColour := s.maxV - 1 / 10 * (s.maxV - s.minV)
              colourLength }, out)

/-- `inRange` (lines 925-930). -/
def inRange (c : Config) (pos : Int) (axis : Fin 3) : Bool :=
  !(decide (pos < 0)) && !(decide (c.range axis * c.perMm (axis.castLE (by decide)) < pos))

/-- `isWithinMachineCube` (lines 932-936). -/
def within (o : Opts) (c : Config) (pos : Fin 8 → Int) : Bool :=
  !o.showOutOfRange || (inRange c (pos 0) 0 && inRange c (pos 1) 1 && inRange c (pos 2) 2)

/-- `roundf`: to the nearest integer, halves away from zero. gcode2ps.cc 938-1037. -/
def roundf (x : ℚ) : Int := if 0 ≤ x then ⌊x + 1 / 2⌋ else -⌊-x + 1 / 2⌋

/-- `col_idx` (lines 984-993); 0/0 is not a number and its conversion to `int` undefined. -/
def colourIndex (s : State) (v : ℚ) : Option Int :=
  if v < s.minColour then some 0
  else if s.maxColour < v then some 255
  else if s.maxColour - s.minColour = 0 then none
  else
    let i := roundf (255 * (v - s.minColour) / (s.maxColour - s.minColour))
    if 0 ≤ i ∧ i < 256 then some i else none

/-- `v`, the speed shown for part `i` of `n` (lines 978-980). -/
def shownSpeed (c : Config) (p : Segment) (len : ℚ) (n i : Nat) : ℚ :=
  (p.v0 + i * (p.v1 - p.v0) / n) / c.perMm (dominant p.steps) * factor c p len

/-- `TO_ABS_AXIS` (lines 1014-1016), still in steps. -/
def partEnd (pos : Fin 8 → Int) (p : Segment) (n i : Nat) : Fin 3 → ℚ :=
  fun a => xyz pos a + ((i + 1 : Nat) : ℚ) * xyz p.steps a / n

/-- One round of the loop (lines 977-1021); the number is `last_color_index_`. -/
def part (c : Config) (s : State) (p : Segment) (len : ℚ) (valid : Bool) (n i : Nat) (last : Int) :
    Option (Int × List Out) :=
  (place c (partEnd s.pos p n i)).bind fun q =>
    let line := Out.line q.1 q.2.1 q.2.2
    if valid then
      (colourIndex s (shownSpeed c p len n i)).map fun index =>
        if index ≠ last then (index, [.switchColour (.scale index), line]) else (last, [line])
    else some (last, [.switchColour .outOfRange, line])

/-- The loop over the parts. gcode2ps.cc 938-1037. -/
def parts (c : Config) (s : State) (p : Segment) (len : ℚ) (valid : Bool) (n : Nat) :
    List Nat → Int → Option (Int × List Out)
  | [], last => some (last, [])
  | i :: l, last =>
    (part c s p len valid n i last).bind fun a =>
      (parts c s p len valid n l a.1).map fun b => (b.1, a.2 ++ b.2)

/-- `segments` (lines 972-976): the quotient is converted to `int`. -/
def partCount (s : State) (p : Segment) (len : ℚ) : Option Nat :=
  if p.v0 = p.v1 then some 1
  else if s.colourLength = 0 then none
  else
    let n := ⌊len / s.colourLength⌋.toNat
    some (if n = 0 then 1 else n)

/-- `new_pos` (lines 943-946). -/
def advance (pos : Fin 8 → Int) (p : Segment) : Fin 8 → Int :=
  fun m => if m.val < 3 then pos m + p.steps m else pos m

/-- `PrintSegment` (lines 938-1037). -/
def printSegment (sqrt : ℚ → ℚ) (o : Opts) (c : Config) (s : State) (p : Segment) :
    Option (State × List Out) :=
  if p.steps 0 = 0 ∧ p.steps 1 = 0 ∧ p.steps 2 = 0 then some (s, [])
  else
    let new := advance s.pos p
    let valid := within o c new
    if o.showSpeeds then
      (length sqrt c p.steps).bind fun len =>
        if len = 0 then some (s, [])
        else
          (partCount s p len).bind fun n =>
            (parts c s p len valid n (List.range n) s.lastColour).map fun a =>
              ({ s with pos := new, lastColour := a.1 }, a.2)
    else
      (place c (xyz new)).map fun q =>
        let colour := if s.inside ≠ valid then [Out.setColour (if valid then .machine else .outOfRange)] else []
        ({ s with pos := new, inside := valid }, colour ++ [.line q.1 q.2.1 q.2.2])

/-- The calls of the planner: `Enqueue`, `SetExternalPosition`; the others do nothing (lines 1039-1041). -/
inductive Call where
  | enqueue (p : Segment)
  | external (motor : Fin 8) (pos : Int)

/-- `Enqueue` (lines 877-919) and `SetExternalPosition` (lines 1042-1047) in the second pass. -/
def draw (sqrt : ℚ → ℚ) (o : Opts) (c : Config) (s : State) : Call → Option (State × List Out)
  | .enqueue p => if idle c p then some (s, []) else printSegment sqrt o c s p
  | .external m pos =>
    let s := { s with pos := fun k => if k = m then pos else s.pos k }
    (emitMove c s.pos).map fun out => (s, out)

/-- The second pass. gcode2ps.cc 877-920, called in turn. -/
def drawAll (sqrt : ℚ → ℚ) (o : Opts) (c : Config) : State → List Call → Option (State × List Out)
  | s, [] => some (s, [])
  | s, a :: l =>
    (draw sqrt o c s a).bind fun r => (drawAll sqrt o c r.1 l).map fun t => (t.1, r.2 ++ t.2)

/-- The same calls in the first pass. gcode2ps.cc 877-920, called in turn. -/
def countAll (sqrt : ℚ → ℚ) (c : Config) : State → List Call → Option State
  | s, [] => some s
  | s, .enqueue p :: l => (count sqrt c s p).bind fun s => countAll sqrt c s l
  | s, .external m pos :: l => countAll sqrt c { s with pos := fun k => if k = m then pos else s.pos k } l

/-! ## What is seen -/

/-- The state of the PostScript interpreter: colour, lines of the path that is not stroked yet, lines on the
paper. -/
structure Paper where
  ink : Colour
  pending : List (ℚ × ℚ × ℚ) := []
  done : List ((ℚ × ℚ × ℚ) × Colour) := []

/-- The lines on the paper after the final `stroke` (line 857), each by its end: a path is stroked in the
colour that is set at the `stroke`. -/
def Paper.seen (a : Paper) : List ((ℚ × ℚ × ℚ) × Colour) := a.done ++ a.pending.map (·, a.ink)

/-- The program in `kPSHeader` (lines 1717-1751): `switch-color` strokes what there is before it sets the
colour; `setrgbcolor` does not. -/
def paint (a : Paper) : Out → Paper
  | .switchColour c => { ink := c, pending := [], done := a.seen }
  | .setColour c => { a with ink := c }
  | .line x y z => { a with pending := a.pending ++ [(x, y, z)] }
  | .move _ _ _ => a

end BeagleG.Visualizer.Path
