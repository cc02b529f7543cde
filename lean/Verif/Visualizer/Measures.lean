import Verif.Visualizer.Page
import Verif.Visualizer.Layout
import Verif.Visualizer.Path
/-!
# gcode2ps: box, measure lines, home and legend (C101)

Model of `PrintModelFrame`, `ShowMesaureLines`, `ShowHomePos`, `MeasureLine` and `PrintColorLegend` (/repo/src/gcode2ps.cc lines 181-245,
255-309, 350-374, 469-496, 499-557 and 1056-1061).

Simplifications: `float` is ℚ (exact), the printing of numbers is a parameter. Of the legend the heights, the texts "mm/s" and fonts are
left out. The title is C84.
-/
namespace BeagleG.Visualizer

/-- A line from a place to another. -/
structure Edge where
  a : Fin 3 → ℚ
  b : Fin 3 → ℚ
  /-- in the colour of this axis; the others are dotted -/
  axis : Option (Fin 3)

/-- The box, lines 189-243. -/
def frameLines (r : Frame ℚ) : List Edge :=
  [⟨row (r.hi 0) (r.lo 1) (r.lo 2), row (r.hi 0) (r.hi 1) (r.lo 2), none⟩,
    ⟨row (r.lo 0) (r.hi 1) (r.lo 2), row (r.hi 0) (r.hi 1) (r.lo 2), none⟩,
    ⟨row (r.lo 0) (r.lo 1) (r.hi 2), row (r.lo 0) (r.hi 1) (r.hi 2), none⟩,
    ⟨row (r.hi 0) (r.lo 1) (r.hi 2), row (r.hi 0) (r.hi 1) (r.hi 2), none⟩,
    ⟨row (r.lo 0) (r.lo 1) (r.hi 2), row (r.hi 0) (r.lo 1) (r.hi 2), none⟩,
    ⟨row (r.lo 0) (r.hi 1) (r.hi 2), row (r.hi 0) (r.hi 1) (r.hi 2), none⟩,
    ⟨row (r.lo 0) (r.hi 1) (r.lo 2), row (r.lo 0) (r.hi 1) (r.hi 2), none⟩,
    ⟨row (r.hi 0) (r.lo 1) (r.lo 2), row (r.hi 0) (r.lo 1) (r.hi 2), none⟩,
    ⟨row (r.hi 0) (r.hi 1) (r.lo 2), row (r.hi 0) (r.hi 1) (r.hi 2), none⟩,
    ⟨row (r.lo 0) (r.lo 1) (r.lo 2), row (r.hi 0) (r.lo 1) (r.lo 2), some 0⟩,
    ⟨row (r.lo 0) (r.lo 1) (r.lo 2), row (r.lo 0) (r.hi 1) (r.lo 2), some 1⟩,
    ⟨row (r.lo 0) (r.lo 1) (r.lo 2), row (r.lo 0) (r.lo 1) (r.hi 2), some 2⟩]

/-- `ShowHomePos`, lines 350-374. -/
def homeLines (origin : Fin 3 → ℚ) (r : Frame ℚ) : List Edge :=
  let size := r.diag / 200
  [⟨origin, row (origin 0 + 10 * size) (origin 1) (origin 2), some 0⟩,
    ⟨origin, row (origin 0) (origin 1 + 10 * size) (origin 2), some 1⟩,
    ⟨origin, row (origin 0) (origin 1) (origin 2 + 10 * size), some 2⟩]

/-! ### Measure lines -/

/-- A number as `%.2f` or `%.3f`. gcode2ps.cc 469-497. -/
abbrev Printer := (digits : Nat) → ℚ → List Int

/-- The number for a length, lines 480-481 and 484-485: the digits after the point and what is printed. -/
def measure (metric : Bool) (x : ℚ) : Nat × ℚ := if metric then (2, x) else (3, x / (127 / 5))

/-- The unit in `kMillimeterUnitFormat` and `kInchUnitFormat`, lines 95-99. -/
def unitText (metric : Bool) : List Int := if metric then [109, 109] else [34]

/-- `MeasureLine`, lines 469-493; `none` for a read outside of the font. -/
def measureLine (print : Printer) (min max size : ℚ) (metric : Bool) : Option (List Hershey.Call) :=
  let width := max - min
  if width < 3 * size then some []
  else
    let text := fun x => print (measure metric x).1 (measure metric x).2
    (Hershey.drawText (text width ++ unitText metric) (width / 2) (-size) .center size).bind fun t1 =>
    (Hershey.drawText (text min) 0 (size / 10) .center (size * (3 / 5))).bind fun t2 =>
    (Hershey.drawText (text max) 0 0 .center (size * (3 / 5))).map fun t3 =>
      [⟨false, 0, -size⟩, ⟨true, 0, size⟩, ⟨false, 0, 0⟩, ⟨true, width, 0⟩, ⟨false, width, -size⟩, ⟨true, width, size⟩] ++
      t1 ++ t2.map (fun c => ⟨c.line, -c.y, c.x⟩) ++ t3.map fun c => ⟨c.line, width - c.y + 3 / 5 * size, c.x⟩

/-- `x_xy_draw`, `y_xy_draw` and `z_yz_draw`, lines 266-281: the place of a point of the measure line of an axis. -/
def onPlane (r : Frame ℚ) (size : ℚ) : Fin 3 → Hershey.Call → Fin 3 → ℚ
  | 0, c => row (r.lo 0 + c.x) (r.lo 1 - 3 / 2 * size + c.y) (r.lo 2)
  | 1, c => row (r.lo 0 - c.y - 3 / 2 * size) (r.lo 1 + c.x) (r.lo 2)
  | 2, c => row (r.lo 0) (r.hi 1 + c.y + 3 / 2 * size) (c.x + r.lo 2)

/-- `ShowMesaureLines`, lines 255-309, without title: for each axis what is drawn. -/
def measureLines (print : Printer) (r : Frame ℚ) (preferInch : Bool) (i : Fin 3) : Option (List (Bool × (Fin 3 → ℚ))) :=
  let size := 1 / 40 * r.diag
  (measureLine print (r.lo i) (r.hi i) size (!preferInch)).map fun l => l.map fun c => (c.line, onPlane r size i c)

/-! ### The legend -/

/-- A part of the coloured bar. gcode2ps.cc 499-554. -/
structure Bar where
  colour : Nat
  start : ℚ
  stop : ℚ

/-- The loop of lines 537-545 from colour `i` on, with `n` to go, at the current point `x`. -/
def bars (step : ℚ) : (n i : Nat) → (x : ℚ) → List Bar
  | 0, _, _ => []
  | n + 1, i, x => ⟨i, x, x + (step + 1 / 10)⟩ :: bars step n (i + 1) (x + (step + 1 / 10) - 1 / 10)

/-- Labels with their place, lines 511-533. -/
def labels (x width minColour maxColour : ℚ) : List (ℚ × ℚ) :=
  (x, minColour) :: ((List.range 5).map fun k =>
    (x + ((k + 1 : Nat) : ℚ) * width / 6, minColour + ((k + 1 : Nat) : ℚ) * (maxColour - minColour) / 6)) ++ [(x + width, maxColour)]

/-- What is printed: bar, labels, and the lowest and highest speed. gcode2ps.cc 499-554. -/
structure Legend where
  bar : List Bar
  labels : List (ℚ × ℚ)
  lowest : ℚ
  highest : ℚ

/-- `PrintColorLegend`, lines 1056-1061 and 499-557, called in lines 1443-1445. -/
def legend (r : Frame ℚ) (s : Path.State) : Option Legend :=
  if s.maxColour ≤ s.minColour then none
  else
    let x := -r.diag / 2 + 1 / 20 * r.diag
    let width := 9 / 10 * r.diag
    some ⟨bars (width / 256) 256 0 x, labels x width s.minColour s.maxColour, s.minV, s.maxV⟩

end BeagleG.Visualizer
