import Verif.Visualizer.Props
import Verif.Visualizer.Measures

/-!
# gcode2ps: the PostScript of the G-code path (C102)

What the methods of `Device` print that draw the path and its marks (/repo/src/gcode2ps.cc lines 161-163, 311-374, 397-467), the
procedures of `kPSHeader` they use (lines 1716-1752), the colours (lines 605-634), and the operators of PostScript as far as needed.

Simplifications: numbers are ℚ; printing them with a number of digits behind the point is a parameter. Places are kept as they are before
`project2d`: matrix and center do not change within the path, and C85 is about the projection. The current path is a list of lines without
curves. `grestore` with nothing saved is an error. Comments, `currentpoint` on the stack inside of `lineto3ds` and the vertices for
JavaScript are left out.
-/
namespace BeagleG.Visualizer.Ps

open _root_.BeagleG.Parser (Axis Axes)

/-- A place: the three numbers in front of `moveto3d`. gcode2ps.cc 400-411, 1717-1746. -/
structure P3 where
  x : ℚ
  y : ℚ
  z : ℚ
deriving DecidableEq, Repr

/-- A colour; `setgray` gives equal parts. gcode2ps.cc 413-419, 467. -/
structure Rgb where
  r : ℚ
  g : ℚ
  b : ℚ
deriving DecidableEq, Repr

/-- The names of the colours used here, lines 611-624. -/
inductive Name where
  | gcodeMove | gcodeRapidMove | originMark | originText | curveHelp | xAxis | yAxis | zAxis
deriving DecidableEq, Repr

/-- `kDefaultColors`, lines 611-624; called with `nullptr` in line 1380. -/
def Name.rgb : Name → Rgb
  | .gcodeMove => ⟨0, 0, 0⟩
  | .gcodeRapidMove => ⟨7 / 10, 7 / 10, 7 / 10⟩
  | .originMark => ⟨5 / 10, 5 / 10, 8 / 10⟩
  | .originText => ⟨0, 0, 0⟩
  | .curveHelp => ⟨8 / 10, 8 / 10, 1⟩
  | .xAxis => ⟨8 / 10, 4 / 10, 4 / 10⟩
  | .yAxis => ⟨4 / 10, 8 / 10, 4 / 10⟩
  | .zAxis => ⟨4 / 10, 4 / 10, 8 / 10⟩

/-- The words that are printed. gcode2ps.cc 311-467. -/
inductive Tok where
  | num (v : ℚ)
  /-- `[v]` -/
  | arr (v : ℚ)
  | color (n : Name)
  | moveto3d | lineto3d | lineto3ds | currentpoint3d | switchColor
  | gsave | grestore | stroke | fill | closepath
  | setrgbcolor | setgray | setlinewidth | setdash
deriving DecidableEq, Repr

/-- On the stack of operands. The PostScript interpreter; the words are those of gcode2ps.cc 1634-1756. -/
inductive Val where
  | num (v : ℚ)
  | arr (v : ℚ)
deriving DecidableEq, Repr

/-- The part of the graphics state that lines are drawn with; `dash = none` is a solid line. -/
structure Gs where
  color : Rgb
  width : ℚ
  dash : Option ℚ
deriving DecidableEq, Repr

/-- The current path: current point, start of the subpath and the lines. -/
structure Path where
  cur : Option P3
  start : Option P3
  lines : List (P3 × P3)
deriving DecidableEq, Repr

/-- No path. The PostScript interpreter: `newpath`, as after `stroke`. -/
def Path.none : Path := ⟨.none, .none, []⟩

/-- What has been painted. The PostScript interpreter: `stroke`, `fill`, `show`, in gcode2ps.cc 311-467. -/
inductive Ink where
  | line (gs : Gs) (a b : P3)
  | area (gs : Gs) (border : List (P3 × P3))
deriving DecidableEq, Repr

/-- The interpreter: operands, `last_x`, `last_y` and `last_z` (lines 1636-1638), graphics state and path, those saved, and the page. -/
structure State where
  stack : List Val
  last : P3
  gs : Gs
  path : Path
  saved : List (Gs × Path)
  page : List Ink
deriving DecidableEq, Repr

/-- `moveto`. The PostScript interpreter, gcode2ps.cc 1717-1722. -/
def Path.moveTo (p : Path) (q : P3) : Path := ⟨some q, some q, p.lines⟩

/-- `lineto`; an error without current point. -/
def Path.lineTo (p : Path) (q : P3) : Option Path := p.cur.map fun c => ⟨some q, p.start, p.lines ++ [(c, q)]⟩

/-- `closepath`: back to the start of the subpath. The PostScript interpreter, gcode2ps.cc 311-374. -/
def Path.close (p : Path) : Path :=
  match p.cur, p.start with
  | some c, some s => ⟨some s, some s, p.lines ++ [(c, s)]⟩
  | _, _ => p

/-- `stroke`: paints the lines, then there is no path. -/
def State.doStroke (s : State) : State :=
  { s with path := .none, page := s.page ++ s.path.lines.map fun l => .line s.gs l.1 l.2 }

/-- Three numbers from the stack, the last on top. The PostScript interpreter, gcode2ps.cc 1717-1742. -/
def State.pop3 (s : State) (f : P3 → State → Option State) : Option State :=
  match s.stack with
  | .num z :: .num y :: .num x :: rest => f ⟨x, y, z⟩ { s with stack := rest }
  | _ => none

/-- One word; `none` is an error of PostScript. The procedures with 3d are those of lines 1716-1747, `switch-color` is lines 1749-1751. -/
def step (s : State) : Tok → Option State
  | .num v => some { s with stack := .num v :: s.stack }
  | .arr v => some { s with stack := .arr v :: s.stack }
  | .color n => some { s with stack := .num n.rgb.b :: .num n.rgb.g :: .num n.rgb.r :: s.stack }
  | .moveto3d => s.pop3 fun p s => some { s with last := p, path := s.path.moveTo p }
  | .lineto3d => s.pop3 fun p s => (s.path.lineTo p).map fun q => { s with last := p, path := q }
  | .lineto3ds => s.pop3 fun p s => (s.path.lineTo p).map fun q =>
      let t := ({ s with last := p, path := q } : State).doStroke
      { t with path := t.path.moveTo p }
  | .currentpoint3d => some { s with stack := .num s.last.z :: .num s.last.y :: .num s.last.x :: s.stack }
  | .switchColor => s.doStroke.pop3 fun c s =>
      some { s with gs := { s.gs with color := ⟨c.x, c.y, c.z⟩ }, path := s.path.moveTo s.last }
  | .gsave => some { s with saved := (s.gs, s.path) :: s.saved }
  | .grestore =>
    match s.saved with
    | (g, p) :: rest => some { s with gs := g, path := p, saved := rest }
    | [] => none
  | .stroke => some s.doStroke
  | .fill => some { s with path := .none, page := s.page ++ [.area s.gs s.path.lines] }
  | .closepath => some { s with path := s.path.close }
  | .setrgbcolor => s.pop3 fun c s => some { s with gs := { s.gs with color := ⟨c.x, c.y, c.z⟩ } }
  | .setgray =>
    match s.stack with
    | .num v :: rest => some { s with stack := rest, gs := { s.gs with color := ⟨v, v, v⟩ } }
    | _ => none
  | .setlinewidth =>
    match s.stack with
    | .num v :: rest => some { s with stack := rest, gs := { s.gs with width := v } }
    | _ => none
  | .setdash =>
    match s.stack with
    | .num _ :: .arr v :: rest => some { s with stack := rest, gs := { s.gs with dash := some v } }
    | _ => none

/-- Words one after the other. The PostScript interpreter; no code of its own. -/
def exec : List Tok → State → Option State
  | [], s => some s
  | t :: ts, s => (step s t).bind (exec ts)

/-- What the methods of `Device` are given beside the place: how numbers come out with a number of digits, the length of the diagonal,
`relative_font_size`, and the name of an origin (simplified: determined by its place).
gcode2ps.cc 157-643 (members and arguments). -/
structure Env where
  pr : Nat → ℚ → ℚ
  diag : ℚ
  font : ℚ
  name : Axes ℚ → List Int

variable (e : Env)

/-- A place as printed. gcode2ps.cc 400-411. -/
def Env.place (digits : Nat) (x y z : ℚ) : P3 := ⟨e.pr digits x, e.pr digits y, e.pr digits z⟩

/-- X, Y and Z of a register as printed. gcode2ps.cc 400-411. -/
def Env.pt (digits : Nat) (p : Axes ℚ) : P3 := e.place digits (p .X) (p .Y) (p .Z)

/-- The three numbers of a place. gcode2ps.cc 400-411. -/
def P3.toks (p : P3) : List Tok := [.num p.x, .num p.y, .num p.z]

/-- `moveto3d` or `lineto3d` at a place. -/
def go (line : Bool) (p : P3) : List Tok := p.toks ++ [if line then .lineto3d else .moveto3d]

/-- The name of an origin, lines 318-323. -/
def textToks (o : Axes ℚ) (cs : List Hershey.Call) : List Tok :=
  cs.flatMap fun c => go c.line (e.place 3 (o .X + c.x) (o .Y + c.y) (o .Z))

/-- Half the size of the mark of an origin, line 314. -/
def Env.size : ℚ := e.font * e.diag / 2

/-- A place around an origin, as a part of the size. gcode2ps.cc 311-374. -/
def around (o : Axes ℚ) (dx dy : ℚ) : P3 := e.place 3 (o .X + dx * e.size) (o .Y + dy * e.size) (o .Z)

/-- The mark: a quarter filled and the rest of an octagon, lines 324-347. -/
def octagon (o : Axes ℚ) : List Tok :=
  [.stroke, .color .originMark, .setrgbcolor] ++
  go false (around e o 0 0) ++ go true (around e o (-1) 0) ++ go true (around e o (-707 / 1000) (-707 / 1000)) ++
  go true (around e o 0 (-1)) ++ [.closepath, .fill] ++
  go false (around e o 0 (-1)) ++ go true (around e o (707 / 1000) (-707 / 1000)) ++ go true (around e o 1 0) ++
  go true (around e o (707 / 1000) (707 / 1000)) ++ go true (around e o 0 1) ++
  go true (around e o (-707 / 1000) (707 / 1000)) ++ go true (around e o (-1) 0) ++
  [.stroke, .grestore, .moveto3d]

/-- `ShowNamedOrigin`, lines 311-348; `none` for a read outside of the font. -/
def markToks (o : Axes ℚ) : Option (List Tok) :=
  (Hershey.drawText (e.name o) 0 e.size .center (3 / 2 * e.size)).map fun cs =>
    [.currentpoint3d, .stroke, .gsave, .color .originText, .setrgbcolor, .num 0, .setlinewidth] ++ textToks e o cs ++ octagon e o

/-- `ShowHomePos`, lines 350-374. -/
def homeToks (o : Axes ℚ) : List Tok :=
  let size := e.diag / 200
  [.currentpoint3d, .stroke, .gsave, .color .originMark, .setrgbcolor, .num (e.pr 3 size), .setlinewidth] ++
  [.color .xAxis, .setrgbcolor] ++ go false (e.pt 6 o) ++ go true (e.place 6 (o .X + 10 * size) (o .Y) (o .Z)) ++ [.stroke] ++
  [.color .yAxis, .setrgbcolor] ++ go false (e.pt 6 o) ++ go true (e.place 6 (o .X) (o .Y + 10 * size) (o .Z)) ++ [.stroke] ++
  [.color .zAxis, .setrgbcolor] ++ go false (e.pt 6 o) ++ go true (e.place 6 (o .X) (o .Y) (o .Z + 10 * size)) ++ [.stroke] ++
  [.grestore, .moveto3d]

/-- The beginning of both kinds of help lines, lines 424-428 and 441-445. -/
def helpToks : List Tok :=
  [.stroke, .currentpoint3d, .currentpoint3d, .gsave, .moveto3d, .arr (e.pr 3 (2 * (e.diag / 500))), .num 0, .setdash,
    .num (e.pr 3 (e.diag / 500)), .setlinewidth, .color .curveHelp, .setrgbcolor]

/-- What a call of the device prints: lines 161-163, 311-348 and 400-467. -/
def toks : Draw → Option (List Tok)
  | .black => some [.num (e.pr 3 (e.diag / 1000)), .setlinewidth, .num 0, .num 0, .num 0, .setrgbcolor]
  | .moveTo p => some ((e.pt 6 p).toks ++ [.moveto3d])
  | .lineTo p => some ((e.pt 3 p).toks ++ [.lineto3ds])
  | .style rapid => some [.color (if rapid then .gcodeRapidMove else .gcodeMove), .switchColor,
      .num (e.pr 3 (if rapid then 0 else e.diag / 1000)), .setlinewidth]
  | .gray v => some [.num (e.pr 2 v), .setgray]
  | .arcHelp c t => some (helpToks e ++ go true (e.pt 6 c) ++ go true (e.pt 6 t) ++ [.stroke, .grestore, .moveto3d])
  | .splineHelp a b c d => some (helpToks e ++
      go false (e.pt 6 a) ++ go true (e.place 6 (b .X) (b .Y) (a .Z)) ++ [.stroke] ++
      go false (e.place 6 (c .X) (c .Y) (a .Z)) ++ go true (e.pt 6 d) ++ [.stroke, .grestore, .moveto3d])
  | .mark o => markToks e o
  | .stroke => some [.stroke]

/-- Calls of the device one after the other. gcode2ps.cc 311-467, called in turn. -/
def play : List Draw → State → Option State
  | [], s => some s
  | d :: ds, s => (toks e d).bind fun ts => (exec ts s).bind (play ds)

end BeagleG.Visualizer.Ps
