import Verif.Visualizer.Ps
import Verif.Visualizer.Example

/-!
# C102: the PostScript of the path
-/
namespace BeagleG.Visualizer.Ps

open _root_.BeagleG.Parser (Axis Axes)

variable (e : Env)

theorem exec_append : ∀ (a b : List Tok) (s : State), exec (a ++ b) s = (exec a s).bind (exec b)
  | [], _, _ => rfl
  | t :: ts, b, s => by
    rw [List.cons_append, exec, exec]
    cases step s t with
    | none => rfl
    | some u => exact exec_append ts b u

/-! ### The text of a name -/

/-- The lines of a text: from each call to the next that draws a line; `c` is the place before. -/
def strokes : Option P3 → List (Bool × P3) → List (P3 × P3)
  | _, [] => []
  | some c, (true, q) :: l => (c, q) :: strokes (some q) l
  | _, (_, q) :: l => strokes (some q) l

/-- The places of the calls. -/
def placed (o : Axes ℚ) (cs : List Hershey.Call) : List (Bool × P3) :=
  cs.map fun c => (c.line, e.place 3 (o .X + c.x) (o .Y + c.y) (o .Z))

theorem drawOps_head (g : Hershey.Glyph) (ox oy size : ℚ) : ∀ (left op : Nat) {l : List Hershey.Call},
    Hershey.drawOps g ox oy size left op true = some l → ∀ c ∈ l.head?, c.line = false := by
  intro left
  induction left with
  | zero => intro op l h; simp only [Hershey.drawOps, Option.some.injEq] at h; subst h; intro c hc; cases hc
  | succ left ih =>
    intro op l h
    rw [Hershey.drawOps] at h
    obtain ⟨k, -, h2⟩ := Option.bind_eq_some_iff.1 h
    split at h2
    · exact ih _ h2
    · obtain ⟨r, -, rfl⟩ := Option.map_eq_some_iff.1 h2
      intro c hc
      simp only [List.head?_cons, Option.mem_def, Option.some.injEq] at hc
      rw [← hc]; rfl

theorem drawChars_head (ox oy size : ℚ) : ∀ (str : List Int) (x y : ℚ) {l : List Hershey.Call},
    Hershey.drawChars ox oy size x y str = some l → ∀ c ∈ l.head?, c.line = false := by
  intro str
  induction str with
  | nil => intro x y l h; simp only [Hershey.drawChars, Option.some.injEq] at h; subst h; intro c hc; cases hc
  | cons a str ih =>
    intro x y l h
    rw [Hershey.drawChars] at h
    split at h
    · exact ih _ _ h
    · obtain ⟨g, -, h2⟩ := Option.bind_eq_some_iff.1 h
      obtain ⟨f, h3, h4⟩ := Option.bind_eq_some_iff.1 h2
      obtain ⟨r, h5, rfl⟩ := Option.map_eq_some_iff.1 h4
      intro c hc
      cases f with
      | nil => exact ih _ _ h5 c hc
      | cons b f => exact drawOps_head _ _ _ _ _ _ h3 c hc

theorem drawText_head {str : List Int} {tx ty : ℚ} {al : Hershey.Align} {size : ℚ} {l : List Hershey.Call}
    (h : Hershey.drawText str tx ty al size = some l) : ∀ c ∈ l.head?, c.line = false := by
  obtain ⟨d, -, h2⟩ := Option.bind_eq_some_iff.1 h
  exact drawChars_head _ _ _ _ _ _ h2

theorem exec_go (line : Bool) (p : P3) (rest : List Tok) (s : State) : exec (go line p ++ rest) s =
    if line then (s.path.lineTo p).bind fun q => exec rest { s with last := p, path := q }
    else exec rest { s with last := p, path := s.path.moveTo p } := by
  cases line
  · rfl
  · cases h : s.path.lineTo p <;>
      simp [go, P3.toks, exec, step, State.pop3, h]

theorem exec_text (o : Axes ℚ) : ∀ (cs : List Hershey.Call) (s : State),
    (s.path.cur = none → ∀ c ∈ cs.head?, c.line = false) →
    ∃ last path, exec (textToks e o cs) s = some { s with last := last, path := path } ∧
      path.lines = s.path.lines ++ strokes s.path.cur (placed e o cs) := by
  intro cs
  induction cs with
  | nil =>
    intro s _
    exact ⟨s.last, s.path, rfl, by cases h : s.path.cur <;> simp [placed, strokes]⟩
  | cons c cs ih =>
    intro s hs
    have hx : textToks e o (c :: cs) = go c.line (e.place 3 (o .X + c.x) (o .Y + c.y) (o .Z)) ++ textToks e o cs := by
      simp [textToks]
    have hpl : placed e o (c :: cs) = (c.line, e.place 3 (o .X + c.x) (o .Y + c.y) (o .Z)) :: placed e o cs := rfl
    rw [hx, exec_go, hpl]
    generalize e.place 3 (o .X + c.x) (o .Y + c.y) (o .Z) = q
    cases hc : c.line with
    | false =>
      obtain ⟨la, pa, h1, h2⟩ := ih { s with last := q, path := s.path.moveTo q } (fun h => by cases h)
      refine ⟨la, pa, by rw [if_neg (by decide), h1], ?_⟩
      rw [h2]
      cases s.path.cur <;> simp [Path.moveTo, strokes]
    | true =>
      cases hp : s.path.cur with
      | none => have := hs hp c rfl; rw [hc] at this; cases this
      | some r =>
        have hl : s.path.lineTo q = some ⟨some q, s.path.start, s.path.lines ++ [(r, q)]⟩ := by simp [Path.lineTo, hp]
        rw [if_pos rfl, hl, Option.bind_some]
        obtain ⟨la, pa, h1, h2⟩ := ih { s with last := q, path := ⟨some q, s.path.start, s.path.lines ++ [(r, q)]⟩ }
          (fun h => by cases h)
        refine ⟨la, pa, h1, ?_⟩
        rw [h2]
        simp [strokes]

/-! ### What is to be seen -/

/-- The lines of one painting. -/
def inked (g : Gs) (l : List (P3 × P3)) : List Ink := l.map fun p => .line g p.1 p.2

/-- Lines from place to place. -/
def polyline : List P3 → List (P3 × P3)
  | a :: b :: l => (a, b) :: polyline (b :: l)
  | _ => []

/-- Thin dashed lines in their own colour. -/
def helpGs : Gs := ⟨Name.curveHelp.rgb, e.pr 3 (e.diag / 500), some (e.pr 3 (2 * (e.diag / 500)))⟩

/-- The name, a filled quarter and the rest of the octagon. -/
def markInk (g : Gs) (o : Axes ℚ) : List Ink :=
  inked { g with color := Name.originText.rgb, width := 0 }
    (strokes none (placed e o ((Hershey.drawText (e.name o) 0 e.size .center (3 / 2 * e.size)).getD []))) ++
  [.area { g with color := Name.originMark.rgb, width := 0 } (polyline [around e o 0 0, around e o (-1) 0,
    around e o (-707 / 1000) (-707 / 1000), around e o 0 (-1), around e o 0 0])] ++
  inked { g with color := Name.originMark.rgb, width := 0 } (polyline [around e o 0 (-1), around e o (707 / 1000) (-707 / 1000),
    around e o 1 0, around e o (707 / 1000) (707 / 1000), around e o 0 1, around e o (-707 / 1000) (707 / 1000), around e o (-1) 0])

/-- Three short lines in the colours of the axes. -/
def homeInk (g : Gs) (o : Axes ℚ) : List Ink :=
  [.line { g with color := Name.xAxis.rgb, width := e.pr 3 (e.diag / 200) } (e.pt 6 o) (e.place 6 (o .X + 10 * (e.diag / 200)) (o .Y) (o .Z)),
    .line { g with color := Name.yAxis.rgb, width := e.pr 3 (e.diag / 200) } (e.pt 6 o) (e.place 6 (o .X) (o .Y + 10 * (e.diag / 200)) (o .Z)),
    .line { g with color := Name.zAxis.rgb, width := e.pr 3 (e.diag / 200) } (e.pt 6 o) (e.place 6 (o .X) (o .Y) (o .Z + 10 * (e.diag / 200)))]

/-- A mark leaves what it finds: operands, place, and how lines are drawn. Lines not yet painted are painted before. -/
def Leaves (ts : List Tok) (s : State) (ink : List Ink) : Prop :=
  exec ts s = some { s with path := Path.none.moveTo s.last, page := s.page ++ inked s.gs s.path.lines ++ ink }

theorem home_leaves (o : Axes ℚ) (s : State) : Leaves (homeToks e o) s (homeInk e s.gs o) := by
  obtain ⟨st, la, g, pa, sv, pg⟩ := s
  simp [Leaves, homeToks, exec, step, go, P3.toks, State.pop3, State.doStroke, Path.moveTo, Path.lineTo, Path.none, homeInk, inked]

theorem arc_leaves (c t : Axes ℚ) (s : State) : ∃ ts, toks e (.arcHelp c t) = some ts ∧
    Leaves ts s (inked (helpGs e) (polyline [s.last, e.pt 6 c, e.pt 6 t])) := by
  refine ⟨_, rfl, ?_⟩
  obtain ⟨st, la, g, pa, sv, pg⟩ := s
  simp [Leaves, helpToks, exec, step, go, P3.toks, State.pop3, State.doStroke, Path.moveTo, Path.lineTo, Path.none, helpGs, inked,
    polyline]

theorem spline_leaves (a b c d : Axes ℚ) (s : State) : ∃ ts, toks e (.splineHelp a b c d) = some ts ∧
    Leaves ts s (inked (helpGs e) [(e.pt 6 a, e.place 6 (b .X) (b .Y) (a .Z)), (e.place 6 (c .X) (c .Y) (a .Z), e.pt 6 d)]) := by
  refine ⟨_, rfl, ?_⟩
  obtain ⟨st, la, g, pa, sv, pg⟩ := s
  simp [Leaves, helpToks, exec, step, go, P3.toks, State.pop3, State.doStroke, Path.moveTo, Path.lineTo, Path.none, helpGs, inked]

theorem mark_leaves (he : 0 ≤ e.size) (o : Axes ℚ) (s : State) : ∃ ts, toks e (.mark o) = some ts ∧
    Leaves ts s (markInk e s.gs o) := by
  obtain ⟨w, cs, -, hcs, -⟩ := Hershey.C81_lines (e.name o) 0 e.size .center (size := 3 / 2 * e.size) (by linarith)
  refine ⟨_, by show markToks e o = _; rw [markToks, hcs]; rfl, ?_⟩
  obtain ⟨st, la, g, pa, sv, pg⟩ := s
  unfold Leaves
  rw [exec_append, exec_append]
  have h1 : exec [.currentpoint3d, .stroke, .gsave, .color .originText, .setrgbcolor, .num 0, .setlinewidth] ⟨st, la, g, pa, sv, pg⟩ =
      some ⟨.num la.z :: .num la.y :: .num la.x :: st, la, { g with color := Name.originText.rgb, width := 0 }, Path.none,
        (g, Path.none) :: sv, pg ++ inked g pa.lines⟩ := rfl
  rw [h1, Option.bind_some]
  obtain ⟨la', pa', h2, h3⟩ := exec_text e o cs ⟨.num la.z :: .num la.y :: .num la.x :: st, la,
    { g with color := Name.originText.rgb, width := 0 }, Path.none, (g, Path.none) :: sv, pg ++ inked g pa.lines⟩
    (fun _ => drawText_head hcs)
  rw [h2, Option.bind_some]
  simp only [Path.none, List.nil_append] at h3
  simp [markInk, hcs, ← h3, octagon, exec, step, go, P3.toks, State.pop3, State.doStroke, Path.moveTo, Path.lineTo, Path.none, Path.close, inked,
    polyline]

/-! ### C102 -/

/-- C102. The marks and help lines appear, and leave operands, place, colour, width and dashes as they were: from whatever state, and
without an error. -/
theorem C102_marks (he : 0 ≤ e.size) (s : State) :
    (∀ o, Leaves (homeToks e o) s (homeInk e s.gs o)) ∧
    (∀ o, ∃ ts, toks e (.mark o) = some ts ∧ Leaves ts s (markInk e s.gs o)) ∧
    (∀ c t, ∃ ts, toks e (.arcHelp c t) = some ts ∧
      Leaves ts s (inked (helpGs e) (polyline [s.last, e.pt 6 c, e.pt 6 t]))) ∧
    (∀ a b c d, ∃ ts, toks e (.splineHelp a b c d) = some ts ∧
      Leaves ts s (inked (helpGs e) [(e.pt 6 a, e.place 6 (b .X) (b .Y) (a .Z)), (e.place 6 (c .X) (c .Y) (a .Z), e.pt 6 d)])) :=
  ⟨fun o => home_leaves e o s, fun o => mark_leaves e he o s, fun c t => arc_leaves e c t s, fun a b c d => spline_leaves e a b c d s⟩

/-- Where the pen is, and how it draws. -/
structure Pen where
  place : P3
  gs : Gs

/-- What a call of the device does to the pen. -/
def Pen.after (n : Pen) : Draw → Pen
  | .moveTo p => { n with place := e.pt 6 p }
  | .lineTo p => { n with place := e.pt 3 p }
  | .black => { n with gs := { n.gs with color := ⟨0, 0, 0⟩, width := e.pr 3 (e.diag / 1000) } }
  | .style r => { n with gs := { n.gs with color := (if r then Name.gcodeRapidMove else Name.gcodeMove).rgb,
                                           width := e.pr 3 (if r then 0 else e.diag / 1000) } }
  | .gray v => { n with gs := { n.gs with color := ⟨e.pr 2 v, e.pr 2 v, e.pr 2 v⟩ } }
  | _ => n

/-- What is painted by a call of the device; `true` for a line of the path. -/
def Pen.paints (n : Pen) : Draw → List (Bool × Ink)
  | .lineTo p => [(true, .line n.gs n.place (e.pt 3 p))]
  | .arcHelp c t => (inked (helpGs e) (polyline [n.place, e.pt 6 c, e.pt 6 t])).map (false, ·)
  | .splineHelp a b c d => (inked (helpGs e)
      [(e.pt 6 a, e.place 6 (b .X) (b .Y) (a .Z)), (e.place 6 (c .X) (c .Y) (a .Z), e.pt 6 d)]).map (false, ·)
  | .mark o => (markInk e n.gs o).map (false, ·)
  | _ => []

/-- All that is painted. -/
def painted : Pen → List Draw → List (Bool × Ink)
  | _, [] => []
  | n, d :: ds => n.paints e d ++ painted (n.after e d) ds

/-- The pen in the end. -/
def penEnd : Pen → List Draw → Pen
  | n, [] => n
  | n, d :: ds => penEnd (n.after e d) ds

/-- A state with the pen down at its place and all painted. -/
def State.down (s : State) (n : Pen) (ink : List Ink) : State :=
  { s with last := n.place, gs := n.gs, path := Path.none.moveTo n.place, page := s.page ++ ink }

theorem one (he : 0 ≤ e.size) (s : State) (n : Pen) (d : Draw) (hd : d ≠ .stroke) : ∃ ts, toks e d = some ts ∧
    exec ts (s.down n []) = some (s.down (n.after e d) ((n.paints e d).map Prod.snd)) := by
  have key : ∀ ts ink, Leaves ts (s.down n []) ink → exec ts (s.down n []) = some (s.down n ink) := by
    intro ts ink h
    rw [Leaves] at h
    rw [h]
    simp [State.down, Path.moveTo, Path.none, inked]
  cases d with
  | stroke => exact absurd rfl hd
  | arcHelp c t =>
    obtain ⟨ts, h1, h2⟩ := arc_leaves e c t (s.down n [])
    refine ⟨ts, h1, ?_⟩
    rw [key _ _ h2]
    simp [Pen.after, Pen.paints, Function.comp_def, State.down]
  | splineHelp a b c d =>
    obtain ⟨ts, h1, h2⟩ := spline_leaves e a b c d (s.down n [])
    refine ⟨ts, h1, ?_⟩
    rw [key _ _ h2]
    simp [Pen.after, Pen.paints, Function.comp_def]
  | mark o =>
    obtain ⟨ts, h1, h2⟩ := mark_leaves e he o (s.down n [])
    refine ⟨ts, h1, ?_⟩
    rw [key _ _ h2]
    simp [Pen.after, Pen.paints, Function.comp_def, State.down]
  | _ =>
    refine ⟨_, rfl, ?_⟩
    simp [P3.toks, exec, step, State.pop3, State.down, State.doStroke, Path.moveTo, Path.lineTo, Path.none, Pen.after, Pen.paints]

/-- C102. The calls for the path and its marks never lead to an error of PostScript, leave the operands, and paint exactly this: each
`lineto_s` one line from where the pen is, in the colour and width set last, beside the marks and help lines, which do not move the pen. -/
theorem C102_page (he : 0 ≤ e.size) : ∀ (ds : List Draw) (s : State) (n : Pen), Draw.stroke ∉ ds →
    play e ds (s.down n []) = some (s.down (penEnd e n ds) ((painted e n ds).map Prod.snd)) := by
  intro ds
  induction ds with
  | nil => intro s n _; rfl
  | cons d ds ih =>
    intro s n hn
    obtain ⟨ts, h1, h2⟩ := one e he s n d (fun h => hn (h ▸ List.mem_cons_self))
    rw [play, h1, Option.bind_some, h2, Option.bind_some]
    have h3 : s.down (n.after e d) ((n.paints e d).map Prod.snd) =
        ({ s with page := s.page ++ (n.paints e d).map Prod.snd } : State).down (n.after e d) [] := by
      simp [State.down]
    rw [h3, ih _ _ (fun h => hn (List.mem_cons_of_mem _ h))]
    simp [State.down, painted, penEnd]

/-- C102. `ShowHomePos`, which is always called before the path (line 1452), gives a pen to begin with. -/
theorem C102_begin (o : Axes ℚ) (s : State) : ∃ s', exec (homeToks e o) s = some (State.down s' ⟨s.last, s.gs⟩ []) ∧
    s'.stack = s.stack ∧ s'.saved = s.saved ∧ s'.page = s.page ++ inked s.gs s.path.lines ++ homeInk e s.gs o := by
  have h := home_leaves e o s
  unfold Leaves at h
  exact ⟨{ s with page := s.page ++ inked s.gs s.path.lines ++ homeInk e s.gs o }, by rw [h]; simp [State.down], rfl, rfl, rfl⟩

/-- C102. With numbers printed exactly, the lines of the path are those of C82. -/
theorem C102_lines (hp : ∀ d x, e.pr d x = x) : ∀ (ds : List Draw) (pen : Axes ℚ) (n : Pen), n.place = ⟨pen .X, pen .Y, pen .Z⟩ →
    ((painted e n ds).filter Prod.fst).filterMap (fun i => match i.2 with | .line _ a b => some (a, b) | _ => none) =
      (paths pen ds).map fun l => ((⟨l.1 .X, l.1 .Y, l.1 .Z⟩ : P3), (⟨l.2 .X, l.2 .Y, l.2 .Z⟩ : P3)) := by
  have hpt : ∀ k p, e.pt k p = ⟨p .X, p .Y, p .Z⟩ := fun k p => by simp [Env.pt, Env.place, hp]
  have hf : ∀ l : List Ink, (l.map (fun i => (false, i))).filter Prod.fst = [] := fun l => by simp
  intro ds
  induction ds with
  | nil => intro pen n _; rfl
  | cons d ds ih =>
    intro pen n h
    rw [painted, List.filter_append, List.filterMap_append]
    cases d with
    | lineTo p =>
      rw [paths, List.map_cons, ih p _ (hpt 3 p)]
      simp [Pen.paints, h, hpt]
    | moveTo p => rw [paths, ih p _ (hpt 6 p)]; rfl
    | mark o => rw [Pen.paints, hf]; exact ih pen n h
    | arcHelp c t => rw [Pen.paints, hf]; exact ih pen n h
    | splineHelp a b c d => rw [Pen.paints, hf]; exact ih pen n h
    | black => exact ih pen (n.after e .black) h
    | style r => exact ih pen (n.after e (.style r)) h
    | gray v => exact ih pen (n.after e (.gray v)) h
    | stroke => exact ih pen n h

/-! ### Colour and width of the moves -/

/-- How a move is to look: rapid ones thin and gray, others black with a thousandth of the diagonal. -/
def styled (g : Gs) (rapid : Bool) : Gs :=
  if rapid then { g with color := Name.gcodeRapidMove.rgb, width := e.pr 3 0 }
  else { g with color := Name.gcodeMove.rgb, width := e.pr 3 (e.diag / 1000) }

/-- What the moves look like: each a line from where the machine was, after homing from its origin. -/
def wanted (origin : Axes ℚ) (g : Gs) : P3 → List Call → List Ink
  | _, [] => []
  | at_, .move rapid p :: cs => .line (styled e g rapid) at_ (e.pt 3 p) :: wanted origin g (e.pt 3 p) cs
  | _, .home :: cs => wanted origin g (e.pt 6 origin) cs
  | at_, _ :: cs => wanted origin g at_ cs

theorem painted_append : ∀ (a b : List Draw) (n : Pen), painted e n (a ++ b) = painted e n a ++ painted e (penEnd e n a) b
  | [], _, _ => rfl
  | d :: a, b, n => by
    rw [List.cons_append, painted, painted, penEnd, painted_append a b, List.append_assoc]

theorem moves_from (o : Opts) (origin : Axes ℚ) (ho : o.includeOrigin = true) (hl : o.showLaser = false) (g : Gs) :
    ∀ (cs : List Call) (s : Visualizer.State) (n : Pen), s.pass = .generate → Call.start ∉ cs → n.gs = styled e g s.lastRapid →
      ((painted e n (run o origin s cs).2).filter Prod.fst).map Prod.snd = wanted e origin g n.place cs := by
  intro cs
  induction cs with
  | nil => intro s n _ _ _; rfl
  | cons c cs ih =>
    intro s n hp hs hg
    have hs' : Call.start ∉ cs := fun h => hs (List.mem_cons_of_mem _ h)
    have key : ∀ (d : List Draw) (s' : Visualizer.State), handle o origin s c = (s', d) → s'.pass = .generate →
        (penEnd e n d).gs = styled e g s'.lastRapid →
        (((painted e n d).filter Prod.fst).map Prod.snd ++ wanted e origin g (penEnd e n d).place cs =
          wanted e origin g n.place (c :: cs)) →
        ((painted e n (run o origin s (c :: cs)).2).filter Prod.fst).map Prod.snd = wanted e origin g n.place (c :: cs) := by
      intro d s' hh h1 h2 h3
      rw [← h3, ← ih s' (penEnd e n d) h1 hs' h2, ← List.map_append, ← List.filter_append, ← painted_append]
      simp only [run, hh]
    have hf : ∀ l : List Ink, (l.map (fun i => (false, i))).filter Prod.fst = [] := fun l => by simp
    cases c with
    | start => exact absurd List.mem_cons_self hs
    | finished b =>
      cases b
      · exact key [] s (by simp [handle, hp]) hp hg rfl
      · exact key [.stroke] s (by simp [handle, hp]) hp hg rfl
    | home =>
      exact key [.moveTo origin] { s with range := if o.includeOrigin then s.range.update origin else s.range, justHomed := true }
        (by simp [handle, goHome, hp]) hp hg rfl
    | move rapid p =>
      have hm : handle o origin s (.move rapid p) = ({ s with lastRapid := rapid, justHomed := false },
          (if rapid = s.lastRapid then [] else [Draw.style rapid]) ++ [.lineTo p]) := by
        simp [handle, doMove, ho, hl, hp]
      refine key _ _ hm hp ?_ ?_
      · by_cases hr : rapid = s.lastRapid
        · rw [if_pos hr]; subst hr; exact hg
        · rw [if_neg hr]
          cases rapid <;> cases hl : s.lastRapid <;> simp_all [penEnd, Pen.after, styled]
      · by_cases hr : rapid = s.lastRapid
        · rw [if_pos hr, hr]
          simp [painted, Pen.paints, penEnd, Pen.after, wanted, hg]
        · rw [if_neg hr]
          cases rapid <;> cases hl : s.lastRapid <;> simp_all [painted, Pen.paints, penEnd, Pen.after, wanted, styled]
    | arcHelp a b =>
      by_cases hi : o.showIjk = true
      · refine key [.arcHelp a b] s (by simp [handle, hp, hi]) hp hg ?_
        rw [painted, Pen.paints, List.filter_append, hf]
        rfl
      · exact key [] s (by simp [handle, hi]) hp hg rfl
    | splineHelp a b c d =>
      by_cases hi : o.showIjk = true
      · refine key [.splineHelp a b c d] s (by simp [handle, hp, hi]) hp hg ?_
        rw [painted, Pen.paints, List.filter_append, hf]
        rfl
      · exact key [] s (by simp [handle, hi]) hp hg rfl
    | spindle v => exact key [] _ rfl hp hg rfl
    | origin p =>
      refine key [.mark p] s (by simp [handle, hp]) hp hg ?_
      rw [painted, Pen.paints, List.filter_append, hf]
      rfl
    | commandDone l v =>
      refine key [] _ rfl ?_ ?_ rfl
      · show (if l = 'G' then _ else _ : Visualizer.State).pass = _
        split
        · split
          · exact hp
          · split <;> exact hp
        · exact hp
      · show n.gs = styled e g (if l = 'G' then _ else _ : Visualizer.State).lastRapid
        split
        · split
          · exact hg
          · split <;> exact hg
        · exact hg
    | other => exact key [] s rfl hp hg rfl

/-- C102, with restriction. If the program starts once, each of its moves is one line from where the machine was, rapid ones in their own
colour and thin, the others black; the first begins at the origin of the machine. -/
theorem C102_moves_partial (o : Opts) (origin : Axes ℚ) (ho : o.includeOrigin = true) (hl : o.showLaser = false) (cs : List Call)
    (s : Visualizer.State) (n : Pen) (hp : s.pass = .generate) (hr : s.lastRapid = false) (hs : Call.start ∉ cs) :
    ((painted e n (run o origin s (.start :: cs)).2).filter Prod.fst).map Prod.snd = wanted e origin n.gs (e.pt 6 origin) cs := by
  have h := moves_from e o origin ho hl n.gs cs s ((n.after e .black).after e (.moveTo origin)) hp hs (by rw [hr]; rfl)
  have h2 : (run o origin s (.start :: cs)).2 = [.black, .moveTo origin] ++ (run o origin s cs).2 := by
    simp [run, handle, hp, ho]
  rw [h2, painted_append]
  exact h

/-! ### Examples, and what does not hold -/

/-- Numbers as they are, a diagonal of 20. -/
def exact : Env := ⟨fun _ x => x, 20, 1 / 40, fun _ => [71, 53, 52]⟩

example : 0 ≤ exact.size := by decide +kernel

/-- The file as PostScript: what is seen of the path, with X of both ends. -/
def seen (lines : List (List Text.Byte)) : Option (List (Rgb × ℚ × ℚ)) :=
  (passes lines).bind fun (first, reset, second) =>
    let ds := (visualize {} (fun _ => 0) (fun _ => 0) first reset second).2
    some (((painted exact ⟨⟨0, 0, 0⟩, ⟨⟨0, 0, 0⟩, 0, none⟩⟩ ds).filter Prod.fst).filterMap fun i =>
      match i.2 with
      | .line g a b => some (g.color, a.x, b.x)
      | _ => none)

open _root_.BeagleG.Parser (text) in
/-- A rapid move is gray, others are black. -/
example : seen [text "G0 X10", text "G1 X12 F60", text "G0 X5"] =
    some [(⟨7 / 10, 7 / 10, 7 / 10⟩, 0, 10), (⟨0, 0, 0⟩, 10, 12), (⟨7 / 10, 7 / 10, 7 / 10⟩, 12, 5)] := by decide +kernel

open _root_.BeagleG.Parser (text) in
/-- C102, not as hoped for: behind the end of a program (`M2`) `gcode_start` comes again. The next line begins at the origin of the
machine, although the machine is elsewhere, and a rapid move is painted like the others. -/
theorem C102_restart : seen [text "G0 X10", text "M2", text "G0 X20"] =
    some [(⟨7 / 10, 7 / 10, 7 / 10⟩, 0, 10), (⟨0, 0, 0⟩, 0, 20)] := by decide +kernel

/-- The PostScript of a path with a curve and the mark of an origin runs. -/
example : (play exact [.black, .moveTo fun _ => 0, .mark fun _ => 3, .style true, .lineTo fun _ => 5,
    .arcHelp (fun _ => 1) (fun _ => 2), .gray (1 / 2), .lineTo fun _ => 6, .stroke]
    ⟨[.num 1], ⟨0, 0, 0⟩, ⟨⟨0, 0, 0⟩, 0, none⟩, Path.none.moveTo ⟨0, 0, 0⟩, [], []⟩).map
    (fun s => (s.stack, s.last, s.gs.color, s.saved.length)) = some ([.num 1], ⟨6, 6, 6⟩, ⟨1 / 2, 1 / 2, 1 / 2⟩, 0) := by decide +kernel

/-- Without a current point `lineto3ds` is an error: `ShowHomePos` before the path is needed. -/
theorem C102_no_point (s : State) (p : Axes ℚ) (h : s.path.cur = none) : play e [.lineTo p] s = none := by
  simp [play, toks, P3.toks, exec, step, State.pop3, Path.lineTo, h]

end BeagleG.Visualizer.Ps
