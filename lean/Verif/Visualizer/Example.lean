import Verif.Visualizer.GrayProps
import Verif.Parser.Example

/-!
# C82, C83: examples, and what does not hold
-/

namespace BeagleG.Visualizer

open _root_.BeagleG.Parser (Axis Axes Receiver ratNum ratReceiver text runLines)

/-! ## The visualizer with the parser -/

/-- What the visualizer sees of the events of the parser.  The help lines of curves are not among them. -/
def call : Parser.Event Rat → Call
  | .start => .start
  | .finished b => .finished b
  | .originOffset p _ => .origin p
  | .commandDone l v => .commandDone (Char.ofNat l.toNat) v
  | .goHome _ => .home
  | .spindleSpeed v => .spindle v
  | .coordinatedMove _ p => .move false p
  | .rapidMove _ p => .move true p
  | _ => .other

/-- The answers of the visualizer: all moves are made (gcode2ps.cc line 739), words without meaning end
their line (lines 778-780). -/
def receiver : Receiver Rat := { ratReceiver true with discards := fun _ => true }

/-- The block that `Reset` parses (gcode2ps.cc lines 1140-1156). -/
def resetBlock : List Text.Byte := text
  "\nG90\nG10 L2 P1 X0Y0Z0\nG10 L2 P2 X0Y0Z0\nG10 L2 P3 X0Y0Z0\nG10 L2 P4 X0Y0Z0\nG10 L2 P5 X0Y0Z0\nG10 L2 P6 X0Y0Z0\nG10 L2 P7 X0Y0Z0\nG10 L2 P8 X0Y0Z0\nG10 L2 P9 X0Y0Z0\nG28\nM02"

/-- The calls of the first pass, of `Reset` and of the second pass, for a file with these lines:
gcode2ps.cc lines 1367-1370 and 1455.  The end of a file is announced in line 2003 of gcode-parser.cc. -/
def passes (lines : List (List Text.Byte)) : Option (List Call × List Call × List Call) :=
  let s0 : Parser.State Rat := { Parser.ratState with log := [] }
  match runLines ratNum receiver 0 s0 lines with
  | .ok s1 =>
    match runLines ratNum receiver 0 { s1 with log := [] } [resetBlock] with
    | .ok s2 =>
      match runLines ratNum receiver 0 { s2 with log := [] } lines with
      | .ok s3 => some (s1.log.reverse.map call ++ [.finished true], s2.log.reverse.map call,
          s3.log.reverse.map call ++ [.finished true])
      | _ => none
    | _ => none
  | _ => none

/-- The lines of the path, for X, and whether they are within the frame. -/
def shown (lines : List (List Text.Byte)) : Option (List (Rat × Rat) × Rat × Rat) :=
  (passes lines).map fun (first, reset, second) =>
    ((paths (fun _ => 0) (visualize {} (fun _ => 0) (fun _ => 0) first reset second).2).map
      (fun e => (e.1 .X, e.2 .X)),
      (shownRange {} (fun _ => 0) (fun _ => 0) first reset).lo 0,
      (shownRange {} (fun _ => 0) (fun _ => 0) first reset).hi 0)

/-- A file that gcode2ps draws beyond the frame. -/
def Escapes (lines : List (List Text.Byte)) : Prop :=
  ∃ first reset second, passes lines = some (first, reset, second) ∧
    ∃ e ∈ paths (fun _ => 0) (visualize {} (fun _ => 0) (fun _ => 0) first reset second).2,
      ¬ (shownRange {} (fun _ => 0) (fun _ => 0) first reset).Has e.2

theorem escapes {lines : List (List Text.Byte)} {l : List (Rat × Rat)} {lo hi : Rat}
    (h : shown lines = some (l, lo, hi)) {q : Rat × Rat} (hq : q ∈ l) (hlt : hi < q.2) : Escapes lines := by
  unfold shown at h
  cases hp : passes lines with
  | none => rw [hp] at h; cases h
  | some r =>
    obtain ⟨first, reset, second⟩ := r
    rw [hp] at h
    simp only [Option.map_some, Option.some.injEq, Prod.mk.injEq] at h
    obtain ⟨h1, _, h3⟩ := h
    rw [← h1] at hq
    obtain ⟨e, he, rfl⟩ := List.mem_map.1 hq
    refine ⟨first, reset, second, hp, e, he, fun hh => ?_⟩
    have := (hh 0).2
    rw [h3] at this
    exact absurd (lt_of_lt_of_le hlt this) (lt_irrefl _)

/-- Non-vacuity of `C82_box`: relative moves, and an end of the program in between. -/
example : shown [text "G1 X5 F60", text "G91", text "G0 X2", text "M2", text "G0 X1"] =
    some ([(0, 5), (5, 7), (0, 1)], 0, 7) := by decide +kernel

/-- **C82 does not hold for files with parameters**: `Reset` does not forget them, so the second pass begins
with other values than the first. -/
theorem C82_parameters : Escapes [text "#1=[#1+10]", text "G1 X#1 F60"] :=
  escapes (l := [(0, 20)]) (lo := 0) (hi := 10) (by decide +kernel) (q := (0, 20)) (by simp) (by norm_num)

/-- **C82 does not hold for files that end in another coordinate system than they begin with**: `Reset` sets
all systems to zero, but does not select the first. -/
theorem C82_system : Escapes [text "G10 L2 P2 X10", text "G0 X1", text "G55"] :=
  escapes (l := [(0, 11)]) (lo := 0) (hi := 1) (by decide +kernel) (q := (0, 11)) (by simp) (by norm_num)

/-- The position with this X. -/
def atX (x : Rat) : Axes Rat
  | .X => x
  | _ => 0

/-- **C82 does not hold for the help lines of arcs**: the center may be far from all positions. -/
theorem C82_arc_help : ∃ (calls : List Call) (center target : Axes Rat),
    Draw.arcHelp center target ∈ (visualize {} (fun _ => 0) (fun _ => 0) calls [.home] calls).2 ∧
      ¬ (shownRange {} (fun _ => 0) (fun _ => 0) calls [.home]).Has center := by
  refine ⟨[.start, .arcHelp (atX 100) (atX 1), .move false (atX 1), .finished true], atX 100, atX 1, ?_, ?_⟩
  · simp [visualize, run, handle, doMove, goHome, State.setPass, initial]
  · intro h
    have := (h 0).2
    revert this
    decide +kernel

/-! ## Gray -/

/-- The colour of a line. -/
inductive Ink where
  | black
  | moves
  | rapids
  | gray (v : Rat)
deriving DecidableEq

/-- The colours of the lines, with the colour `ink` before. -/
def inks : Ink → List Draw → List Ink
  | _, [] => []
  | ink, .lineTo _ :: ds => ink :: inks ink ds
  | _, .black :: ds => inks .black ds
  | _, .style rapid :: ds => inks (if rapid then .rapids else .moves) ds
  | _, .gray v :: ds => inks (.gray v) ds
  | ink, _ :: ds => inks ink ds

/-- The colours of the lines of a file, with option `-l`. -/
def colours (lines : List (List Text.Byte)) : Option (List Ink) :=
  (passes lines).map fun (first, reset, second) =>
    inks .black (visualize { showLaser := true } (fun _ => 0) (fun _ => 0) first reset second).2

/-- Non-vacuity of `C83_gray_partial` and `C83_change_partial`. -/
example : colours [text "G1 X1 S200 F60", text "G1 X2 S700", text "G1 X3 S1200", text "G1 X4 S200"] =
    some [.gray 1, .gray (1 / 2), .gray 0, .gray 1] := by decide +kernel

/-- **C83 does not hold behind a rapid move**: it changes the colour, and the next line has that of moves
(black) instead of its gray level, because the speed has not changed. -/
theorem C83_rapid : colours [text "G1 X1 S200 F60", text "G1 X2 S1200", text "G1 X3 S200", text "G0 X4",
      text "G1 X5"] =
    some [.gray 1, .gray 0, .gray 1, .rapids, .moves] := by decide +kernel

/-- **C83 does not hold before the first speed**: the second pass begins with the last speed of the file. -/
theorem C83_before_first : colours [text "G1 X1 F60", text "G1 X2 S200", text "G1 X3 S1200"] =
    some [.gray 0, .gray 1, .gray 0] := by decide +kernel

/-- **C83 does not hold for speed 1 at the beginning**: it is taken for the gray level that is already set,
the line is black, where the slowest speed should be white. -/
theorem C83_speed_one : colours [text "G1 X1 S1 F60", text "G1 X2 S1000"] = some [.black, .gray 0] := by
  decide +kernel

/-- **C83 does not hold for a speed that is given with M3**: only S words of moves are seen.  The word M3 is
without meaning for the parser; the visualizer drops the rest of the line, a move behind it as well. -/
theorem C83_spindle_on : colours [text "M3 S200", text "G1 X1 F60", text "M3 S1000 G1 X2", text "G1 X3"] =
    some [.black, .black] ∧
    shown [text "M3 S200", text "G1 X1 F60", text "M3 S1000 G1 X2", text "G1 X3"] =
      some ([(0, 1), (1, 3)], 0, 3) := by
  constructor <;> decide +kernel

end BeagleG.Visualizer
