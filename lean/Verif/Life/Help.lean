import Verif.Life.Options
import Verif.Visualizer.Options
import Verif.Stats.Tool
/-!
# The usage texts and the options (C105)

The left columns of the usage texts of the three programs (/repo/src/machine-control.cc lines 54-107, gcode2ps.cc lines 1104-1139 and
gcode-print-stats.cc lines 35-45), and that the options are taken as they are shown there.

Simplification: of the texts only what is left of the colon is kept, without the tabs and the blanks at the end.
-/
namespace BeagleG.Life.Help

open Text (Byte)
open Setup (ascii)
open Cmd

/-- The lines with options of machine-control.cc 64-104. -/
def control : List (List Byte) := [
  ascii "  -c, --config <config-file>",
  ascii "  -p, --port <port>",
  ascii "  -b, --bind-addr <bind-ip>",
  ascii "  -l, --logfile <logfile>",
  ascii "      --param <paramfile>",
  ascii "  -d, --daemon",
  ascii "      --priv <uid>[:<gid>]",
  ascii "      --help",
  ascii "  -f <factor>",
  ascii "  -n",
  ascii "  -P",
  ascii "  -S",
  ascii "      --allow-m111",
  ascii "     --threshold-angle",
  ascii "     --speed-tune-angle",
  ascii "     --homing-required",
  ascii "     --nohoming-required",
  ascii "     --norange-check"]

/-- The lines with options of gcode2ps.cc 1108-1135. -/
def picture : List (List Byte) := [
  ascii "-o <output-file>",
  ascii "-c <config>",
  ascii "-T <tool-diameter>",
  ascii "-t <threshold-angle>",
  ascii "-A <speed-tune-angle>",
  ascii "-q",
  ascii "-s",
  ascii "-G",
  ascii "-M",
  ascii "-l",
  ascii "-i",
  ascii "-r",
  ascii "-D",
  ascii "-w<width>",
  ascii "-e<distance>",
  ascii "-S<scale>",
  ascii "-a<frames>",
  ascii "-g<grid>",
  ascii "-C<caption>",
  ascii "-R<roll>",
  ascii "-P<roll>",
  ascii "-Y<roll>",
  ascii "-V<view>"]

/-- The lines with options of gcode-print-stats.cc 39-41. -/
def stats : List (List Byte) := [ascii "-c <config>", ascii "-f <factor>", ascii "-H"]

/-! ### How a person reads a line -/

/-- The words of a line. -/
def words (line : List Byte) : List (List Byte) := (line.splitOn 32).filter fun w => !w.isEmpty

/-- The spellings of the option in a line: the words that begin with `-`, up to a comma or an argument. -/
def spellings (line : List Byte) : List (List Byte) :=
  ((words line).filter fun w => w.head? == some 45).map (List.takeWhile fun b => b ≠ 44 && b ≠ 60)

/-- The line shows an argument, as `<...>`. -/
def shows (line : List Byte) : Bool := line.contains 60

/-! ### machine-control -/

/-- The entry of the tables for a word of the command line. -/
def entry : List Byte → Option (HasArg × Code)
  | 45 :: 45 :: l => if l = [] ∨ 61 ∈ l then none else findLong l
  | [45, ch] => shortOption ch
  | _ => none

/-- The option a line is about. -/
def about (line : List Byte) : Option Code := (((spellings line).head?).bind entry).map Prod.snd

/-- A word of the command line is taken as this option, wherever it is: with the next word, whatever that is, as its argument or without. -/
def Taken (c : Code) (arg : Bool) (o : List Byte) : Prop :=
  ∀ s : Scan, s.pending = none → s.ended = false →
    if arg then ∀ a, (s.arg o).arg a = s.add [.opt c (some a)] else s.arg o = s.add [.opt c none]

theorem takeWhile_none (l : List Byte) (h : 61 ∉ l) : l.takeWhile (· ≠ 61) = l ∧ l.dropWhile (· ≠ 61) = [] := by
  induction l with
  | nil => exact ⟨rfl, rfl⟩
  | cons x l ih =>
    have hx : decide (x ≠ 61) = true := by
      rw [decide_eq_true_eq]; rintro rfl; exact h List.mem_cons_self
    obtain ⟨h1, h2⟩ := ih fun hm => h (List.mem_cons_of_mem _ hm)
    exact ⟨by rw [List.takeWhile_cons, if_pos hx, h1], by rw [List.dropWhile_cons, if_pos hx, h2]⟩

theorem arg_of_entry {o : List Byte} {k : HasArg} {c : Code} (h : entry o = some (k, c)) {s : Scan}
    (hp : s.pending = none) (he : s.ended = false) (hk : k ≠ .optional) :
    s.arg o = if k = .required then { s with pending := some c } else s.add [.opt c none] := by
  unfold entry at h
  split at h
  · rename_i l
    by_cases hl : l = [] ∨ 61 ∈ l
    · rw [if_pos hl] at h; cases h
    rw [if_neg hl] at h
    obtain ⟨h1, h2⟩ := not_or.1 hl
    obtain ⟨t1, t2⟩ := takeWhile_none l h2
    have : s.arg (45 :: 45 :: l) = s.long l := by
      cases l with
      | nil => exact absurd rfl h1
      | cons x l => simp [Scan.arg, hp, he]
    rw [this, Scan.long, t1, t2, h]
    cases k with
    | no => rfl
    | required => rfl
    | optional => exact absurd rfl hk
  · rename_i ch hne
    have hch : ch ≠ 45 := by
      rintro rfl
      exact hne rfl
    have : s.arg [45, ch] = s.letters [ch] := by
      unfold Scan.arg
      rw [hp]
      simp only [he, Bool.false_eq_true, if_false]
      split
      · rename_i e; simp at e; exact absurd e hch
      · rename_i e; simp at e; exact absurd e.1 hch
      · rename_i e; simp at e; rw [e.1, e.2]
      · rename_i e1 e2 e3; exact absurd rfl (e3 ch [])
    rw [this, Scan.letters, h]
    cases k with
    | no => rfl
    | required => rfl
    | optional => exact absurd rfl hk
  · cases h

theorem taken_arg {o : List Byte} {c : Code} (h : entry o = some (.required, c)) : Taken c true o := by
  intro s hp he
  rw [if_pos rfl]
  intro a
  rw [arg_of_entry h hp he (by decide), if_pos rfl]
  cases s
  simp only at hp
  subst hp
  rfl

theorem taken_no {o : List Byte} {c : Code} (h : entry o = some (.no, c)) : Taken c false o := by
  intro s hp he
  rw [if_neg Bool.false_ne_true, arg_of_entry h hp he (by decide), if_neg (by decide)]

/-- The two lines that do not show their argument. -/
def angles : List (List Byte) := [ascii "     --threshold-angle", ascii "     --speed-tune-angle"]

/-- **C105** (as far as it holds) Each line of the usage text of `machine-control` is about an option, and all its spellings are taken as this
option, with an argument exactly if one is shown. -/
theorem C105_control_partial : ∀ line ∈ control, line ∉ angles →
    ∃ c, spellings line ≠ [] ∧ ∀ o ∈ spellings line, Taken c (shows line) o := by
  have key : ∀ line ∈ control, line ∉ angles → spellings line ≠ [] ∧ (about line).isSome = true ∧
      ∀ o ∈ spellings line, entry o = (about line).map fun c => (if shows line then HasArg.required else .no, c) := by
    decide +kernel
  intro line hl hn
  obtain ⟨h1, h2, h3⟩ := key line hl hn
  obtain ⟨c, hc⟩ := Option.isSome_iff_exists.1 h2
  refine ⟨c, h1, fun o ho => ?_⟩
  have := h3 o ho
  rw [hc, Option.map_some] at this
  cases hs : shows line with
  | true => rw [hs] at this; exact taken_arg this
  | false => rw [hs] at this; exact taken_no this

/-- Each line is about an option of its own. -/
theorem C105_distinct : (control.map about).Nodup ∧ none ∉ control.map about := by decide +kernel

/-- **C105** fails: the usage text shows the two angles without an argument, but they take the next word, whatever it is; alone they are refused.
-/
theorem C105_angles : ∀ line ∈ angles, line ∈ control ∧ shows line = false ∧ ∀ o ∈ spellings line, ∃ c,
    Taken c true o ∧ (scan [o]).items = [.bad] := by
  have key : ∀ line ∈ angles, line ∈ control ∧ shows line = false ∧ (about line).isSome = true ∧
      ∀ o ∈ spellings line, entry o = (about line).map (fun c => (HasArg.required, c)) ∧ (scan [o]).items = [.bad] := by
    decide +kernel
  intro line hl
  obtain ⟨h1, h2, h3, h4⟩ := key line hl
  obtain ⟨c, hc⟩ := Option.isSome_iff_exists.1 h3
  refine ⟨h1, h2, fun o ho => ⟨c, ?_, (h4 o ho).2⟩⟩
  have := (h4 o ho).1
  rw [hc] at this
  exact taken_arg this

/-- The options that are not in the usage text. -/
theorem C105_hidden :
    (longOptions.map fun e => 45 :: 45 :: e.1).filter (fun o => !(control.any fun l => (spellings l).contains o)) =
      [ascii "--loop", ascii "--status-server", ascii "--noack-ok"] ∧
    ((List.range 256).map UInt8.ofNat).filter (fun ch => (shortOption ch).isSome &&
      !(control.any fun l => (spellings l).contains [45, ch])) = ascii "NW" := by
  decide +kernel

/-- The log goes to the error output if the program stays in the foreground, as the text says; as a daemon it does not, the text does not tell. -/
theorem C105_log {F : Type} (v : Vars F) (h : v.logfile = none) :
    v.log = if v.daemon then none else some (ascii "/dev/stderr") := by
  unfold Vars.log
  rw [h]
  cases v.daemon <;> rfl

/-- The other values in the text are those of the program. -/
theorem C105_defaults {F : Type} (A : Planner.Arith F) :
    (Vars.start A).speedFactor = A.ofInt 1 ∧ (Vars.start A).thresholdAngle = A.ofInt 10 ∧
    (Vars.start A).speedTuneAngle = A.ofInt 60 ∧ (Vars.start A).privs = ascii "daemon:daemon" ∧
    (Vars.start A).dryRun = false ∧ (Vars.start A).debugPrint = false ∧ (Vars.start A).synchronous = false ∧
    (Vars.start A).allowM111 = false := ⟨rfl, rfl, rfl, rfl, rfl, rfl, rfl, rfl⟩

/-- Non-vacuity: two spellings, with an argument. -/
example : ascii "  -c, --config <config-file>" ∉ angles ∧ about (ascii "  -c, --config <config-file>") = some .config ∧
    spellings (ascii "  -c, --config <config-file>") = [ascii "-c", ascii "--config"] ∧
    shows (ascii "  -c, --config <config-file>") = true := by decide +kernel

/-! ### gcode2ps -/

/-- **C105** Each line of the usage text of `gcode2ps` is about one letter, that is taken as shown: with an argument, which is the next word
or the rest of the same word, or without. -/
theorem C105_picture : ∀ line ∈ picture, ∃ ch, spellings line = [[45, ch]] ∧
    ∀ s : Visualizer.Options.Scan, s.pending = none → s.ended = false →
      if shows line then (∀ a, (s.next [45, ch]).next a = s.add (.opt ch a)) ∧
        ∀ a, a ≠ [] → s.next (45 :: ch :: a) = s.add (.opt ch a)
      else s.next [45, ch] = s.add (.opt ch []) := by
  have key : ∀ line ∈ picture, ∃ ch ∈ Visualizer.Options.withArg ++ Visualizer.Options.without, ch ≠ 45 ∧ spellings line = [[45, ch]] ∧
      decide (ch ∈ Visualizer.Options.withArg) = shows line ∧ decide (ch ∈ Visualizer.Options.without) = !shows line := by decide +kernel
  intro line hl
  obtain ⟨ch, -, hne, h1, h2, h3⟩ := key line hl
  refine ⟨ch, h1, fun s hp he => ?_⟩
  have next : ∀ a, s.next (45 :: ch :: a) = s.letters (ch :: a) := by
    intro a
    unfold Visualizer.Options.Scan.next
    rw [hp]
    simp only [he, Bool.false_eq_true, if_false]
    split
    · rename_i e; simp at e; exact absurd e.1 hne
    · rename_i e; simp at e; rw [e.1, e.2]
    · rename_i e1 e2; exact absurd rfl (e2 ch a)
  cases hs : shows line with
  | true =>
    rw [hs, decide_eq_true_eq] at h2
    rw [if_pos rfl]
    refine ⟨fun a => ?_, fun a ha => ?_⟩
    · rw [next, Visualizer.Options.Scan.letters, if_pos h2, if_pos rfl]
      cases s
      simp only at hp
      subst hp
      rfl
    · rw [next, Visualizer.Options.Scan.letters, if_pos h2, if_neg ha]
  | false =>
    rw [hs] at h2 h3
    rw [decide_eq_false_iff_not] at h2
    rw [Bool.not_false, decide_eq_true_eq] at h3
    rw [if_neg Bool.false_ne_true, next, Visualizer.Options.Scan.letters, if_neg h2, if_pos h3, Visualizer.Options.Scan.letters]

/-- Only `-h`, that shows the text, is not in it. -/
theorem C105_picture_hidden : (Visualizer.Options.withArg ++ Visualizer.Options.without).filter
    (fun ch => !(picture.any fun l => (spellings l).contains [45, ch])) = ascii "h" := by decide +kernel

/-! ### gcode-print-stats -/

/-- **C105** The three options of `gcode-print-stats` are taken as shown; `-v` is not shown. -/
theorem C105_stats (s : Stats.Tool.Scan) (hp : s.pending = none) (he : s.ended = false) (a : List Byte) :
    stats.map spellings = [[ascii "-c"], [ascii "-f"], [ascii "-H"]] ∧ stats.map shows = [true, true, false] ∧
    (s.next (ascii "-c")).next a = s.add (.config a) ∧ (s.next (ascii "-f")).next a = s.add (.factor a) ∧
    s.next (ascii "-H") = s.add .header ∧ s.next (ascii "-v") = s.add .verbose := by
  refine ⟨by decide +kernel, by decide +kernel, ?_, ?_, ?_, ?_⟩ <;> cases s <;> simp only at hp he <;> subst hp <;>
    subst he <;> rfl

end BeagleG.Life.Help
