import Verif.Life.OptionsProps
import Verif.Setup.RunProps
import Verif.Life.Props

/-!
# C90: what the options mean
-/
namespace BeagleG.Life.Cmd

open BeagleG.Text (Byte)
open BeagleG.Planner (Arith)

variable {F : Type}

/-- The arguments of an option, in order. -/
def given (items : List Item) (code : Code) : List (List Byte) :=
  items.filterMap fun
    | .opt c arg => if c = code then some (arg.getD []) else none
    | .bad => none

/-- The option is there. -/
def has (items : List Item) (code : Code) : Bool := !(given items code).isEmpty

/-- The argument of the last such option. -/
def last (items : List Item) (code : Code) : Option (List Byte) := (given items code).getLast?

section
variable (A : Arith F) (L : Libc F)

/-- What the options say: a switch is on if it is there, a value is that of the last option that gives it. -/
def meaning (cwd : List Byte) (v : Vars F) (items : List Item) : Vars F where
  speedFactor := ((last items .factor).map L.atof).getD v.speedFactor
  thresholdAngle := ((last items .thresholdAngle).map L.atof).getD v.thresholdAngle
  speedTuneAngle := ((last items .speedTuneAngle).map L.atof).getD v.speedTuneAngle
  acknowledge := v.acknowledge && !has items .disableAckOk
  debugPrint := v.debugPrint || has items .verbose
  synchronous := v.synchronous || has items .synchronous
  requireHoming := v.requireHoming || has items .requireHoming
  dontRequireHoming := v.dontRequireHoming || has items .dontRequireHoming
  disableRangeCheck := v.disableRangeCheck || has items .disableRangeCheck
  dryRun := v.dryRun || (has items .dry || has items .simulate || has items .wav)
  simulation := v.simulation || has items .simulate
  wav := ((last items .wav).map fun a => if L.create a then some a else none).getD v.wav
  port := ((last items .port).map L.atoi).getD v.port
  statusPort := ((last items .statusServer).map L.atoi).getD v.statusPort
  bindAddr := ((last items .bind).map some).getD v.bindAddr
  logfile := ((last items .logfile).map some).getD v.logfile
  param := ((last items .paramFile).map (makeAbsolute cwd)).getD v.param
  daemon := v.daemon || has items .daemon
  config := ((last items .config).map fun a => some ((L.realpath a).getD a)).getD v.config
  privs := (last items .privs).getD v.privs
  allowM111 := v.allowM111 || has items .enableM111
  emptied := v.emptied ++ (given items .wav).filter L.create

/-- All options are known, complete and allowed. -/
def Fine (items : List Item) : Prop :=
  Item.bad ∉ items ∧ has items .help = false ∧ ∀ a ∈ given items .factor, A.le (L.atof a) (A.ofInt 0) = false

theorem given_cons (c : Code) (arg : Option (List Byte)) (rest : List Item) (code : Code) :
    given (.opt c arg :: rest) code = if c = code then arg.getD [] :: given rest code else given rest code := by
  unfold given
  rw [List.filterMap_cons]
  dsimp only
  split <;> rename_i h
  · split at h
    · cases h
    · rename_i hc; rw [if_neg hc]
  · split at h
    · rename_i hc; cases h; rw [if_pos hc]
    · cases h

theorem has_cons (c : Code) (arg : Option (List Byte)) (rest : List Item) (code : Code) :
    has (.opt c arg :: rest) code = (decide (c = code) || has rest code) := by
  unfold has
  rw [given_cons]
  by_cases h : c = code <;> simp [h]

theorem last_cons {α : Type} (c : Code) (arg : Option (List Byte)) (rest : List Item) (code : Code) (g : List Byte → α) (d : α) :
    ((last (.opt c arg :: rest) code).map g).getD d =
      ((last rest code).map g).getD (if c = code then g (arg.getD []) else d) := by
  unfold last
  rw [given_cons]
  by_cases h : c = code
  · rw [if_pos h, if_pos h, List.getLast?_cons]
    cases (given rest code).getLast? <;> rfl
  · rw [if_neg h, if_neg h]

theorem last_cons' (c : Code) (arg : Option (List Byte)) (rest : List Item) (code : Code) (d : List Byte) :
    (last (.opt c arg :: rest) code).getD d = (last rest code).getD (if c = code then arg.getD [] else d) := by
  have := last_cons c arg rest code id d
  simpa using this

theorem meaning_cons (cwd : List Byte) (v v' : Vars F) (c : Code) (arg : Option (List Byte)) (rest : List Item)
    (h : v.option A L cwd c (arg.getD []) = some v') : meaning L cwd v (.opt c arg :: rest) = meaning L cwd v' rest := by
  unfold meaning
  simp only [last_cons, last_cons', has_cons, given_cons]
  cases c <;>
    (unfold Vars.option at h; dsimp only at h
     first
     | (cases h; done)
     | (cases h; simp; done)
     | (cases h; by_cases hc : L.create (arg.getD []) = true <;> simp [hc])
     | (split at h <;> [cases h; (cases h; simp)]))

theorem loop_eq (cwd : List Byte) : ∀ (items : List Item) (v : Vars F),
    (Fine A L items → loop A L cwd v items = ⟨meaning L cwd v items, false⟩) ∧
    (¬ Fine A L items → (loop A L cwd v items).returned = true)
  | [], v => by
    refine ⟨fun _ => ?_, fun h => absurd ⟨by simp, rfl, by simp [given]⟩ h⟩
    have : meaning L cwd v [] = v := by simp [meaning, last, has, given]
    rw [this]
    rfl
  | .bad :: rest, v => ⟨fun h => absurd List.mem_cons_self h.1, fun _ => rfl⟩
  | .opt c arg :: rest, v => by
    have hfine : Fine A L (.opt c arg :: rest) ↔ Fine A L rest ∧ c ≠ .help ∧
        (c = .factor → A.le (L.atof (arg.getD [])) (A.ofInt 0) = false) := by
      unfold Fine
      rw [has_cons, given_cons]
      by_cases h1 : c = .help
      · simp [h1]
      · by_cases h2 : c = .factor
        · simp [h2]
          tauto
        · simp [h1, h2]
    rw [loop]
    cases ho : v.option A L cwd c (arg.getD []) with
    | none =>
      have hbad : ¬ Fine A L (.opt c arg :: rest) := by
        rw [hfine]
        rintro ⟨_, h1, h2⟩
        unfold Vars.option at ho
        cases c <;> simp at ho h1
        rw [h2 rfl] at ho
        cases ho
      exact ⟨fun h => absurd h hbad, fun _ => rfl⟩
    | some v' =>
      have hok : Fine A L (.opt c arg :: rest) ↔ Fine A L rest := by
        rw [hfine]
        refine ⟨fun h => h.1, fun h => ⟨h, ?_, ?_⟩⟩
        · rintro rfl
          cases ho
        · rintro rfl
          unfold Vars.option at ho
          dsimp only at ho
          split at ho
          · cases ho
          · rename_i hh; simpa using hh
      rw [hok, meaning_cons A L cwd v v' c arg rest ho]
      exact loop_eq cwd rest v'

/-- What the options of the command line say. -/
def said (cwd : List Byte) (args : List (List Byte)) : Vars F := meaning L cwd (Vars.start A) (scan args).items

/-- **C90, meaning**: if the command line is accepted, each switch is on if it was given, each value is the one given last or
the default, the file is the first one, and lines are acknowledged if there is no file and `--noack-ok` is not given. -/
theorem C90_meaning (cwd : List Byte) (args : List (List Byte)) (r : Call F) (h : (parse A L cwd args).2 = some r) :
    r.vars = said A L cwd args ∧ r.file = (scan args).files.head? ∧
    (r.acknowledge = true ↔ (scan args).files = [] ∧ has (scan args).items .disableAckOk = false) := by
  unfold parse at h
  dsimp only at h
  by_cases hf : Fine A L (scan args).items
  · rw [(loop_eq A L cwd _ _).1 hf] at h
    split at h
    · cases h
    · cases h
      refine ⟨rfl, rfl, ?_⟩
      simp [meaning, Vars.start, and_comm]
  · rw [(loop_eq A L cwd _ (Vars.start A)).2 hf] at h
    simp at h

/-- **C90, accepted**: exactly the command lines are accepted whose options are known and complete, do not ask for help, give
no speed factor of 0 or less, whose angles do not add up to 90 degrees, which do not ask for both kinds of homing, and which have
either a file or a port. -/
theorem C90_accepted (cwd : List Byte) (args : List (List Byte)) :
    (parse A L cwd args).2.isSome ↔
      Fine A L (scan args).items ∧
      A.le (A.ofInt 90) (A.add (said A L cwd args).thresholdAngle (said A L cwd args).speedTuneAngle) = false ∧
      ¬ (has (scan args).items .requireHoming = true ∧ has (scan args).items .dontRequireHoming = true) ∧
      ((scan args).files = [] ↔ 0 < (said A L cwd args).port) := by
  unfold parse
  dsimp only
  by_cases hf : Fine A L (scan args).items
  · rw [(loop_eq A L cwd _ _).1 hf]
    have hr : ((said A L cwd args).refused A !(scan args).files.isEmpty) = false ↔
        A.le (A.ofInt 90) (A.add (said A L cwd args).thresholdAngle (said A L cwd args).speedTuneAngle) = false ∧
        ¬ (has (scan args).items .requireHoming = true ∧ has (scan args).items .dontRequireHoming = true) ∧
        ((scan args).files = [] ↔ 0 < (said A L cwd args).port) := by
      unfold Vars.refused
      have e1 : (said A L cwd args).requireHoming = has (scan args).items .requireHoming := by simp [said, meaning, Vars.start]
      have e2 : (said A L cwd args).dontRequireHoming = has (scan args).items .dontRequireHoming := by
        simp [said, meaning, Vars.start]
      rw [e1, e2]
      generalize A.le _ _ = x
      generalize has (scan args).items .requireHoming = y
      generalize has (scan args).items .dontRequireHoming = z
      generalize (scan args).files = l
      generalize (said A L cwd args).port = p
      by_cases hp : 0 < p <;> cases x <;> cases y <;> cases z <;> cases l <;> simp [hp]
    rw [← hr]
    change (if (false || (said A L cwd args).refused A !(scan args).files.isEmpty) = true then none else some _).isSome = true ↔ _
    rw [Bool.false_or]
    cases (said A L cwd args).refused A !(scan args).files.isEmpty <;> simp [hf]
  · rw [(loop_eq A L cwd _ (Vars.start A)).2 hf]
    simp [hf]

/-- **C90, order**: only the order of options of the same kind matters. -/
theorem C90_order (cwd : List Byte) (args args' : List (List Byte)) (hf : (scan args).files = (scan args').files)
    (hb : Item.bad ∈ (scan args).items ↔ Item.bad ∈ (scan args').items)
    (hg : ∀ code, given (scan args).items code = given (scan args').items code) :
    (parse A L cwd args).2 = (parse A L cwd args').2 := by
  have hfine : Fine A L (scan args).items ↔ Fine A L (scan args').items := by
    unfold Fine has
    rw [hb, hg, hg]
  have hm : meaning L cwd (Vars.start A) (scan args).items = meaning L cwd (Vars.start A) (scan args').items := by
    unfold meaning last has
    simp only [hg]
  unfold parse
  dsimp only
  rw [hf]
  by_cases h : Fine A L (scan args).items
  · rw [(loop_eq A L cwd _ _).1 h, (loop_eq A L cwd _ _).1 (hfine.1 h), hm]
  · rw [(loop_eq A L cwd _ (Vars.start A)).2 h, (loop_eq A L cwd _ (Vars.start A)).2 (fun h' => h (hfine.2 h'))]
    simp

/-- **C90, passed on**: what the setup and the rest of `main` are given passes their own tests: the same conditions are not
refused later. -/
theorem C90_passed (cwd : List Byte) (args : List (List Byte)) (r : Call F) (h : (parse A L cwd args).2 = some r)
    (h1 : A.le (A.ofInt 1) (A.ofInt 0) = false) :
    (∃ c, r.setup.machine A = some c) ∧ r.life.file.isSome ≠ r.life.port := by
  have hacc := (C90_accepted A L cwd args).1 (by rw [h]; rfl)
  obtain ⟨e1, e2, e3⟩ := C90_meaning A L cwd args r h
  obtain ⟨⟨_, _, hff⟩, ha, hh, hp⟩ := hacc
  constructor
  · unfold Setup.Options.machine Call.setup
    rw [e1]
    have hsf : A.le (said A L cwd args).speedFactor (A.ofInt 0) = false := by
      unfold said meaning last
      dsimp only
      cases hl : (given (scan args).items .factor).getLast? with
      | none => exact h1
      | some a => exact hff a (List.mem_of_getLast? hl)
    have q1 : (said A L cwd args).requireHoming = has (scan args).items .requireHoming := by simp [said, meaning, Vars.start]
    have q2 : (said A L cwd args).dontRequireHoming = has (scan args).items .dontRequireHoming := by
      simp [said, meaning, Vars.start]
    simp only [Option.map_some, hsf, Option.getD_some, ha, q1, q2]
    rw [if_neg (by simp), if_neg (by simp), if_neg (by simpa using hh)]
    exact ⟨_, rfl⟩
  · unfold Call.life
    rw [e1, e2]
    dsimp only
    intro hx
    cases hfi : (scan args).files with
    | nil => rw [hfi] at hx hp; simp at hx hp; omega
    | cons a l => rw [hfi] at hx hp; simp at hx hp; omega

open BeagleG.Setup (startUp fileSetting Shapes Val) in
open BeagleG.Hardware (Cape Hw) in
/-- **C90, command line and file**: the options for homing and the range check prevail over the file, the speed factor and the
angles are those of the command line; but for the choice of the synchronous mode the file prevails. -/
theorem C90_file_partial {D : Type} (N : Config.Numbers D F) (cwd : List Byte) (args : List (List Byte)) (r : Call F)
    (h : (parse A L cwd args).2 = some r) {cape : Cape} {content : List Byte} {hw : Hw F} {both : Hw F → Bool}
    {ready : Setup.Ready F} (hr : startUp A N cape r.setup content hw both = some ready) {shapes : List Config.Shape}
    (hs : Shapes content shapes) :
    (Val.flag ready.machine.requireHoming =
      if has (scan args).items .dontRequireHoming then .flag false else if has (scan args).items .requireHoming then .flag true
      else fileSetting shapes .requireHoming (.flag true)) ∧
    (Val.flag ready.machine.rangeCheck =
      if has (scan args).items .disableRangeCheck then .flag false else fileSetting shapes .rangeCheck (.flag true)) ∧
    ready.machine.speedFactor = ((last (scan args).items .factor).map L.atof).getD (A.ofInt 1) ∧
    ready.planner.thresholdAngle = ((last (scan args).items .thresholdAngle).map L.atof).getD (A.ofInt 10) ∧
    ready.planner.speedTuneAngle = ((last (scan args).items .speedTuneAngle).map L.atof).getD (A.ofInt 60) ∧
    Val.flag ready.planner.synchronous = fileSetting shapes .synchronous (.flag (has (scan args).items .synchronous)) := by
  obtain ⟨e1, _, _⟩ := C90_meaning A L cwd args r h
  obtain ⟨m1, _, _, _, _, m2, m3, _⟩ := Setup.C63_machine A N hr hs
  obtain ⟨_, _, _, p1, p2, p3, _⟩ := Setup.C63_planner A N hr hs
  unfold Call.setup at m1 m2 m3 p1 p2 p3
  rw [e1] at m1 m2 m3 p1 p2 p3
  refine ⟨?_, ?_, m1, p1, p2, ?_⟩
  · simpa [said, meaning, Vars.start] using m3
  · simpa [said, meaning, Vars.start] using m2
  · simpa [said, meaning, Vars.start] using p3

end

/-! ### Examples -/

open BeagleG.Setup (ascii startUp exNum)
open BeagleG.Hardware (Hw cramps)
open BeagleG.Planner (intArith)

/-- Numbers as integers; every file can be created but those in `/proc`. -/
def exLibc : Libc Int where
  atof s := (Setup.parseInt s).getD 0
  atoi s := (Setup.parseInt s).getD 0
  realpath _ := none
  create s := !(ascii "/proc").isPrefixOf s

/-- A command line. -/
def exCall (args : List String) : List (List Byte) × Option (Call Int) := parse intArith exLibc (ascii "/root") (args.map ascii)

/-- Long options can be abbreviated, letters joined, files and options mixed. -/
example : Writes (["a.gcode", "--thr=5", "-nPc", "my.config", "--homing-required", "-f3"].map ascii)
    [.opt .thresholdAngle (some (ascii "5")), .opt .dry none, .opt .verbose none, .opt .config (some (ascii "my.config")),
     .opt .requireHoming none, .opt .factor (some (ascii "3"))] [ascii "a.gcode"] :=
  (C90_forms _ _ _).2 (by decide +kernel)

example : ((exCall ["a.gcode", "--thr=5", "-nPc", "my.config", "--homing-required", "-f3"]).2.map fun r =>
    (r.file, r.vars.thresholdAngle, r.vars.speedFactor, r.vars.dryRun, r.acknowledge)) =
    some (some (ascii "a.gcode"), 5, 3, true, false) := by decide +kernel

/-- `--p` could be three options. -/
example : (exCall ["-c", "x", "--p", "4444"]).2.isNone = true ∧ (exCall ["-c", "x", "--po", "4444"]).2.isSome = true ∧
    (exCall ["-c", "x", "-p4444", "a.gcode"]).2.isNone = true ∧ (exCall ["-c", "x"]).2.isNone = true ∧
    (exCall ["-c", "x", "-p4444", "-f", "0"]).2.isNone = true ∧ (exCall ["-c", "x", "-p4444", "--thresh", "30"]).2.isNone = true ∧
    (exCall ["-c", "x", "-p"]).2.isNone = true := by decide +kernel

/-- **The file prevails over `-S`**: with `synchronous = no` in the file the option that says "don't queue" has no effect, while
`--homing-required` and `--norange-check` hold whatever the file says. -/
theorem C90_synchronous : ((exCall ["a.gcode", "-c", "x", "-S", "-n", "--homing-required", "--norange-check"]).2.bind fun r =>
    (startUp intArith exNum cramps r.setup
      (ascii "[general]\nsynchronous=no\nrequire-homing=no\nrange-check=yes\n[x-axis]\nsteps-per-mm=9\nmax-feedrate=8")
      (Hw.blank Int) (fun _ => false)).map fun q =>
        (r.vars.synchronous, q.planner.synchronous, q.machine.requireHoming, q.machine.rangeCheck)) =
    some (true, false, true, false) := by decide +kernel

/-- **More than one file**: all but the first are ignored. -/
theorem C90_second_file : (exCall ["a.gcode", "b.gcode", "-c", "x"]).2.map (·.file) = some (some (ascii "a.gcode")) := by
  decide +kernel

/-- **File and port**: a port that is 0, negative or not a number does not count, so that with a file it goes unnoticed. -/
theorem C90_port_and_file : (exCall ["a.gcode", "-c", "x", "-p", "0"]).2.isSome = true ∧
    (exCall ["a.gcode", "-c", "x", "-p", "http"]).2.isSome = true ∧ (exCall ["a.gcode", "-c", "x", "-p", "80"]).2.isNone = true := by
  decide +kernel

/-- **The sound file is lost**: `-W` empties the file at once, even if the command line is refused, for instance because of the
option after it. -/
theorem C90_emptied : (exCall ["-W", "song.wav", "-c", "x", "--volume"]).1 = [ascii "song.wav"] ∧
    (exCall ["-W", "song.wav", "-c", "x", "--volume"]).2.isNone = true := by decide +kernel

/-- **No sound file**: if the file cannot be created the program runs without it and does not say so; a simulation (`-N`)
comes before it. -/
theorem C90_no_sound : ((exCall ["-W", "/proc/x.wav", "-c", "x", "a.gcode"]).2.map fun r => dryBackend r.life) = some .dummy ∧
    ((exCall ["-W", "x.wav", "-c", "x", "a.gcode"]).2.map fun r => dryBackend r.life) = some .audio ∧
    ((exCall ["-N", "-W", "x.wav", "-c", "x", "a.gcode"]).2.map fun r => dryBackend r.life) = some .simulation := by
  decide +kernel

/-- **Where messages go**: to the standard error stream; from a daemon without `-l`, and with an empty name, to the system log. -/
theorem C90_log (v : Vars F) : v.log = none ↔ v.logfile = some [] ∨ (v.daemon = true ∧ v.logfile = none) := by
  unfold Vars.log
  dsimp only
  cases v.daemon <;> cases v.logfile with
  | none => simp [ascii]
  | some n => cases n <;> simp

/-- Numbers with one that is not comparable. -/
def nanArith : Arith (Option Int) where
  ofInt := some
  add a b := a.bind fun x => b.map fun y => x + y
  sub a b := a.bind fun x => b.map fun y => x - y
  mul a b := a.bind fun x => b.map fun y => x * y
  div a b := a.bind fun x => b.map fun y => x / y
  abs a := a.map fun x => x.natAbs
  sqrt a := a
  acos a := a
  cos a := a
  lt a b := match a, b with | some x, some y => decide (x < y) | _, _ => false
  le a b := match a, b with | some x, some y => decide (x ≤ y) | _, _ => false
  eq a b := match a, b with | some x, some y => decide (x = y) | _, _ => false
  toInt a := a.getD 0
  toU32 a := (a.getD 0).toNat
  lround a := a.getD 0
  toFloat a := a
  pi := some 3
  eps := some 0

/-- **Not a number**: `-f nan` is not refused, nor is such an angle, because the tests ask whether a number is too small or too
large. -/
theorem C90_nan : ((parse nanArith ⟨fun s => if s = ascii "nan" then none else Setup.parseInt s, fun _ => 0, fun _ => none,
      fun _ => true⟩ [] (["a.gcode", "-c", "x", "-f", "nan", "--threshold-angle=nan"].map ascii)).2.map fun r =>
    (r.vars.speedFactor, r.vars.thresholdAngle)) = some (none, none) := by decide +kernel

end BeagleG.Life.Cmd
