import Verif.Stats.Tool
import Verif.Setup.InitProps
import Verif.Setup.Example
import Verif.Planner.Exact
/-!
# The program `gcode-print-stats`: what its table says (C96)
-/
namespace BeagleG.Stats.Tool

open BeagleG.Text (Byte)
open BeagleG.Planner (Arith Axis)
open BeagleG.Setup (ascii Ready Machine configureMachine Acceptable)
open BeagleG.Hardware (Hw)
open BeagleG.LineBuf (Stream)

variable {D F : Type} (A : Arith F) (W : Sys F)

/-! ### The command line -/

/-- An answer of `getopt` that ends the program. -/
def Item.Wrong : Item → Prop
  | .factor a => A.le (W.atof a) (A.ofInt 0) = true
  | .bad => True
  | _ => False

/-- The last one of some kind. -/
def lastOf {α : Type} (f : Item → Option α) (l : List Item) : Option α := (l.filterMap f).getLast?

/-- The name of the configuration file. -/
def Item.path : Item → Option (List Byte)
  | .config a => some a
  | _ => none

/-- The factor as text. -/
def Item.number : Item → Option (List Byte)
  | .factor a => some a
  | _ => none

theorem take_none (v : Vars F) (i : Item) : v.take A W i = none ↔ i.Wrong A W := by
  cases i <;> simp [Vars.take, Item.Wrong]

theorem takeAll_cons (v : Vars F) (i : Item) (l : List Item) :
    v.takeAll A W (i :: l) = (v.take A W i).bind fun v => v.takeAll A W l := rfl

theorem takeAll_none : ∀ (l : List Item) (v : Vars F), v.takeAll A W l = none ↔ ∃ i ∈ l, i.Wrong A W
  | [], v => by simp [Vars.takeAll]
  | i :: l, v => by
    rw [takeAll_cons]
    cases h : v.take A W i with
    | none => exact ⟨fun _ => ⟨i, List.mem_cons_self, (take_none A W v i).1 h⟩, fun _ => rfl⟩
    | some v' =>
      have hw : ¬ i.Wrong A W := fun hw => by rw [(take_none A W v i).2 hw] at h; cases h
      rw [Option.bind_some, takeAll_none l v']
      simp [hw]

theorem lastOf_cons {α : Type} (f : Item → Option α) (i : Item) (l : List Item) :
    lastOf f (i :: l) = (lastOf f l).or (f i) := by
  unfold lastOf
  cases h : f i with
  | none => rw [List.filterMap_cons_none h]; cases (List.filterMap f l).getLast? <;> rfl
  | some x =>
    rw [List.filterMap_cons_some h]
    cases hl : List.filterMap f l with
    | nil => rfl
    | cons y t => rw [List.getLast?_cons_cons]; rw [List.getLast?_cons]; rfl

/-- The variables after the loop. -/
theorem takeAll_some : ∀ (l : List Item) (v v' : Vars F), v.takeAll A W l = some v' →
    v'.config = (lastOf Item.path l).or v.config ∧
    v'.factor = ((lastOf Item.number l).map W.atof).getD v.factor ∧
    v'.header = (v.header ^^ decide (l.count .header % 2 = 1)) ∧
    v'.verbose = (v.verbose || decide (Item.verbose ∈ l))
  | [], v, v', h => by
    cases h
    simp [lastOf]
  | i :: l, v, v', h => by
    rw [takeAll_cons] at h
    cases hi : v.take A W i with
    | none => rw [hi] at h; cases h
    | some u =>
      rw [hi, Option.bind_some] at h
      obtain ⟨h1, h2, h3, h4⟩ := takeAll_some l u v' h
      rw [lastOf_cons, lastOf_cons]
      cases i with
      | config a =>
        cases hi
        refine ⟨?_, ?_, ?_, ?_⟩
        · rw [h1]; cases lastOf Item.path l <;> rfl
        · rw [h2]; cases lastOf Item.number l <;> rfl
        · rw [h3]; simp
        · rw [h4]; simp
      | factor a =>
        simp only [Vars.take] at hi
        split at hi
        · cases hi
        · cases hi
          refine ⟨?_, ?_, ?_, ?_⟩
          · rw [h1]; cases lastOf Item.path l <;> rfl
          · rw [h2]; cases lastOf Item.number l <;> rfl
          · rw [h3]; simp
          · rw [h4]; simp
      | header =>
        cases hi
        refine ⟨?_, ?_, ?_, ?_⟩
        · rw [h1]; cases lastOf Item.path l <;> rfl
        · rw [h2]; cases lastOf Item.number l <;> rfl
        · rw [h3, List.count_cons_self]
          rcases Nat.mod_two_eq_zero_or_one (List.count Item.header l) with e | e
          · have : (List.count Item.header l + 1) % 2 = 1 := by omega
            cases v.header <;> simp [e, this]
          · have : (List.count Item.header l + 1) % 2 = 0 := by omega
            cases v.header <;> simp [e, this]
        · rw [h4]; simp
      | verbose =>
        cases hi
        refine ⟨?_, ?_, ?_, ?_⟩
        · rw [h1]; cases lastOf Item.path l <;> rfl
        · rw [h2]; cases lastOf Item.number l <;> rfl
        · rw [h3]; simp
        · rw [h4]; simp
      | bad => cases hi

/-- **C96** The usage is shown exactly if an option is unknown or lacks its argument, if a factor is not above zero, or if no
file is named; then nothing else happens. -/
theorem C96_usage (N : Config.Numbers D F) (desk : Desk) (args : List (List Byte)) :
    main A W N desk args = .failed .usage ↔ (∃ i ∈ (scan args).items, i.Wrong A W) ∨ (scan args).files = [] := by
  rw [← takeAll_none A W (scan args).items (Vars.start A)]
  unfold main
  dsimp only
  cases h : Vars.takeAll A W (Vars.start A) (scan args).items with
  | none => simp
  | some v =>
    dsimp only
    by_cases hf : (scan args).files = []
    · simp [hf]
    · rw [if_neg hf]
      simp only [hf, or_false, reduceCtorEq, iff_false]
      split
      · simp
      · split
        · simp
        · split
          · simp
          · split <;> simp

/-! ### The rows -/

/-- What the table says about a file that was looked at. -/
def verdict (w : Nat) (name : List Byte) (a : Option (Nat × Stats F)) : List Byte :=
  match a with
  | some (0, s) => row W w name s
  | _ => notProcessed name

/-- The stream a name stands for; `-` is the standard input. -/
def source (stdin : Option Obj) (opened : Nat) (name : List Byte) : Option Stream :=
  if name = ascii "-" then
    match stdin with
    | some (.input s) => some s
    | _ => none
  else W.file opened name

/-- The standard input after the file. -/
def stdinAfter (stdin : Option Obj) (name : List Byte) : Option Obj :=
  if name = ascii "-" then
    match stdin with
    | some (.input _) => none
    | o => o
  else stdin

/-- The rows as they should be read: each file on its own, but the standard input only once. `opened` files were asked for and
`read` streams read before. -/
def rowsSpec (r : Ready F) (w : Nat) : (stdin : Option Obj) → (opened read : Nat) → List (List Byte) → List (List Byte)
  | _, _, _, [] => []
  | stdin, opened, read, name :: names =>
    verdict W w name ((source W stdin opened name).map (W.look read r)) ::
      rowsSpec r w (stdinAfter stdin name) (if name = ascii "-" then opened else opened + 1)
        (if (source W stdin opened name).isSome then read + 1 else read) names

/-- Finitely many descriptors are in use. -/
def Room (tab : Nat → Option Obj) : Prop := ∃ k, ∀ n, k ≤ n → tab n = none

/-- `open` chooses a descriptor that is free. -/
def Honest : Prop := ∀ tab : Nat → Option Obj, Room tab → tab (W.free tab) = none

theorem room_set {d : Desk} (h : Room d.tab) (fd : Nat) (o : Option Obj) : Room (d.set fd o).tab := by
  obtain ⟨k, hk⟩ := h
  refine ⟨max k (fd + 1), fun n hn => ?_⟩
  have h1 : k ≤ n := Nat.le_trans (Nat.le_max_left _ _) hn
  have h2 : fd + 1 ≤ n := Nat.le_trans (Nat.le_max_right _ _) hn
  show (if n = fd then o else d.tab n) = none
  rw [if_neg (by omega), hk n h1]

theorem desk_set_other {d : Desk} {fd n : Nat} (o : Option Obj) (h : n ≠ fd) : (d.set fd o).tab n = d.tab n := by
  simp [Desk.set, h]

theorem desk_set_same (d : Desk) (fd : Nat) (o : Option Obj) : (d.set fd o).tab fd = o := by simp [Desk.set]

theorem verdict_eq (w : Nat) (name : List Byte) (a : Nat × Stats F) :
    (match (if a.1 = 0 then some a.2 else none : Option (Stats F)) with
      | some s => row W w name s
      | none => notProcessed name) = verdict W w name (some a) := by
  obtain ⟨n, s⟩ := a
  cases n <;> rfl

/-- One file. -/
theorem fileRow_spec (hW : Honest W) {c : Machine F} {r : Ready F} (hr : Setup.init A c (created A) = some r) (w : Nat)
    (d : Desk) (hd : Room d.tab) (name : List Byte) :
    (fileRow A W c w d name).1 = verdict W w name ((source W (d.tab 0) d.opened name).map (W.look d.read r)) ∧
    (fileRow A W c w d name).2.tab 0 = stdinAfter (d.tab 0) name ∧
    (fileRow A W c w d name).2.opened = (if name = ascii "-" then d.opened else d.opened + 1) ∧
    (fileRow A W c w d name).2.read = (if (source W (d.tab 0) d.opened name).isSome then d.read + 1 else d.read) ∧
    Room (fileRow A W c w d name).2.tab := by
  unfold fileRow openInput determine
  simp only [hr]
  by_cases hn : name = ascii "-"
  · simp only [source, stdinAfter, if_pos hn]
    cases h0 : d.tab 0 with
    | none => exact ⟨rfl, h0, rfl, rfl, hd⟩
    | some o =>
      cases o with
      | other => exact ⟨rfl, h0, rfl, rfl, hd⟩
      | input s => exact ⟨verdict_eq W w name _, desk_set_same d 0 none, rfl, rfl, room_set hd 0 none⟩
  · simp only [source, stdinAfter, if_neg hn]
    cases hf : W.file d.opened name with
    | none => exact ⟨rfl, rfl, rfl, rfl, hd⟩
    | some s =>
      dsimp only
      rw [desk_set_same]
      refine ⟨verdict_eq W w name _, ?_, rfl, rfl, ?_⟩
      rotate_left
      · have h1 : Room (Desk.set { d with opened := d.opened + 1 } (W.free d.tab) (some (Obj.input s))).tab :=
          room_set (d := { d with opened := d.opened + 1 }) hd _ _
        exact room_set h1 _ _
      show (if 0 = W.free d.tab then none else if 0 = W.free d.tab then some (Obj.input s) else d.tab 0) = d.tab 0
      by_cases h0 : 0 = W.free d.tab
      · rw [if_pos h0]
        have := hW d.tab hd
        rw [← h0] at this
        exact this.symm
      · rw [if_neg h0, if_neg h0]

/-- **C96** With an acceptable configuration there is one row for each file, in their order, and each tells about that file alone,
whatever was looked at before it: the statistics if the file could be read and had no errors, otherwise that it was not processed. -/
theorem C96_rows_partial (hW : Honest W) {c : Machine F} {r : Ready F} (hr : Setup.init A c (created A) = some r) (w : Nat) :
    ∀ (names : List (List Byte)) (d : Desk), Room d.tab →
      fileRows A W c w d names = rowsSpec W r w (d.tab 0) d.opened d.read names
  | [], d, _ => rfl
  | name :: names, d, hd => by
    obtain ⟨h1, h2, h3, h4, h5⟩ := fileRow_spec A W hW hr w d hd name
    rw [fileRows, rowsSpec, h1, C96_rows_partial hW hr w names _ h5, h2, h3, h4]

/-- **C96** Whatever happens there is a row for each file. -/
theorem C96_count (c : Machine F) (w : Nat) : ∀ (names : List (List Byte)) (d : Desk),
    (fileRows A W c w d names).length = names.length
  | [], d => rfl
  | name :: names, d => by rw [fileRows, List.length_cons, C96_count c w names, List.length_cons]

/-- **C96** Files that are not the standard input, when the system and the parser answer the same at every call: the row of a file
is a function of the file. -/
theorem C96_alone (hW : Honest W) {c : Machine F} {r : Ready F} (hr : Setup.init A c (created A) = some r) (w : Nat)
    {file : List Byte → Option Stream} {look : Stream → Nat × Stats F} (hf : ∀ n name, W.file n name = file name)
    (hl : ∀ n s, W.look n r s = look s) (names : List (List Byte)) (hn : ∀ name ∈ names, name ≠ ascii "-") (d : Desk)
    (hd : Room d.tab) :
    fileRows A W c w d names = names.map fun name => verdict W w name ((file name).map look) := by
  rw [C96_rows_partial A W hW hr _ _ _ hd]
  generalize d.tab 0 = stdin
  generalize d.opened = o
  generalize d.read = k
  induction names generalizing stdin o k with
  | nil => rfl
  | cons name names ih =>
    have h1 : source W stdin o name = file name := by
      unfold source; rw [if_neg (hn name List.mem_cons_self), hf]
    have h2 : W.look k r = look := funext fun s => hl k s
    rw [rowsSpec, h1, h2, ih fun x hx => hn x (List.mem_cons_of_mem _ hx)]
    rfl

/-- **C96 (negative)** The standard input can be named once only: the second `-` is never processed. -/
theorem C96_dash_twice (hW : Honest W) {c : Machine F} {r : Ready F} (hr : Setup.init A c (created A) = some r) (w : Nat)
    (d : Desk) (hd : Room d.tab) : ∃ x, fileRows A W c w d [ascii "-", ascii "-"] = [x, notProcessed (ascii "-")] := by
  rw [C96_rows_partial A W hW hr _ _ _ hd]
  simp only [rowsSpec, source, stdinAfter, if_true]
  cases d.tab 0 with
  | none => exact ⟨_, rfl⟩
  | some o => cases o <;> exact ⟨_, rfl⟩

/-- **C96** With a configuration the machine control refuses no file is processed - and the program ends as if all were well
(`C96_finished`). -/
theorem C96_unfit {c : Machine F} (hc : Setup.init A c (created A) = none) (w : Nat) :
    ∀ (names : List (List Byte)) (d : Desk), fileRows A W c w d names = names.map notProcessed
  | [], d => rfl
  | name :: names, d => by
    rw [fileRows, C96_unfit hc w names, List.map_cons]
    unfold fileRow determine
    simp only [hc]

/-! ### The settings -/

/-- **C96** The configuration is accepted whatever it says about homing, and only the numbers, the clamping and the number of axes
matter. -/
theorem C96_accepted (c : Machine F) (factor : F) : (Setup.init A (settings c factor) (created A)).isSome = true ↔
    (∀ a, A.lt (c.stepsPerMm a) (A.ofInt 0) = false) ∧ (∀ a, A.lt (c.maxFeedrate a) (A.ofInt 0) = false) ∧
    (∀ a, A.lt (c.acceleration a) (A.ofInt 0) = false) ∧ (∀ l ∈ c.clampToRange, Setup.letter2axis l = some 2) ∧
    (Setup.needyAxes A (created A) c).length ≤ 8 ∧
    ∀ a, Setup.needy A (created A) c a = true →
      A.le (A.abs (c.stepsPerMm a)) (A.ofInt 0) = false ∧ A.le (c.maxFeedrate a) (A.ofInt 0) = false := by
  rw [Setup.C63_accepted]
  have hfree : (Setup.freeMotors (created A)).length = 8 := by
    have : Setup.freeMotors (created A) = Setup.freeMotors (created Planner.intArith) := rfl
    rw [this]; decide
  have hno : ∀ a, Hardware.hasMotorFor (created A) a = false := by
    intro a
    have : Hardware.hasMotorFor (created A) a = Hardware.hasMotorFor (created Planner.intArith) a := rfl
    rw [this]; clear this; revert a; decide
  constructor
  · intro h
    refine ⟨h.steps, h.feedrate, h.acceleration, h.clamp, ?_, fun a ha => h.moving a (Or.inr ha)⟩
    have := h.motors
    rw [hfree] at this
    exact this
  · rintro ⟨h1, h2, h3, h4, h5, h6⟩
    refine ⟨h1, h2, h3, fun a => Or.inl rfl, h4, ?_, fun a ha => ?_⟩
    · rw [hfree]; exact h5
    · rcases ha with ha | ha
      · rw [hno] at ha; cases ha
      · exact h6 a ha

theorem generalOption_angles (c : Machine F) (name value : List Byte) :
    (Setup.generalOption c name value).2.thresholdAngle = c.thresholdAngle ∧
    (Setup.generalOption c name value).2.speedTuneAngle = c.speedTuneAngle := by
  unfold Setup.generalOption Setup.acceptString Setup.acceptBool Setup.acceptInt
  repeat' split
  all_goals exact ⟨rfl, rfl⟩

theorem acceptExpr_angles (N : Config.Numbers D F) (c : Machine F) (value : List Byte) (store : F → Machine F)
    (h : ∀ v, (store v).thresholdAngle = c.thresholdAngle ∧ (store v).speedTuneAngle = c.speedTuneAngle) :
    (Setup.acceptExpr N c value store).2.thresholdAngle = c.thresholdAngle ∧
    (Setup.acceptExpr N c value store).2.speedTuneAngle = c.speedTuneAngle := by
  unfold Setup.acceptExpr
  split
  · exact ⟨rfl, rfl⟩
  · dsimp only
    split
    · exact ⟨rfl, rfl⟩
    · exact h _

theorem setHomePos_angles (c : Machine F) (a : Axis) (value : List Byte) :
    (Setup.setHomePos c a value).2.thresholdAngle = c.thresholdAngle ∧
    (Setup.setHomePos c a value).2.speedTuneAngle = c.speedTuneAngle := by
  unfold Setup.setHomePos
  dsimp only
  repeat' split
  all_goals exact ⟨rfl, rfl⟩

theorem axisOption_angles (N : Config.Numbers D F) (c : Machine F) (a : Axis) (name value : List Byte) :
    (Setup.axisOption N c a name value).2.thresholdAngle = c.thresholdAngle ∧
    (Setup.axisOption N c a name value).2.speedTuneAngle = c.speedTuneAngle := by
  unfold Setup.axisOption
  repeat' (split; · first
    | exact acceptExpr_angles N c value _ fun _ => ⟨rfl, rfl⟩
    | exact setHomePos_angles c a value)
  exact ⟨rfl, rfl⟩

/-- The angles of the reader are those given. -/
def Same (c : Machine F) (r : Setup.MachineReader F) : Prop :=
  r.config.thresholdAngle = c.thresholdAngle ∧ r.config.speedTuneAngle = c.speedTuneAngle

theorem seenNameValue_same (N : Config.Numbers D F) (c : Machine F) (r : Setup.MachineReader F) (name value : List Byte)
    (h : Same c r) : Same c (r.seenNameValue N name value).2 := by
  unfold Setup.MachineReader.seenNameValue Same
  dsimp only
  split
  · obtain ⟨h1, h2⟩ := generalOption_angles r.config name value
    exact ⟨h1.trans h.1, h2.trans h.2⟩
  · split
    · obtain ⟨h1, h2⟩ := axisOption_angles N r.config _ name value
      exact ⟨h1.trans h.1, h2.trans h.2⟩
    · exact h

theorem seenSection_same (c : Machine F) (r : Setup.MachineReader F) (name : List Byte) (h : Same c r) :
    Same c (r.seenSection name).2 := by
  unfold Setup.MachineReader.seenSection
  dsimp only
  repeat' split
  all_goals exact h

theorem emitLine_same (N : Config.Numbers D F) (c : Machine F) (e : Config.Emit (Setup.MachineReader F)) (line : List Byte)
    (h : Same c e.reader) : Same c (Config.emitLine (Setup.machineReader N) e line).reader := by
  unfold Config.emitLine
  dsimp only [Setup.machineReader]
  split
  · exact h
  · split
    · split
      · exact h
      · exact seenSection_same c _ _ h
    · split
      · exact h
      · split
        · split <;> exact seenNameValue_same N c _ _ _ h
        · exact h

theorem emitLoop_same (N : Config.Numbers D F) (c : Machine F) : ∀ (n : Nat) (e : Config.Emit (Setup.MachineReader F))
    (source : List Byte), Same c e.reader → Same c (Config.emitLoop (Setup.machineReader N) n e source).reader
  | 0, e, source, h => h
  | n + 1, e, source, h => by
    unfold Config.emitLoop
    split
    · exact h
    · exact emitLoop_same N c n _ _ (emitLine_same N c e _ h)

/-- No configuration file sets the angles. -/
theorem configure_angles (N : Config.Numbers D F) (c : Machine F) (content : List Byte) :
    (configureMachine N c content).2.thresholdAngle = c.thresholdAngle ∧
    (configureMachine N c content).2.speedTuneAngle = c.speedTuneAngle :=
  emitLoop_same N c _ _ _ ⟨rfl, rfl⟩

/-- **C96** What the tool changes in the configuration of the file: the factor of the command line, no range check, no homing. -/
theorem C96_settings (c : Machine F) (factor : F) :
    (settings c factor).speedFactor = factor ∧ (settings c factor).rangeCheck = false ∧
    (settings c factor).requireHoming = false ∧ (∀ a, (settings c factor).homingTrigger a = .none) ∧
    { settings c factor with speedFactor := c.speedFactor, rangeCheck := c.rangeCheck, requireHoming := c.requireHoming,
                             homingTrigger := c.homingTrigger } = c :=
  ⟨rfl, rfl, rfl, fun _ => rfl, rfl⟩

/-- **C96 (negative)** The time is that of a machine with other angles than the real one has: whatever the configuration file
says, the statistics are computed with a threshold of −1 and a tuning angle of 0 degrees, while the machine control started
without options (and so with the same file) has 10 and 60. -/
theorem C96_angles (N : Config.Numbers D F) (content : List Byte) (factor : F) (o : Setup.Options F) (c : Machine F)
    (ho : o.thresholdAngle = none ∧ o.speedTuneAngle = none) (hc : o.machine A = some c) :
    (settings (configureMachine N (Machine.default A) content).2 factor).thresholdAngle = A.ofInt (-1) ∧
    (settings (configureMachine N (Machine.default A) content).2 factor).speedTuneAngle = A.ofInt 0 ∧
    (o.override (configureMachine N c content).2).thresholdAngle = A.ofInt 10 ∧
    (o.override (configureMachine N c content).2).speedTuneAngle = A.ofInt 60 := by
  obtain ⟨h1, h2⟩ := configure_angles N (Machine.default A) content
  obtain ⟨h3, h4⟩ := configure_angles N c content
  have hov : ∀ x : Machine F, (o.override x).thresholdAngle = x.thresholdAngle ∧
      (o.override x).speedTuneAngle = x.speedTuneAngle := by
    intro x
    unfold Setup.Options.override
    dsimp only
    repeat' split
    all_goals exact ⟨rfl, rfl⟩
  have hm : c.thresholdAngle = A.ofInt 10 ∧ c.speedTuneAngle = A.ofInt 60 := by
    unfold Setup.Options.machine at hc
    dsimp only at hc
    rw [ho.1, ho.2] at hc
    repeat' split at hc
    all_goals first
      | (cases hc; done)
      | (injection hc with hc; rw [← hc]; exact ⟨rfl, rfl⟩)
  exact ⟨h1, h2, (hov _).1.trans (h3.trans hm.1), (hov _).2.trans (h4.trans hm.2)⟩

/-! ### The whole program -/

/-- **C96** If the program does not complain it ends with exit code 0 and prints the header, unless `-H` was given an odd number
of times, and behind it the rows of the files; the last `-c` and the last `-f` count. (It complains if there is no
configuration or one with errors; without a place for messages the end is undefined.) -/
theorem C96_finished (N : Config.Numbers D F) (desk : Desk) (args : List (List Byte)) (lines : List (List Byte)) :
    main A W N desk args = .finished lines ↔
      (∀ i ∈ (scan args).items, ¬ i.Wrong A W) ∧ (scan args).files ≠ [] ∧
      W.messages (decide (Item.verbose ∈ (scan args).items)) = true ∧
      ∃ path content c, lastOf Item.path (scan args).items = some path ∧ W.text path = some content ∧
        configureMachine N (Machine.default A) content = (true, c) ∧
        lines = (if (scan args).items.count .header % 2 = 0 then [header (width (scan args).files)] else []) ++
          fileRows A W (settings c (((lastOf Item.number (scan args).items).map W.atof).getD (A.ofInt 1)))
            (width (scan args).files) desk (scan args).files := by
  have hnone := takeAll_none A W (scan args).items (Vars.start A)
  unfold main
  dsimp only
  cases h : Vars.takeAll A W (Vars.start A) (scan args).items with
  | none =>
    obtain ⟨i, hi, hw⟩ := hnone.1 h
    simp only [reduceCtorEq, false_iff]
    rintro ⟨hno, _⟩
    exact hno i hi hw
  | some v =>
    have hok : ∀ i ∈ (scan args).items, ¬ i.Wrong A W := fun i hi hw => by
      rw [hnone.2 ⟨i, hi, hw⟩] at h; cases h
    obtain ⟨h1, h2, h3, h4⟩ := takeAll_some A W _ _ _ h
    have h1' : v.config = lastOf Item.path (scan args).items := by
      rw [h1]; cases lastOf Item.path (scan args).items <;> rfl
    have h2' : v.factor = ((lastOf Item.number (scan args).items).map W.atof).getD (A.ofInt 1) := h2
    have h4' : v.verbose = decide (Item.verbose ∈ (scan args).items) := by rw [h4]; rfl
    dsimp only
    by_cases hf : (scan args).files = []
    · simp [hf]
    rw [if_neg hf, ← h4', ← h1', ← h2']
    have hh : (if v.header = true then [header (width (scan args).files)] else []) =
        if (scan args).items.count .header % 2 = 0 then [header (width (scan args).files)] else [] := by
      rw [h3]
      rcases Nat.mod_two_eq_zero_or_one (List.count Item.header (scan args).items) with e | e <;> simp [e, Vars.start]
    cases hc : v.config with
    | none => simp
    | some path =>
      dsimp only
      cases ht : W.text path with
      | none => simp [ht]
      | some content =>
        dsimp only
        cases hcm : configureMachine N (Machine.default A) content with
        | mk ok c =>
          cases ok with
          | false =>
            simp [ht, hcm]
          | true =>
            simp only [Bool.not_true, Bool.false_eq_true, if_false]
            rw [hh]
            by_cases hm : W.messages v.verbose = true
            · rw [if_pos hm]
              constructor
              · intro e
                injection e with e
                exact ⟨hok, hf, hm, path, content, c, rfl, ht, hcm, e.symm⟩
              · rintro ⟨_, _, _, p', x', c', e1, e2, e3, e4⟩
                injection e1 with e1
                rw [← e1, ht] at e2
                injection e2 with e2
                rw [← e2, hcm] at e3
                injection e3 with _ e3
                rw [e4, ← e3]
            · rw [if_neg hm]
              simp [hm]

/-! ### Columns -/

theorem width_le : ∀ (names : List (List Byte)) (w : Nat), w ≤ names.foldl (fun w n => max n.length w) w ∧
    ∀ n ∈ names, n.length ≤ names.foldl (fun w n => max n.length w) w
  | [], w => ⟨Nat.le_refl _, fun n h => by cases h⟩
  | m :: names, w => by
    obtain ⟨h1, h2⟩ := width_le names (max m.length w)
    rw [List.foldl_cons]
    refine ⟨Nat.le_trans (Nat.le_max_right _ _) h1, fun n hn => ?_⟩
    rcases List.mem_cons.1 hn with rfl | hn
    · exact Nat.le_trans (Nat.le_max_left _ _) h1
    · exact h2 n hn

theorem padRight_length (w : Nat) (s : List Byte) (h : s.length ≤ w) : (padRight w s).length = w := by
  simp [padRight]; omega

theorem padLeft_length (w : Nat) (s : List Byte) (h : s.length ≤ w) : (padLeft w s).length = w := by
  simp [padLeft]; omega

/-- **C96** What the header says. -/
theorem C96_header (w : Nat) : header w = ascii "#[filename]" ++ List.replicate (w - 11) 32 ++
    ascii "       time   min_x   max_x   min_y   max_y   min_z   max_z  z-last filament-mm" := by
  have hl : heading.length = 11 := by decide
  have ht : (32 : Byte) :: (padLeft 10 (ascii "time") ++
      [ascii "min_x", ascii "max_x", ascii "min_y", ascii "max_y", ascii "min_z", ascii "max_z", ascii "z-last",
       ascii "filament-mm"].flatMap fun v => 32 :: padLeft 7 v) =
      ascii "       time   min_x   max_x   min_y   max_y   min_z   max_z  z-last filament-mm" := by decide +kernel
  rw [header, ht, padRight, hl]
  rfl

/-- **C96** The columns stand below each other: the names take the same room in all rows and in the header, and as long as the
numbers fit into their columns all rows of processed files have the same length. Only the last title is wider than its column. -/
theorem C96_aligned (names : List (List Byte)) (name : List Byte) (hn : name ∈ names) (s : Stats F)
    (h10 : (W.fmt 10 0 s.time).length = 10)
    (h7 : ∀ v ∈ [s.xMin, s.xMax, s.yMin, s.yMax, s.zMin, s.zMax, s.lastZ, s.filament], (W.fmt 7 1 v).length = 7) :
    (row W (width names) name s).length = width names + 75 ∧
    (header (width names)).length = width names + 79 ∧
    (row W (width names) name s).take (width names) = padRight (width names) name ∧
    (header (width names)).take (width names) = padRight (width names) heading := by
  obtain ⟨hw, hall⟩ := width_le names heading.length
  have hl := padRight_length (width names) name (hall name hn)
  have hl' := padRight_length (width names) heading hw
  simp only [List.mem_cons, List.not_mem_nil, or_false, forall_eq_or_imp, forall_eq] at h7
  obtain ⟨a1, a2, a3, a4, a5, a6, a7, a8⟩ := h7
  refine ⟨?_, ?_, ?_, ?_⟩
  · simp only [row, List.length_append, List.length_cons, List.flatMap_cons, List.flatMap_nil, List.length_nil, hl, h10, a1,
      a2, a3, a4, a5, a6, a7, a8]
  · simp only [header, List.length_append, List.length_cons, hl']
    have : (padLeft 10 (ascii "time") ++ List.flatMap (fun v => 32 :: padLeft 7 v)
      [ascii "min_x", ascii "max_x", ascii "min_y", ascii "max_y", ascii "min_z", ascii "max_z", ascii "z-last",
        ascii "filament-mm"]).length = 78 := by decide
    rw [List.length_append] at this
    omega
  · rw [row, List.take_append_of_le_length (Nat.le_of_eq hl.symm), List.take_of_length_le (Nat.le_of_eq hl)]
  · rw [header, List.take_append_of_le_length (Nat.le_of_eq hl'.symm), List.take_of_length_le (Nat.le_of_eq hl')]

/-! ### Examples -/

/-- Two files, the standard input, one configuration. -/
def exSys : Sys Int where
  atof s := if s = ascii "0" then 0 else 2
  file _ name := if name = ascii "a" then some ⟨ascii "G1X1", false⟩ else if name = ascii "bad" then some ⟨ascii "?", false⟩ else none
  text name := if name = ascii "cfg" then some Setup.exFile else if name = ascii "empty" then some [] else
    if name = ascii "neg" then some (ascii "[x-axis]\nsteps-per-mm=1\n") else none
  messages _ := true
  free tab := ((List.range 1024).find? fun n => (tab n).isNone).getD 1024
  look n r s := (if s.bytes = ascii "?" then 1 else 0, { initial Planner.intArith with time := n, xMax := r.config.speedFactor })
  fmt w _ v := padLeft w (ascii (toString v))

/-- There is a way to choose free descriptors. -/
example : ∃ free, Honest { exSys with free := free } := by
  classical
  refine ⟨fun tab => if h : ∃ n, tab n = none then h.choose else 0, fun tab ht => ?_⟩
  obtain ⟨k, hk⟩ := ht
  have h : ∃ n, tab n = none := ⟨k, hk k (Nat.le_refl _)⟩
  show tab (if h : ∃ n, tab n = none then h.choose else 0) = none
  rw [dif_pos h]
  exact h.choose_spec

/-- The descriptors at the start: 0 is the standard input. -/
def exDesk : Desk := ⟨fun n => if n = 0 then some (.input ⟨ascii "G0", false⟩) else if n = 1 ∨ n = 2 then some .other else none, 0, 0⟩

example : Room exDesk.tab := ⟨3, fun n hn => by
  show (if n = 0 then _ else if n = 1 ∨ n = 2 then _ else none) = _
  rw [if_neg (by omega), if_neg (by omega)]⟩

example : main Planner.intArith exSys Setup.exNum exDesk
      [ascii "-H", ascii "a", ascii "-c", ascii "cfg", ascii "-", ascii "bad", ascii "-f2", ascii "-", ascii "none"] =
    .finished [
      ascii "a                    0 10000000       2 10000000       0       0       0       0       0",
      ascii "-                    1 10000000       2 10000000       0       0       0       0       0",
      ascii "#bad not-processed", ascii "#- not-processed", ascii "#none not-processed"] := by decide +kernel

/-- The words of a command line for an option, each apart. -/
def render : Item → List (List Byte)
  | .config a => [[45, 99], a]
  | .factor a => [[45, 102], a]
  | .header => [[45, 72]]
  | .verbose => [[45, 118]]
  | .bad => []

/-- **C96** Options given each by itself are read in order, and what follows `--` are files, whatever they are called. -/
theorem C96_scan (is : List Item) (files : List (List Byte)) (h : .bad ∉ is) :
    (scan (is.flatMap render ++ [45, 45] :: files)).items = is ∧
    (scan (is.flatMap render ++ [45, 45] :: files)).files = files := by
  have one : ∀ (is pre : List Item), .bad ∉ is →
      (is.flatMap render).foldl Scan.next ⟨pre, [], none, false⟩ = ⟨pre ++ is, [], none, false⟩ := by
    intro is
    induction is with
    | nil => intro pre _; simp
    | cons i is ih =>
      intro pre hi
      rw [List.flatMap_cons, List.foldl_append]
      have step : (render i).foldl Scan.next ⟨pre, [], none, false⟩ = ⟨pre ++ [i], [], none, false⟩ := by
        cases i with
        | bad => exact absurd List.mem_cons_self hi
        | _ => rfl
      rw [step, ih _ fun hj => hi (List.mem_cons_of_mem _ hj)]
      simp
  have two : ∀ (files pre : List (List Byte)),
      files.foldl Scan.next ⟨is, pre, none, true⟩ = ⟨is, pre ++ files, none, true⟩ := by
    intro files
    induction files with
    | nil => intro pre; simp
    | cons a files ih =>
      intro pre
      show files.foldl Scan.next ⟨is, pre ++ [a], none, true⟩ = _
      rw [ih]; simp
  have all : (is.flatMap render ++ [45, 45] :: files).foldl Scan.next ⟨[], [], none, false⟩ = ⟨is, files, none, true⟩ := by
    rw [List.foldl_append, one is [] h]
    show files.foldl Scan.next ⟨[] ++ is, [], none, true⟩ = _
    rw [List.nil_append, two]; simp
  unfold scan
  dsimp only
  rw [all]
  exact ⟨rfl, rfl⟩

/-- Nothing could be processed, and the exit code is 0. -/
theorem C96_code : main Planner.intArith exSys Setup.exNum exDesk [ascii "-cneg", ascii "-H", ascii "a"] =
    .finished [ascii "#a not-processed"] := by decide +kernel

example : main Planner.intArith exSys Setup.exNum exDesk [ascii "-f", ascii "0", ascii "a"] = .failed .usage ∧
    main Planner.intArith exSys Setup.exNum exDesk [ascii "--help"] = .failed .usage ∧
    main Planner.intArith exSys Setup.exNum exDesk [ascii "a", ascii "-c"] = .failed .usage ∧
    main Planner.intArith exSys Setup.exNum exDesk [ascii "-vH", ascii "a"] = .failed .noConfig ∧
    main Planner.intArith exSys Setup.exNum exDesk [ascii "-ccfg"] = .failed .usage ∧
    main Planner.intArith exSys Setup.exNum exDesk [ascii "-cx", ascii "--", ascii "-H"] = .failed .cannotRead := by decide +kernel

end BeagleG.Stats.Tool
