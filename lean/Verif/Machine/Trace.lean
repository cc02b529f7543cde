import Verif.Machine.Model
/-!
# What the methods of the machine control are made of

Every method is a sequence of elementary steps, each with a label. Which labels occur for which event is
shown once here; the properties of histories (C34 to C37, C48) then only need to look at single steps.
-/
namespace BeagleG.Machine

open Planner (Axis Motor Arith Command)
open Hardware

variable {F β σ α α' : Type}

/-- Elementary steps. Steps of gcode-machine-control.cc 343-1095, for the proofs. -/
inductive Label (F : Type) where
  | say (m : Msg)
  | stopped (hard : Bool)
  | tick
  | flag (o : Output) (on : Bool)
  | clear
  | auxBit (pin : Nat) (on : Bool)
  | setAux
  | auxOff
  | fan (duty : F) (positive : Bool)
  | spindle
  | halt
  | move
  | drive (axis : Axis)
  | external (axis : Axis)
  | enable (on : Bool)
  | wait
  | lookahead
  | never
  | homed
  | feed (v : F)
  | factor (v : F)
  | pause (b : Bool)
  | timers (motor fan : Int)

/-- The state with another hardware mapping. The member `hardware_mapping_`, gcode-machine-control.cc 142. -/
def State.withHw (s : State F β σ) (h : Hw F) : State F β σ :=
  { s with planner := { s.planner with backend := (h, s.planner.backend.2) } }

/-- What a step does, and when it happens. Steps of gcode-machine-control.cc 343-1095, for the proofs. -/
def Step (e : Env F β σ) : Label F → State F β σ → State F β σ → Prop
  | .say m, s, s' => (∀ hard, m ≠ .stopped hard) ∧ s' = { s with out := s.out ++ [m] }
  | .stopped hard, s, s' => s.homing = .never ∧ s' = { s with out := s.out ++ [.stopped hard] }
  | .tick, s, s' => s' = { s with tick := s.tick + 1 }
  | .flag o on, s, s' => (o = .estop → on = true) ∧ s' = s.withHw (updateAuxBitmap s.hw o on)
  | .clear, s, s' => s' = s.withHw (updateAuxBitmap s.hw .estop false)
  | .auxBit pin on, s, s' => s' = s.withHw (updateAuxBits s.hw pin on)
  | .setAux, s, s' => s' = s.withHw (setAuxOutputs e.cape s.hw)
  | .auxOff, s, s' => s' = s.withHw (auxOutputsOff e.cape s.hw)
  | .fan d p, s, s' => s' = s.withHw (setPwmOutput s.hw .fan d p)
  | .spindle, s, s' => ∃ (sp : σ) (l : List (Spindle.Act F)),
      s' = ({ s with spindle := sp } : State F β σ).withHw (l.foldl (Spindle.Act.apply e.A e.cape) s.hw)
  | .halt, s, s' => halt e s = some ((), s')
  | .move, s, s' => ∃ pos feed r, plannerEnqueue e pos feed s = some (r, s')
  | .drive axis, s, s' => ∃ d v0 v1 r, plannerDrive e axis d v0 v1 s = some (r, s')
  | .external axis, s, s' => ∃ pos, plannerExternal e axis pos s = some ((), s')
  | .enable on, s, s' =>
      s' = { s with
        planner := { s.planner with backend := e.queue.motorEnable s.planner.backend on }
        homing := if !on && s.homing = .homed then .unpowered else s.homing }
  | .wait, s, s' =>
      s' = { s with planner := { s.planner with backend := e.queue.waitQueueEmpty s.planner.backend } }
  | .lookahead, s, s' => ∃ n, s' = { s with planner := (Planner.setLookahead s.planner n).1 }
  | .never, s, s' => s' = { s with homing := .never }
  | .homed, s, s' => s' = { s with homing := .homed }
  | .feed v, s, s' => s' = { s with feedrate := v }
  | .factor v, s, s' => s' = { s with progFactor := v }
  | .pause b, s, s' => s' = { s with pauseEnabled := b }
  | .timers m f, s, s' => s' = { s with nextMotor := m, nextFan := f }

/-- A sequence of steps. Steps of gcode-machine-control.cc 343-1095, for the proofs. -/
inductive Trace (e : Env F β σ) : State F β σ → List (Label F) → State F β σ → Prop
  | nil (s) : Trace e s [] s
  | cons {s l s' ls s''} : Step e l s s' → Trace e s' ls s'' → Trace e s (l :: ls) s''

theorem Trace.one {e : Env F β σ} {l s s'} (h : Step e l s s') : Trace e s [l] s' := .cons h (.nil _)

theorem Trace.append {e : Env F β σ} {s s' s'' ls ls'} (h : Trace e s ls s')
    (h' : Trace e s' ls' s'') : Trace e s (ls ++ ls') s'' := by
  induction h with
  | nil => exact h'
  | cons h1 _ ih => exact .cons h1 (ih h')

/-- The method consists of steps with labels in `Q`. Specification; no code of its own. -/
def Does (e : Env F β σ) (Q : Label F → Prop) (m : M F β σ α) : Prop :=
  ∀ s a s', m s = some (a, s') → ∃ ls, Trace e s ls s' ∧ ∀ l ∈ ls, Q l

section
variable {e : Env F β σ} {Q Q' : Label F → Prop}

theorem Does.mono {m : M F β σ α} (h : Does e Q m) (hq : ∀ l, Q l → Q' l) : Does e Q' m :=
  fun s a s' hs => let ⟨ls, ht, hl⟩ := h s a s' hs; ⟨ls, ht, fun l hm => hq l (hl l hm)⟩

theorem Does.pure (a : α) : Does e Q (pure a : M F β σ α) := by
  intro s b s' h
  cases h
  exact ⟨[], .nil _, by simp⟩

theorem Does.get : Does e Q (get : M F β σ _) := by
  intro s b s' h
  cases h
  exact ⟨[], .nil _, by simp⟩

theorem Does.stuck : Does e Q (stuck : M F β σ α) := by
  intro s b s' h
  cases h

theorem bind_some {m : M F β σ α} {f : α → M F β σ α'} {s : State F β σ} {r} :
    (m >>= f) s = some r ↔ ∃ a s1, m s = some (a, s1) ∧ f a s1 = some r := by
  show (m s).bind _ = _ ↔ _
  cases h : m s with
  | none => simp
  | some x =>
    constructor
    · intro h'; exact ⟨x.1, x.2, rfl, h'⟩
    · rintro ⟨a, s1, h1, h2⟩; cases h1; exact h2

theorem Does.bind {m : M F β σ α} {f : α → M F β σ α'} (h : Does e Q m)
    (h' : ∀ a, Does e Q (f a)) : Does e Q (m >>= f) := by
  intro s b s' hs
  obtain ⟨a, s1, h1, h2⟩ := bind_some.1 hs
  obtain ⟨l1, t1, q1⟩ := h _ _ _ h1
  obtain ⟨l2, t2, q2⟩ := h' a _ _ _ h2
  refine ⟨l1 ++ l2, t1.append t2, fun l hl => ?_⟩
  rcases List.mem_append.1 hl with h | h
  · exact q1 l h
  · exact q2 l h

theorem Does.ite {c : Prop} [Decidable c] {m m' : M F β σ α} (h : Does e Q m) (h' : Does e Q m') :
    Does e Q (if c then m else m') := by
  split
  · exact h
  · exact h'

theorem Does.ite' {c : Prop} [Decidable c] {m m' : M F β σ α} (h : c → Does e Q m)
    (h' : ¬ c → Does e Q m') : Does e Q (if c then m else m') := by
  by_cases hc : c
  · rw [if_pos hc]; exact h hc
  · rw [if_neg hc]; exact h' hc

theorem Does.step {m : M F β σ α} (l : Label F)
    (h : ∀ s a s', m s = some (a, s') → Step e l s s') (hq : Q l) : Does e Q m :=
  fun s a s' hs => ⟨[l], .one (h s a s' hs), by simpa using hq⟩

theorem Does.modify {f : State F β σ → State F β σ} (l : Label F) (h : ∀ s, Step e l s (f s))
    (hq : Q l) : Does e Q (modify f) := by
  apply Does.step l _ hq
  intro s a s' hs
  cases hs
  exact h s

theorem Does.say {m : Msg} (hm : ∀ hard, m ≠ .stopped hard) (hq : Q (.say m)) :
    Does e Q (say m : M F β σ Unit) := Does.modify (.say m) (fun _ => ⟨hm, rfl⟩) hq

theorem Does.halt (hq : Q .halt) : Does e Q (halt e) :=
  Does.step .halt (fun _ _ _ h => h) hq

theorem Does.wait (hq : Q .wait) : Does e Q (motors e.queue.waitQueueEmpty) :=
  Does.modify .wait (fun _ => rfl) hq

theorem Does.testSwitch (n d) (hq : Q .tick) : Does e Q (testSwitch e n d) := by
  intro s a s' h
  unfold Machine.testSwitch at h
  split at h
  · cases h; exact ⟨[], .nil _, by simp⟩
  · cases h; exact ⟨[.tick], .one rfl, by simpa using hq⟩

theorem Does.now (hq : Q .tick) : Does e Q (now e) := by
  intro s a s' h
  cases h; exact ⟨[.tick], .one rfl, by simpa using hq⟩

theorem Does.flag {o on} (h : o = .estop → on = true) (hq : Q (.flag o on)) :
    Does e Q (setOutputFlags o on : M F β σ Unit) := Does.modify (.flag o on) (fun _ => ⟨h, rfl⟩) hq

theorem Does.setAux (hq : Q .setAux) : Does e Q (hardware (setAuxOutputs e.cape)) :=
  Does.modify .setAux (fun _ => rfl) hq

theorem Does.spindleDo {f} (hq : Q .spindle) : Does e Q (spindleDo e f) := by
  apply Does.step .spindle _ hq
  intro s a s' h
  unfold Machine.spindleDo at h
  cases hf : f s.spindle with
  | none => rw [hf] at h; cases h
  | some r => rw [hf] at h; cases h; exact ⟨r.1, r.2, rfl⟩

theorem Does.drive {axis d v0 v1} (hq : Q (.drive axis)) : Does e Q (plannerDrive e axis d v0 v1) :=
  Does.step (.drive axis) (fun _ a _ h => ⟨d, v0, v1, a, h⟩) hq

theorem Does.external {axis p} (hq : Q (.external axis)) : Does e Q (plannerExternal e axis p) :=
  Does.step (.external axis) (fun _ _ _ h => ⟨p, h⟩) hq

theorem Does.move {pos feed} (hq : Q .move) : Does e Q (plannerEnqueue e pos feed) :=
  Does.step .move (fun _ a _ h => ⟨pos, feed, a, h⟩) hq

end

/-- Which of the more interesting steps may occur. Specification; no code of its own. -/
structure Powers where
  home : Bool := false
  /-- emergency stop -/
  stop : Bool := false
  enable : Bool := false
  /-- axes that are driven directly, or whose position is told to the planner -/
  drive : Axis → Bool := fun _ => false
  clear : Bool := false
  move : Bool := false
  factor : Bool := false
  pause : Bool := false
  timers : Bool := false

/-- The label is covered. Specification; no code of its own. -/
def Label.within (p : Powers) : Label F → Prop
  | .homed => p.home
  | .stopped _ => p.stop
  | .never => p.stop
  | .auxOff => p.stop
  | .flag o _ => o = .estop → p.stop
  | .enable _ => p.enable
  | .drive a => p.drive a
  | .external a => p.drive a
  | .clear => p.clear
  | .move => p.move
  | .feed _ => p.move
  | .factor _ => p.factor
  | .pause _ => p.pause
  | .timers _ _ => p.timers
  | _ => True

section
variable (e : Env F β σ) (p : Powers)

theorem does_motorsEnable (on : Bool) (hp : p.enable = true) :
    Does e (Label.within p) (motorsEnable e on) := by
  unfold motorsEnable
  refine .bind (.halt trivial) fun _ => ?_
  intro s a s' h
  cases h
  refine ⟨[.enable on], .one ?_, by simpa [Label.within] using hp⟩
  simp only [Step]
  cases on
  · by_cases hs : s.homing = .homed <;> simp [hs]
  · simp

/-- Takes apart a method. -/
macro "walk" : tactic => `(tactic| repeat' first
  | with_reducible exact Does.pure _
  | with_reducible exact Does.get
  | with_reducible exact Does.stuck
  | (with_reducible refine Does.halt ?_); exact trivial
  | (with_reducible refine Does.wait ?_); exact trivial
  | (with_reducible refine Does.now ?_); exact trivial
  | (with_reducible refine Does.testSwitch _ _ ?_); exact trivial
  | (with_reducible refine Does.setAux ?_); exact trivial
  | (with_reducible refine Does.spindleDo ?_); exact trivial
  | (with_reducible refine Does.say ?_ ?_); (intro _ h; cases h); exact trivial
  | (with_reducible refine Does.flag ?_ ?_); (intro h; cases h); (intro h; cases h)
  | with_reducible refine Does.bind ?_ (fun _ => ?_)
  | with_reducible refine Does.ite ?_ ?_)

theorem does_fanspeed (v : F) : Does e (Label.within p) (setFanspeed e v) := by
  unfold setFanspeed
  walk
  exact .modify (.fan _ _) (fun _ => rfl) trivial

theorem does_waitPause : ∀ fuel n, Does e (Label.within p) (waitPause e fuel n)
  | 0, 0 => .pure _
  | fuel + 1, 0 => .pure _
  | 0, _ + 1 => .stuck
  | fuel + 1, n + 1 => by
    unfold waitPause testPause
    walk
    · exact does_waitPause fuel 2
    · exact does_waitPause fuel n

theorem does_waitStart : ∀ fuel, Does e (Label.within p) (waitStart e fuel)
  | 0 => .stuck
  | fuel + 1 => by
    unfold waitStart testStart
    walk
    exact does_waitStart fuel

theorem does_waitForStart : Does e (Label.within p) (waitForStart e) := by
  unfold waitForStart testPause testStart
  try dsimp only
  walk
  all_goals first | with_reducible exact does_waitPause e p _ _ | with_reducible exact does_waitStart e p _

theorem does_spindleOff : Does e (Label.within p) (setSpindleOff e) := by
  unfold setSpindleOff
  split <;> walk

theorem does_setEstop (hard : Bool) (hs : p.stop = true) (hp : p.enable = true) :
    Does e (Label.within p) (setEstop e hard) := by
  unfold setEstop
  refine .bind (does_spindleOff e p) fun _ => .bind (.modify .auxOff (fun _ => rfl) hs) fun _ =>
    .bind (.flag (fun _ => rfl) fun _ => hs) fun _ => .bind (does_motorsEnable e p _ hp) fun _ => ?_
  intro s a s' h
  cases h
  exact ⟨[.never, .stopped hard], .cons (s' := { s with homing := .never }) rfl (.one ⟨rfl, rfl⟩),
    by simpa [Label.within] using hs⟩

theorem does_clearEstop (hp : p.clear = true) : Does e (Label.within p) (clearEstop e) := by
  unfold clearEstop inEstop testEStop
  walk
  exact .modify .clear (fun _ => rfl) hp

theorem does_checkForEstop (hs : p.stop = true) (he : p.enable = true) :
    Does e (Label.within p) (checkForEstop e) := by
  unfold checkForEstop inEstop testEStop
  walk
  exact does_setEstop e p true hs he

theorem does_setLookahead (args) : Does e (Label.within p) (handleSetLookahead e args) := by
  have hset : ∀ n : Int, Does e (Label.within p) (do
      motors e.queue.waitQueueEmpty
      let s ← get
      let r := Planner.setLookahead s.planner n
      if r.2 then modify fun s => { s with planner := (Planner.setLookahead s.planner n).1 } else stuck) := by
    intro n
    walk
    exact .modify .lookahead (fun _ => ⟨n, rfl⟩) trivial
  unfold handleSetLookahead
  try dsimp only
  split
  · exact .bind (hset _) fun _ => .pure _
  · split
    · exact .pure _
    · split
      · walk
      · exact .bind (hset _) fun _ => .pure _

theorem does_spindleOn (ccw args) : Does e (Label.within p) (setSpindleOn e ccw args) := by
  unfold setSpindleOn
  split <;> (try dsimp only) <;> walk

theorem does_auxBitCommands (code args) : Does e (Label.within p) (auxBitCommands e code args) := by
  unfold auxBitCommands
  try dsimp only
  walk
  all_goals first
    | with_reducible exact does_spindleOn e p _ _ | with_reducible exact does_spindleOff e p
    | exact .modify (.auxBit _ _) (fun _ => rfl) trivial

theorem does_dwell (hs : p.stop = true) (he : p.enable = true) :
    Does e (Label.within p) (dwell e) := by
  unfold dwell testPause
  walk
  all_goals first | with_reducible exact does_checkForEstop e p hs he | with_reducible exact does_waitForStart e p

theorem does_special (l v args) (hc : e.A.toInt v = 999 → p.clear = true) (hp : p.pause = true) (hs : p.stop = true) (he : p.enable = true) :
    Does e (Label.within p) (special e l v args) := by
  unfold special
  try dsimp only
  refine .ite (.pure _) (.ite (.bind (does_setEstop e p _ hs he) fun _ => .pure _)
    (.ite' (fun h => .bind (does_clearEstop e p (hc h)) fun _ => .pure _) fun _ => ?_))
  walk
  all_goals first
    | with_reducible exact does_auxBitCommands e p _ _ | with_reducible exact does_dwell e p hs he
    | with_reducible exact does_setLookahead e p _ | exact .modify (.pause _) (fun _ => rfl) hp

theorem does_start :
    Does e (Label.within p) (gcodeStart e) := by
  unfold gcodeStart
  walk
  exact does_fanspeed e p _

theorem does_finished (eos) (he : p.enable = true) :
    Does e (Label.within p) (gcodeFinished e eos) := by
  unfold gcodeFinished
  walk
  all_goals first
    | with_reducible exact does_spindleOff e p | with_reducible exact does_motorsEnable e p _ he

theorem does_allowedHoming : Does e (Label.within p) (allowedHoming e) := by
  unfold allowedHoming
  walk

theorem does_allowedEstop : Does e (Label.within p) (allowedEstop : M F β σ Bool) := by
  unfold allowedEstop inEstop
  walk

theorem outside_msg (pos : Axis → F) : ∀ l m, outside e pos l = some m → ∀ hard, m ≠ .stopped hard
  | [], m, h => by cases h
  | i :: rest, m, h => by
    unfold outside at h
    have ih := outside_msg pos rest m
    repeat' split at h
    · exact ih h
    · cases h; intro _ h; cases h
    · exact ih h
    · cases h; intro _ h; cases h
    · exact ih h

theorem does_allowedLimits (pos) : Does e (Label.within p) (allowedLimits e pos) := by
  unfold allowedLimits
  refine .ite (.pure _) ?_
  split
  · exact .pure _
  · rename_i m h
    exact .bind (.say (outside_msg e pos _ _ h) trivial) fun _ => .pure _

theorem does_allowed (pos) : Does e (Label.within p) (allowed e pos) := by
  unfold allowed
  walk
  all_goals first | with_reducible exact does_allowedHoming e p | with_reducible exact does_allowedLimits e p pos | with_reducible exact does_allowedEstop e p

theorem does_submit (pos feed) (hp : p.move = true) (hs : p.stop = true) (he : p.enable = true) :
    Does e (Label.within p) (submit e pos feed) := by
  unfold submit
  walk
  all_goals first | ((with_reducible refine Does.move ?_); exact hp) | with_reducible exact does_checkForEstop e p hs he

theorem does_coordinated (feed pos) (hp : p.move = true) (hs : p.stop = true) (he : p.enable = true) :
    Does e (Label.within p) (coordinatedMove e feed pos) := by
  unfold coordinatedMove
  try dsimp only
  walk
  all_goals first
    | with_reducible exact does_allowed e p _ | with_reducible exact does_submit e p _ _ hp hs he | exact .modify (.feed _) (fun _ => rfl) hp

theorem does_rapid (feed pos) (hp : p.move = true) (hs : p.stop = true) (he : p.enable = true) :
    Does e (Label.within p) (rapidMove e feed pos) := by
  unfold rapidMove
  try dsimp only
  walk
  all_goals first
    | with_reducible exact does_allowed e p _ | with_reducible exact does_submit e p _ _ hp hs he | exact .modify (.feed _) (fun _ => rfl) hp

theorem does_timers {f : State F β σ → Int × Int} (hp : p.timers = true) :
    Does e (Label.within p) (modify fun s => { s with nextMotor := (f s).1, nextFan := (f s).2 }) := by
  intro s a s' h
  cases h
  exact ⟨[.timers (f s).1 (f s).2], .one rfl, by simpa [Label.within] using hp⟩

theorem does_idleFan (hp : p.timers = true) :
    Does e (Label.within p) (idleFan e) := by
  unfold idleFan
  try dsimp only
  walk
  · exact does_fanspeed e p _
  · exact does_timers e p (f := fun s => (s.nextMotor, -1)) hp

theorem does_idleMotor (first) (hp : p.timers = true) (he : p.enable = true) :
    Does e (Label.within p) (idleMotor e first) := by
  unfold idleMotor
  try dsimp only
  walk
  · exact does_timers e p (f := fun s => (_, -1)) hp
  · exact does_motorsEnable e p _ he
  · exact does_timers e p (f := fun s => (-1, s.nextFan)) hp
  · exact does_timers e p (f := fun s => (s.nextMotor, _)) hp

theorem does_idle (first) (hp : p.timers = true) (hs : p.stop = true) (he : p.enable = true) :
    Does e (Label.within p) (inputIdle e first) := by
  unfold inputIdle
  walk
  all_goals first | with_reducible exact does_idleMotor e p _ hp he | with_reducible exact does_idleFan e p hp | with_reducible exact does_checkForEstop e p hs he

theorem does_speedFactor (f) (hp : p.factor = true) :
    Does e (Label.within p) (setSpeedFactor e f) := by
  unfold setSpeedFactor
  try dsimp only
  walk
  exact .modify (.factor _) (fun _ => rfl) hp

theorem does_testAxis (a t) : Does e (Label.within p) (testAxis e a t) := by
  cases t <;> unfold testAxis <;> walk

theorem does_approach (a t d v1) (hp : p.drive a = true) : ∀ fuel v0 n,
    Does e (Label.within p) (approach e a t d v1 fuel v0 n)
  | 0, _, _ => .stuck
  | fuel + 1, v0, n => by
    unfold approach testEStop
    walk
    all_goals first
      | with_reducible exact does_testAxis e p _ _ | ((with_reducible refine Does.drive ?_); exact hp) | with_reducible exact does_approach a t d v1 hp fuel _ _

theorem does_backOff (a t d v0 v1) (hp : p.drive a = true) : ∀ fuel n,
    Does e (Label.within p) (backOff e a t d v0 v1 fuel n)
  | 0, _ => .stuck
  | fuel + 1, n => by
    unfold backOff testEStop
    walk
    all_goals first
      | with_reducible exact does_testAxis e p _ _ | ((with_reducible refine Does.drive ?_); exact hp) | with_reducible exact does_backOff a t d v0 v1 hp fuel _

theorem does_moveToEndstop (a f t) (hp : p.drive a = true) :
    Does e (Label.within p) (moveToEndstop e a f t) := by
  unfold moveToEndstop
  try dsimp only
  refine .bind .get fun _ => .ite (.pure _) (.bind (does_approach e p _ _ _ _ hp _ _ _) fun r => ?_)
  split
  · exact .pure _
  · refine .bind (does_backOff e p _ _ _ _ _ hp _ _) fun r => ?_
    split <;> exact .pure _

theorem does_probeLoop (a st v1 mx) (hp : p.drive a = true) : ∀ fuel v0 n,
    Does e (Label.within p) (probeLoop e a st v1 mx fuel v0 n)
  | 0, _, _ => .stuck
  | fuel + 1, v0, n => by
    unfold probeLoop testProbe
    walk
    all_goals first
      | ((with_reducible refine Does.drive ?_); exact hp) | with_reducible exact does_probeLoop a st v1 mx hp fuel _ _

theorem does_moveToProbe (a f d mx) (hp : p.drive a = true) :
    Does e (Label.within p) (moveToProbe e a f d mx) := by
  unfold moveToProbe
  try dsimp only
  exact .bind .get fun _ => .ite (.pure _) (does_probeLoop e p _ _ _ _ hp _ _ _)

theorem does_homeAxis (a) (hp : p.drive a = true) : Does e (Label.within p) (homeAxis e a) := by
  unfold homeAxis
  try dsimp only
  walk
  all_goals first | with_reducible exact does_moveToEndstop e p _ _ _ hp | ((with_reducible refine Does.external ?_); exact hp)

theorem does_homeAll (axes) (hp : ∀ a, p.drive a = true) : ∀ l, Does e (Label.within p) (homeAll e axes l)
  | [] => .pure _
  | none :: rest => by unfold homeAll; exact does_homeAll axes hp rest
  | some a :: rest => by
    unfold homeAll
    dsimp only
    walk
    all_goals first | with_reducible exact does_homeAxis e p _ (hp _) | with_reducible exact does_homeAll axes hp rest

theorem does_home (axes) (hd : ∀ a, p.drive a = true) (hc : p.clear = true) (hh : p.home = true) (hs : p.stop = true) (he : p.enable = true) :
    Does e (Label.within p) (goHome e axes) := by
  unfold goHome
  try dsimp only
  walk
  all_goals first
    | with_reducible exact does_clearEstop e p hc | with_reducible exact does_homeAll e p _ hd _ | with_reducible exact does_checkForEstop e p hs he
    | exact .modify .homed (fun _ => rfl) hh

theorem does_probe (feed axis) (hd : p.drive axis = true) :
    Does e (Label.within p) (probeAxis e feed axis) := by
  unfold probeAxis
  try dsimp only
  walk
  all_goals first
    | with_reducible exact does_allowedHoming e p | with_reducible exact does_allowedEstop e p | with_reducible exact does_moveToProbe e p _ _ _ _ hd
    | ((with_reducible refine Does.external ?_); exact hd)

end

/-- What an event may do. Specification of the methods at gcode-machine-control.cc 85-106. -/
def Event.powers (A : Arith F) : Event F → Powers
  | .finished _ => { enable := true }
  | .idle _ => { timers := true, stop := true, enable := true }
  | .home _ => { home := true, drive := fun _ => true, clear := true, stop := true, enable := true }
  | .probe _ a => { drive := fun b => b = a }
  | .speedFactor _ => { factor := true }
  | .dwell => { stop := true, enable := true }
  | .motors _ => { enable := true }
  | .coordinated _ _ => { move := true, stop := true, enable := true }
  | .rapid _ _ => { move := true, stop := true, enable := true }
  | .unprocessed _ v _ => { pause := true, clear := A.toInt v = 999, stop := true, enable := true }
  | _ => {}

theorem does_handle (e : Env F β σ) (ev : Event F) :
    Does e (Label.within (ev.powers e.A)) (handle e ev) := by
  cases ev <;> unfold handle <;> refine .bind ?_ fun _ => .pure _
  · exact does_start e _
  · exact does_finished e _ _ rfl
  · exact does_idle e _ _ rfl rfl rfl
  · exact does_waitForStart e _
  · exact does_home e _ _ (fun _ => rfl) rfl rfl rfl rfl
  · exact does_probe e _ _ _ (by simp [Event.powers])
  · exact does_speedFactor e _ _ rfl
  · exact does_fanspeed e _ _
  · exact does_dwell e _ rfl rfl
  · exact does_motorsEnable e _ _ rfl
  · exact does_coordinated e _ _ _ rfl rfl rfl
  · exact does_rapid e _ _ _ rfl rfl rfl
  · exact does_special e _ _ _ _ (by intro h; simp [Event.powers, h]) rfl rfl rfl

end BeagleG.Machine
