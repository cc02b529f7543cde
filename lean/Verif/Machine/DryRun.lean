import Verif.Machine.StopProps
import Verif.Machine.Example
import Verif.Setup.StartProps
import Verif.Setup.MappingProps
/-!
# C73: a dry run

Without `InitializeHardware` (machine-control.cc 577-589 leaves it out in a dry run) nothing of the machine is touched, whatever G-code
comes.
-/
namespace BeagleG.Machine

open Planner (Axis Motor Arith Command)
open Hardware

variable {F β σ : Type}

/-- A backend that does not touch the hardware: `DummyMotionQueue` (motion-queue.h 156-166), and the simulations, whose operations other
than `Enqueue` are empty too (sim-firmware.h 33-37, sim-audio-out.h). -/
structure Idle (Q : Queue F β) : Prop where
  enqueue : ∀ x cmd, (Q.enqueue x cmd).1.1 = x.1
  wait : ∀ x, (Q.waitQueueEmpty x).1 = x.1
  ext : ∀ x m p, (Q.setExternalPosition x m p).1 = x.1
  enable : ∀ x on, (Q.motorEnable x on).1 = x.1

/-- Specification: all outputs are as before. -/
structure Untouched (h h' : Hw F) : Prop where
  level : h'.level = h.level
  pwmOn : h'.pwmOn = h.pwmOn
  duty : h'.duty = h.duty
  motorsEnabled : h'.motorsEnabled = h.motorsEnabled
  initialized : h'.initialized = h.initialized

theorem Untouched.refl (h : Hw F) : Untouched h h := ⟨rfl, rfl, rfl, rfl, rfl⟩

theorem Untouched.trans {h h' h'' : Hw F} (k : Untouched h h') (k' : Untouched h' h'') : Untouched h h'' :=
  ⟨k'.level.trans k.level, k'.pwmOn.trans k.pwmOn, k'.duty.trans k.duty, k'.motorsEnabled.trans k.motorsEnabled,
    k'.initialized.trans k.initialized⟩

theorem Untouched.of_eq {h h' : Hw F} (k : h' = h) : Untouched h h' := by subst k; exact .refl _

theorem setAux_untouched (c : Cape) {h : Hw F} (hi : h.initialized = false) : setAuxOutputs c h = h := by
  unfold setAuxOutputs
  rw [hi]
  rfl

theorem pwm_untouched {h : Hw F} (hi : h.initialized = false) (o : Output) (v : F) (p : Bool) : setPwmOutput h o v p = h := by
  unfold setPwmOutput
  rw [hi]
  rfl

theorem bitmap_untouched (h : Hw F) (o : Output) (on : Bool) : Untouched h (updateAuxBitmap h o on) := ⟨rfl, rfl, rfl, rfl, rfl⟩

theorem spindle_untouched (A : Arith F) (c : Cape) {h : Hw F} (hi : h.initialized = false) (a : Spindle.Act F) :
    Untouched h (a.apply A c h) := by
  cases a with
  | power on =>
    exact (bitmap_untouched h .spindle on).trans (.of_eq (setAux_untouched c hi))
  | direction on =>
    exact (bitmap_untouched h .spindleDirection on).trans (.of_eq (setAux_untouched c hi))
  | speed v => exact .of_eq (pwm_untouched hi _ _ _)

theorem spindles_untouched (A : Arith F) (c : Cape) (l : List (Spindle.Act F)) : ∀ h : Hw F, h.initialized = false →
    Untouched h (l.foldl (Spindle.Act.apply A c) h) := by
  induction l with
  | nil => intro h _; exact .refl h
  | cons a l ih =>
    intro h hi
    have k := spindle_untouched A c hi a
    exact k.trans (ih _ (k.initialized.trans hi))

variable (e : Env F β σ)

theorem Idle.respects (hq : Idle e.queue) : Respects e.backend (fun x y => y.1 = x.1) :=
  ⟨fun _ => rfl, fun h h' => h'.trans h, fun x cmd => hq.enqueue x cmd, fun x => hq.wait x, fun x m p => hq.ext x m p⟩

theorem step_untouched (hq : Idle e.queue) {l : Label F} {s s' : State F β σ} (hi : s.hw.initialized = false)
    (h : Step e l s s') : Untouched s.hw s'.hw := by
  have hR := hq.respects
  cases l with
  | say m => obtain ⟨_, h⟩ := h; subst h; exact .refl _
  | stopped => obtain ⟨_, h⟩ := h; subst h; exact .refl _
  | flag o on => obtain ⟨h1, h⟩ := h; subst h; exact bitmap_untouched _ _ _
  | clear => subst h; exact bitmap_untouched _ _ _
  | auxBit pin on => subst h; exact ⟨rfl, rfl, rfl, rfl, rfl⟩
  | setAux => subst h; exact .of_eq (setAux_untouched _ hi)
  | auxOff =>
    subst h
    exact Untouched.trans (h' := { s.hw with auxBits := 0 }) ⟨rfl, rfl, rfl, rfl, rfl⟩ (.of_eq (setAux_untouched _ hi))
  | fan => subst h; exact .of_eq (pwm_untouched hi _ _ _)
  | spindle => obtain ⟨_, l, h⟩ := h; subst h; exact spindles_untouched _ _ l _ hi
  | halt => exact .of_eq (halt_rel hR h).2
  | move => obtain ⟨_, _, _, h⟩ := h; exact .of_eq (move_rel hR h).2
  | drive => obtain ⟨_, _, _, _, h⟩ := h; exact .of_eq (drive_rel hR h).2
  | external => obtain ⟨_, h⟩ := h; exact .of_eq (external_rel hR h).2
  | enable on => subst h; exact .of_eq (hq.enable _ _)
  | wait => subst h; exact .of_eq (hq.wait _)
  | lookahead =>
    obtain ⟨n, h⟩ := h
    subst h
    have : (Planner.setLookahead s.planner n).1.backend = s.planner.backend := by
      unfold Planner.setLookahead; split <;> rfl
    exact .of_eq (congrArg Prod.fst this)
  | _ => subst h; exact .refl _

theorem trace_untouched (hq : Idle e.queue) {ls : List (Label F)} {s s' : State F β σ} (h : Trace e s ls s')
    (hi : s.hw.initialized = false) : Untouched s.hw s'.hw := by
  induction h with
  | nil => exact .refl _
  | cons h1 _ ih =>
    have k := step_untouched e hq hi h1
    exact k.trans (ih (k.initialized.trans hi))

/-- C73. In a dry run no event of the G-code changes a level, a PWM timer, its duty cycle, or enables the motors. -/
theorem C73_event (hq : Idle e.queue) {ev : Event F} {s s' : State F β σ} {a : Answer F} (hi : s.hw.initialized = false)
    (h : handle e ev s = some (a, s')) : Untouched s.hw s'.hw := by
  obtain ⟨ls, ht, -⟩ := does_handle e ev _ _ _ h
  exact trace_untouched e hq ht hi

/-- C73. The same for whole programs. -/
theorem C73_run (hq : Idle e.queue) : ∀ (evs : List (Event F)) {s s' : State F β σ}, s.hw.initialized = false →
    run e s evs = some s' → Untouched s.hw s'.hw := by
  intro evs
  induction evs with
  | nil => intro s s' _ h; cases h; exact .refl _
  | cons ev evs ih =>
    intro s s' hi h
    obtain ⟨_, _, h1, h2⟩ := run_cons e |>.1 h
    have k := C73_event e hq hi h1
    exact k.trans (ih (k.initialized.trans hi) h2)

/-- C73. `EnableMotors` and the reset at the end of the program do nothing either. -/
theorem C73_end (c : Cape) {h : Hw F} (hi : h.initialized = false) (on : Bool) : enableMotors c h on = h ∧ resetHardware c h = h := by
  unfold enableMotors resetHardware
  rw [hi]
  exact ⟨rfl, rfl⟩

/-- C73. Homing and probing drive nothing in a dry run. -/
theorem C73_no_drive {s : State F β σ} (hi : s.hw.initialized = false) (axis : Axis) (feed : F) :
    (∀ t, moveToEndstop e axis feed t s = some (0, s)) ∧ ∀ dir mx, moveToProbe e axis feed dir mx s = some (0, s) := by
  constructor
  · intro t
    show (if (!s.hw.initialized) = true then _ else _ : M F β σ Int) s = _
    rw [hi]
    rfl
  · intro dir mx
    show (if (!s.hw.initialized) = true then _ else _ : M F β σ Int) s = _
    rw [hi]
    rfl

/-- C73. No input is read: each test gives its default, and the state is unchanged. -/
theorem C73_no_input {s : State F β σ} (hi : s.hw.initialized = false) (n : Nat) (d : Bool) : testSwitch e n d s = some (d, s) := by
  unfold testSwitch
  rw [hi]
  rfl

/-! ### Inputs make no difference -/

/-- The same machine with other answers of the inputs. hardware-mapping.cc 327-345 (`get_gpio`). -/
@[reducible] def Env.withRead (e : Env F β σ) (read : Nat → Nat → Bool) : Env F β σ := { e with read := read }

/-- Two methods do the same without hardware, and it stays that way. -/
def Same {α : Type} (m m' : M F β σ α) : Prop :=
  ∀ s, s.hw.initialized = false → m s = m' s ∧ ∀ a s', m s = some (a, s') → s'.hw.initialized = false

section
variable {e} {α α' : Type}

theorem Same.pure (a : α) : Same (F := F) (β := β) (σ := σ) (pure a) (pure a) :=
  fun s hi => ⟨rfl, fun _ _ h => by cases h; exact hi⟩

theorem Same.get : Same (F := F) (β := β) (σ := σ) get get := fun s hi => ⟨rfl, fun _ _ h => by cases h; exact hi⟩

theorem Same.stuck : Same (F := F) (β := β) (σ := σ) (stuck : M F β σ α) stuck := fun s hi => ⟨rfl, fun _ _ h => by cases h⟩

theorem Same.bind {m m' : M F β σ α} {f f' : α → M F β σ α'} (h : Same m m') (h' : ∀ a, Same (f a) (f' a)) :
    Same (m >>= f) (m' >>= f') := by
  intro s hi
  obtain ⟨h1, h2⟩ := h s hi
  constructor
  · show (m s).bind _ = (m' s).bind _
    rw [← h1]
    cases hm : m s with
    | none => rfl
    | some r => exact (h' r.1 r.2 (h2 r.1 r.2 hm)).1
  · intro a s' hs
    obtain ⟨b, s1, k1, k2⟩ := bind_some.1 hs
    exact (h' b s1 (h2 _ _ k1)).2 _ _ k2

theorem Same.ite {c : Prop} [Decidable c] {m1 m1' m2 m2' : M F β σ α} (h : Same m1 m1') (h' : Same m2 m2') :
    Same (if c then m1 else m2) (if c then m1' else m2') := by
  split
  · exact h
  · exact h'

/-- Methods that are the same anyway. -/
theorem Same.of_does (hq : Idle e.queue) {Q : Label F → Prop} {m : M F β σ α} (h : Does e Q m) : Same m m :=
  fun s hi => ⟨rfl, fun a s' hs => by
    obtain ⟨ls, ht, -⟩ := h s a s' hs
    exact (trace_untouched e hq ht hi).initialized.trans hi⟩

theorem Same.testSwitch (read : Nat → Nat → Bool) (n : Nat) (d : Bool) : Same (testSwitch e n d) (testSwitch (e.withRead read) n d) := by
  intro s hi
  rw [C73_no_input e hi, C73_no_input (e.withRead read) hi]
  exact ⟨rfl, fun a s' h => by cases h; exact hi⟩

end

/-- Everything is allowed. -/
def Powers.all : Powers := ⟨true, true, true, fun _ => true, true, true, true, true, true⟩

section
variable {e} (hq : Idle e.queue) (r : Nat → Nat → Bool)

/-- Takes apart two methods. -/
macro "pair" : tactic => `(tactic| repeat' first
  | with_reducible exact Same.pure _
  | with_reducible exact Same.get
  | with_reducible exact Same.stuck
  | with_reducible exact Same.testSwitch _ _ _
  | with_reducible refine Same.bind ?_ (fun _ => ?_)
  | with_reducible refine Same.ite ?_ ?_)

theorem same_say (m : Msg) : Same (F := F) (β := β) (σ := σ) (say m) (say m) := fun s hi => ⟨rfl, fun _ _ h => by cases h; exact hi⟩

theorem same_waitPause : ∀ fuel n, Same (waitPause e fuel n) (waitPause (e.withRead r) fuel n)
  | 0, 0 => .pure _
  | fuel + 1, 0 => .pure _
  | 0, _ + 1 => .stuck
  | fuel + 1, n + 1 => by
    unfold waitPause testPause
    pair
    · exact same_waitPause fuel 2
    · exact same_waitPause fuel n

include hq

theorem same_waitStart : ∀ fuel, Same (waitStart e fuel) (waitStart (e.withRead r) fuel)
  | 0 => .stuck
  | fuel + 1 => by
    unfold waitStart testStart
    pair
    · exact .of_does hq (Does.flag (Q := fun _ => True) (fun h => by cases h) trivial)
    · exact .of_does hq (Does.setAux (Q := fun _ => True) trivial)
    · exact .of_does hq (Does.flag (Q := fun _ => True) (fun h => by cases h) trivial)
    · exact .of_does hq (Does.setAux (Q := fun _ => True) trivial)
    · exact same_waitStart fuel

theorem same_waitForStart : Same (waitForStart e) (waitForStart (e.withRead r)) := by
  unfold waitForStart testPause testStart
  try dsimp only
  pair
  all_goals first
    | with_reducible exact same_waitPause r _ _ | with_reducible exact same_waitStart hq r _ | with_reducible exact same_say _

theorem same_clearEstop : Same (clearEstop e) (clearEstop (e.withRead r)) := by
  unfold clearEstop inEstop testEStop
  pair
  · exact same_say _
  · exact .of_does hq (Does.modify (Q := fun _ => True) .clear (fun _ => rfl) trivial)
  · exact .of_does hq (Does.setAux (Q := fun _ => True) trivial)
  · exact same_say _

theorem same_checkForEstop : Same (checkForEstop e) (checkForEstop (e.withRead r)) := by
  unfold checkForEstop inEstop testEStop
  pair
  exact .of_does hq (does_setEstop e .all _ rfl rfl)

theorem same_dwell : Same (dwell e) (dwell (e.withRead r)) := by
  unfold dwell testPause
  pair
  · exact .of_does hq (Does.halt (Q := fun _ => True) trivial)
  · exact .of_does hq (Does.wait (Q := fun _ => True) trivial)
  · exact same_checkForEstop hq r
  · exact same_waitForStart hq r

omit hq in
theorem spindleWords_read (n : Int) (l) : spindleWords (e.withRead r) n l = spindleWords e n l := by
  induction l generalizing n with
  | nil => rfl
  | cons x l ih =>
    obtain ⟨c, v⟩ := x
    unfold spindleWords
    rw [ih]

omit hq in
theorem auxWords_read (m : Bool) (a b : Int) (l) : auxWords (e.withRead r) m a b l = auxWords e m a b l := by
  induction l generalizing a b with
  | nil => rfl
  | cons x l ih =>
    obtain ⟨c, v⟩ := x
    unfold auxWords
    rw [ih, ih]

omit hq in
theorem spindleOn_read (ccw : Bool) (l) : setSpindleOn (e.withRead r) ccw l = setSpindleOn e ccw l := by
  unfold setSpindleOn
  simp only [spindleWords_read]
  rfl

omit hq in
theorem auxBit_read (code : Int) (l) : auxBitCommands (e.withRead r) code l = auxBitCommands e code l := by
  unfold auxBitCommands
  simp only [spindleWords_read, auxWords_read, spindleOn_read]
  rfl

theorem same_special (l v args) : Same (special e l v args) (special (e.withRead r) l v args) := by
  unfold special
  try dsimp only
  pair
  · exact .of_does hq (does_setEstop e .all _ rfl rfl)
  · exact same_clearEstop hq r
  · rw [auxBit_read (e := e) r]
    exact .of_does hq (does_auxBitCommands e .all _ _)
  · exact same_dwell hq r
  · exact .of_does hq (Does.flag (Q := fun _ => True) (fun h => by cases h) trivial)
  · exact .of_does hq (Does.setAux (Q := fun _ => True) trivial)
  · exact same_say _
  · exact .of_does hq (Does.modify (Q := fun _ => True) (.pause _) (fun _ => rfl) trivial)
  · exact .of_does hq (Does.modify (Q := fun _ => True) (.pause _) (fun _ => rfl) trivial)
  · exact .of_does hq (does_setLookahead e .all _)
  · exact same_say _

theorem same_submit (pos feed) : Same (submit e pos feed) (submit (e.withRead r) pos feed) := by
  unfold submit
  pair
  · exact .of_does hq (Does.move (Q := fun _ => True) trivial)
  · exact same_checkForEstop hq r

theorem same_coordinated (feed pos) : Same (coordinatedMove e feed pos) (coordinatedMove (e.withRead r) feed pos) := by
  unfold coordinatedMove
  try dsimp only
  pair
  · exact .of_does hq (does_allowed e .all _)
  all_goals first
    | with_reducible exact same_say _ | with_reducible exact same_submit hq r _ _
    | exact .of_does hq (Does.modify (Q := fun _ => True) (.feed _) (fun _ => rfl) trivial)

theorem same_rapid (feed pos) : Same (rapidMove e feed pos) (rapidMove (e.withRead r) feed pos) := by
  unfold rapidMove
  try dsimp only
  pair
  · exact .of_does hq (does_allowed e .all _)
  all_goals first
    | with_reducible exact same_say _ | with_reducible exact same_submit hq r _ _
    | exact .of_does hq (Does.modify (Q := fun _ => True) (.feed _) (fun _ => rfl) trivial)

theorem same_idle (first) : Same (inputIdle e first) (inputIdle (e.withRead r) first) := by
  unfold inputIdle
  pair
  · exact .of_does hq (Does.halt (Q := fun _ => True) trivial)
  · exact .of_does hq (does_idleMotor e .all _ rfl rfl)
  · exact .of_does hq (does_idleFan e .all rfl)
  · exact same_checkForEstop hq r

omit hq in
theorem same_endstop (axis feed t) : Same (moveToEndstop e axis feed t) (moveToEndstop (e.withRead r) axis feed t) := by
  intro s hi
  rw [(C73_no_drive e hi axis feed).1, (C73_no_drive (e.withRead r) hi axis feed).1]
  exact ⟨rfl, fun a s' h => by cases h; exact hi⟩

omit hq in
theorem same_toProbe (axis feed dir mx) : Same (moveToProbe e axis feed dir mx) (moveToProbe (e.withRead r) axis feed dir mx) := by
  intro s hi
  rw [(C73_no_drive e hi axis feed).2, (C73_no_drive (e.withRead r) hi axis feed).2]
  exact ⟨rfl, fun a s' h => by cases h; exact hi⟩

theorem same_homeAxis (a) : Same (homeAxis e a) (homeAxis (e.withRead r) a) := by
  unfold homeAxis
  try dsimp only
  pair
  · exact .of_does hq (Does.halt (Q := fun _ => True) trivial)
  · exact same_endstop r _ _ _
  · exact .of_does hq (Does.external (Q := fun _ => True) trivial)

theorem same_homeAll (axes) : ∀ l, Same (homeAll e axes l) (homeAll (e.withRead r) axes l)
  | [] => .pure _
  | none :: rest => by unfold homeAll; exact same_homeAll axes rest
  | some a :: rest => by
    unfold homeAll
    dsimp only
    pair
    all_goals first | with_reducible exact same_homeAxis hq r _ | with_reducible exact same_homeAll axes rest

theorem same_home (axes) : Same (goHome e axes) (goHome (e.withRead r) axes) := by
  unfold goHome
  try dsimp only
  pair
  · exact .of_does hq (Does.halt (Q := fun _ => True) trivial)
  · exact same_clearEstop hq r
  · exact same_homeAll hq r _ _
  · exact same_checkForEstop hq r
  · exact .of_does hq (Does.modify (Q := fun _ => True) .homed (fun _ => rfl) trivial)

theorem same_probe (feed axis) : Same (probeAxis e feed axis) (probeAxis (e.withRead r) feed axis) := by
  unfold probeAxis
  try dsimp only
  pair
  all_goals first
    | exact Same.pure _
    | exact .of_does hq (does_allowedHoming e .all) | exact .of_does hq (does_allowedEstop e .all)
    | with_reducible exact same_say _ | with_reducible exact same_toProbe r _ _ _ _
    | exact .of_does hq (Does.halt (Q := fun _ => True) trivial) | exact .of_does hq (Does.external (Q := fun _ => True) trivial)

theorem same_handle (ev : Event F) : Same (handle e ev) (handle (e.withRead r) ev) := by
  cases ev <;> unfold handle <;> refine .bind ?_ fun _ => .pure _
  · exact .of_does hq (does_start e .all)
  · exact .of_does hq (does_finished e .all _ rfl)
  · exact same_idle hq r _
  · exact same_waitForStart hq r
  · exact same_home hq r _
  · exact same_probe hq r _ _
  · exact .of_does hq (does_speedFactor e .all _ rfl)
  · exact .of_does hq (does_fanspeed e .all _)
  · exact same_dwell hq r
  · exact .of_does hq (does_motorsEnable e .all _ rfl)
  · exact same_coordinated hq r _ _
  · exact same_rapid hq r _ _
  · exact same_special hq r _ _ _

end

/-- C73. What a dry run does, answers and says does not depend on the inputs of the machine. -/
theorem C73_inputs (hq : Idle e.queue) (r : Nat → Nat → Bool) : ∀ (evs : List (Event F)) {s : State F β σ},
    s.hw.initialized = false → run (e.withRead r) s evs = run e s evs := by
  intro evs
  induction evs with
  | nil => intro s _; rfl
  | cons ev evs ih =>
    intro s hi
    obtain ⟨h1, h2⟩ := same_handle hq r ev s hi
    show (handle (e.withRead r) ev s).bind _ = (handle e ev s).bind _
    rw [← h1]
    cases h : handle e ev s with
    | none => rfl
    | some x => exact ih (h2 x.1 x.2 h)

/-- `DummyMotionQueue`, with a record of the segments. motion-queue.h 156-166. -/
def dummyQueue : Queue F (List (Command F)) where
  enqueue x cmd := ((x.1, x.2 ++ [cmd]), true)
  waitQueueEmpty x := x
  setExternalPosition x _ _ := x
  motorEnable x _ := x
  position _ := some fun _ => 0

theorem dummyQueue_idle : Idle (dummyQueue : Queue F (List (Command F))) :=
  ⟨fun _ _ => rfl, fun _ => rfl, fun _ _ _ => rfl, fun _ _ => rfl⟩

/-- The machine of the examples, in a dry run. Example. -/
def dryEnv : Env Int (List (Command Int)) Unit where
  A := Planner.intArith
  plan := Planner.intConfig
  cfg := exCfg
  cape := cramps
  queue := dummyQueue
  spindle := none
  read := fun _ _ => false
  clock := fun _ => 0
  patience := 10

/-- The machine of the example. Example. -/
def dryState : State Int (List (Command Int)) Unit where
  planner :=
    { backend := (Hw.blank Int, []), buffer := [Planner.Segment.zero Planner.intArith], ready := 0
      lookahead := 10, halted := true, positionKnown := true }
  spindle := ()
  tick := 0
  out := []
  feedrate := 0
  progFactor := 1
  nextMotor := -1
  nextFan := -1
  pauseEnabled := false
  homing := .never

/-- A dry run homes and moves: segments are enqueued, the motors stay off. -/
example : (run dryEnv dryState [.home fun _ => true, .coordinated 10 (Planner.xy 10 20), .finished true]).map
    (fun s => (!s.planner.backend.2.isEmpty, s.hw.motorsEnabled, s.homing)) = some (true, false, .unpowered) := by decide +kernel

end BeagleG.Machine

namespace BeagleG.Setup

open Text Hardware
open _root_.BeagleG.Machine (Env State Event Idle Untouched run C73_run)
open Config (Numbers)
open Planner (Arith)

variable {D F β σ : Type}

/-- C73. From the start with `-n` on, through any program, all outputs stay as they were. -/
theorem C73_dry_run (A : Arith F) (N : Numbers D F) {cape : Cape} {o : Options F} {content : List Byte} {h : Hw F} {both : Hw F → Bool}
    {r : Ready F} (hi : h.initialized = false) (hd : o.dryRun = true) (hr : startUp A N cape o content h both = some r)
    (e : Env F β σ) (hq : Idle e.queue) (evs : List (Event F)) {s s' : State F β σ} (hs : s.hw = r.hw) (hrun : run e s evs = some s') :
    Untouched h s'.hw := by
  obtain ⟨c0, c, h1, e1, e2, e3, _, hin⟩ := (startUp_eq A N cape o content h both r).1 hr
  rw [hd, if_pos rfl] at hin
  obtain ⟨p1, p2, p3, p4, p5, p6, p7⟩ := C62_passive e3
  obtain ⟨f, g, hf⟩ := (C63_result A hin).2.2.2.1
  have k : Untouched h r.hw := by
    rw [hf]
    exact ⟨p5, p6, p7, p2, p4⟩
  have := C73_run e hq evs (s := s) (by rw [hs, k.initialized, hi]) hrun
  rw [hs] at this
  exact k.trans this

/-- C73. The inputs of the machine make no difference to the start either. -/
theorem C73_start (A : Arith F) (N : Numbers D F) (cape : Cape) (o : Options F) (content : List Byte) (h : Hw F) (both both' : Hw F → Bool)
    (hd : o.dryRun = true) : startUp A N cape o content h both = startUp A N cape o content h both' := by
  unfold startUp
  rw [hd]
  rfl

end BeagleG.Setup
