import Verif.Machine.CodesProps
import Verif.Machine.AssertProps
import Verif.Machine.SyncProps
/-!
# M3, M4 and M5 at the machine control (C106)

`set_spindle_on`, `set_spindle_off` and their callers, /repo/src/gcode-machine-control.cc lines 421, 497-527, 592-594 and 788; the spindle
itself is any implementation (those of the program: C42, C57, C74).
-/
namespace BeagleG.Machine

open Planner (Axis Motor Arith Command Inv)
open Hardware

variable {F β σ : Type} (e : Env F β σ)

/-! ### What the spindle is told -/

/-- The state after a halt that left the planner at `p`, and then a command of the spindle. -/
def State.told (s : State F β σ) (p : Planner.State F (Hw F × β)) (r : σ × List (Spindle.Act F)) : State F β σ :=
  ({ s with planner := p, spindle := r.1 } : State F β σ).setHw (r.2.foldl (Spindle.Act.apply e.A e.cape) p.backend.1)

/-- **C106** M3 and M4 with words `S`: the planned path is brought to a halt, then the spindle is told once to turn, counter-clockwise exactly
for M4, with the last `S`, rounded. Without `S`, or if it is negative, it is told nothing. Nothing else changes, and the words behind are left. -/
theorem C106_on {code : Int} (hc : code = 3 ∨ code = 4) {value : F} (hv : e.A.toInt value = code)
    {args used rest : List (Char × F)} (hw : Words ['S'] args used rest) {sp : SpindleCtl F σ} (hs : e.spindle = some sp)
    (s : State F β σ) (hi : Inv e.A s.planner) :
    ∃ p, Planner.bringPathToHalt e.A e.plan e.backend s.planner = some p ∧ p.halted = true ∧ (∀ m, p.pending e.plan m = 0) ∧
      special e 'M' value args s =
        if 0 ≤ lastWord e 'S' used (-1) then
          (sp.on s.spindle (decide (code = 4)) (lastWord e 'S' used (-1))).map fun r => (some rest, s.told e p r)
        else some (some rest, { s with planner := p }) := by
  obtain ⟨p, h1, h2, h3, -⟩ := Planner.inv_halt e.A e.plan e.backend s.planner hi
  refine ⟨p, h1, h3, pending_halted h2 h3, ?_⟩
  have hh : halt e s = some ((), { s with planner := p }) := by unfold halt; rw [h1]; rfl
  have key : ∀ ccw, setSpindleOn e ccw args s =
      if 0 ≤ lastWord e 'S' used (-1) then
        (sp.on s.spindle ccw (lastWord e 'S' used (-1))).map fun r => (rest, s.told e p r)
      else some (rest, { s with planner := p }) := by
    intro ccw
    unfold setSpindleOn
    rw [hs]
    show (halt e s).bind _ = _
    rw [hh, Option.bind_some]
    dsimp only
    rw [spindleWords_eq e (-1) hw]
    dsimp only
    by_cases hl : 0 ≤ lastWord e 'S' used (-1)
    · rw [if_pos hl, if_pos hl]
      show ((sp.on s.spindle ccw _).bind _).bind _ = _
      cases sp.on s.spindle ccw (lastWord e 'S' used (-1)) <;> rfl
    · rw [if_neg hl, if_neg hl]
      rfl
  have spec : special e 'M' value args s = (setSpindleOn e (decide (code = 4)) args s).map fun r => (some r.1, r.2) := by
    rcases hc with rfl | rfl
    · simp only [special, hv, auxBitCommands]
      simp
      show (setSpindleOn e false args s).bind _ = _
      cases setSpindleOn e false args s <;> rfl
    · simp only [special, hv, auxBitCommands]
      simp
      show (setSpindleOn e true args s).bind _ = _
      cases setSpindleOn e true args s <;> rfl
  rw [spec, key]
  split
  · rw [Option.map_map]; rfl
  · rfl

/-- **C106** M5: the planned path is brought to a halt, then the spindle is told to stop. -/
theorem C106_off {value : F} (hv : e.A.toInt value = 5) (args : List (Char × F)) {sp : SpindleCtl F σ}
    (hs : e.spindle = some sp) (s : State F β σ) (hi : Inv e.A s.planner) :
    ∃ p, Planner.bringPathToHalt e.A e.plan e.backend s.planner = some p ∧ p.halted = true ∧ (∀ m, p.pending e.plan m = 0) ∧
      special e 'M' value args s = (sp.off s.spindle).map fun r => (some args, s.told e p r) := by
  obtain ⟨p, h1, h2, h3, -⟩ := Planner.inv_halt e.A e.plan e.backend s.planner hi
  refine ⟨p, h1, h3, pending_halted h2 h3, ?_⟩
  have hh : halt e s = some ((), { s with planner := p }) := by unfold halt; rw [h1]; rfl
  have key : setSpindleOff e s = (sp.off s.spindle).map fun r => ((), s.told e p r) := by
    unfold setSpindleOff
    rw [hs]
    show (halt e s).bind _ = _
    rw [hh, Option.bind_some]
    show (sp.off s.spindle).bind _ = _
    cases sp.off s.spindle <;> rfl
  simp only [special, hv, auxBitCommands]
  simp
  show ((setSpindleOff e s).bind _).bind _ = _
  rw [key]
  cases sp.off s.spindle <;> rfl

/-! ### Nothing else turns it on -/

/-- The method keeps a property of the spindle. -/
def Keeps (P : σ → Prop) {α : Type} (m : M F β σ α) : Prop :=
  ∀ s a s', m s = some (a, s') → P s.spindle → P s'.spindle

section
variable {P : σ → Prop} {α α' : Type}

theorem Keeps.pure (a : α) : Keeps P (pure a : M F β σ α) := fun _ _ _ h hp => by cases h; exact hp

theorem Keeps.get : Keeps P (get : M F β σ _) := fun _ _ _ h hp => by cases h; exact hp

theorem Keeps.stuck : Keeps P (stuck : M F β σ α) := fun _ _ _ h _ => by cases h

theorem Keeps.bind {m : M F β σ α} {f : α → M F β σ α'} (h : Keeps P m) (h' : ∀ a, Keeps P (f a)) : Keeps P (m >>= f) := by
  intro s b s' hs hp
  obtain ⟨a, s1, h1, h2⟩ := bind_some.1 hs
  exact h' a _ _ _ h2 (h _ _ _ h1 hp)

theorem Keeps.ite {c : Prop} [Decidable c] {m m' : M F β σ α} (h : Keeps P m) (h' : Keeps P m') :
    Keeps P (if c then m else m') := by
  split
  · exact h
  · exact h'

theorem Keeps.modify {f : State F β σ → State F β σ} (h : ∀ s, (f s).spindle = s.spindle) : Keeps P (modify f) := by
  intro s a s' hs hp
  cases hs
  rw [h]
  exact hp

theorem Keeps.say (m : Msg) : Keeps P (say m : M F β σ Unit) := .modify fun _ => rfl
theorem Keeps.hardware (f : Hw F → Hw F) : Keeps P (hardware f : M F β σ Unit) := .modify fun _ => rfl
theorem Keeps.motors (f : Hw F × β → Hw F × β) : Keeps P (motors f : M F β σ Unit) := .modify fun _ => rfl
theorem Keeps.flags (o : Output) (on : Bool) : Keeps P (setOutputFlags o on : M F β σ Unit) := .hardware _

theorem Keeps.planner {x : State F β σ → Option (α × Planner.State F (Hw F × β))} :
    Keeps P (fun s : State F β σ => (x s).map fun r => (r.1, { s with planner := r.2 })) := by
  intro s a s' hs hp
  obtain ⟨r, -, hr⟩ := Option.map_eq_some_iff.1 hs
  cases hr
  exact hp

theorem Keeps.halt : Keeps P (halt e) := by
  intro s a s' hs hp
  obtain ⟨r, -, hr⟩ := Option.map_eq_some_iff.1 hs
  cases hr
  exact hp

theorem Keeps.enqueue (pos : Axis → F) (feed : F) : Keeps P (plannerEnqueue e pos feed) := by
  intro s a s' hs hp
  obtain ⟨r, -, hr⟩ := Option.map_eq_some_iff.1 hs
  cases hr
  exact hp

theorem Keeps.drive (a : Axis) (d v0 v1 : F) : Keeps P (plannerDrive e a d v0 v1) := by
  intro s a s' hs hp
  obtain ⟨r, -, hr⟩ := Option.map_eq_some_iff.1 hs
  cases hr
  exact hp

theorem Keeps.external (a : Axis) (pos : F) : Keeps P (plannerExternal e a pos) := by
  intro s a s' hs hp
  obtain ⟨r, -, hr⟩ := Option.map_eq_some_iff.1 hs
  cases hr
  exact hp

theorem Keeps.testSwitch (n : Nat) (d : Bool) : Keeps P (testSwitch e n d) := by
  intro s a s' hs hp
  unfold Machine.testSwitch at hs
  split at hs <;> cases hs <;> exact hp

theorem Keeps.now : Keeps P (now e) := fun _ _ _ h hp => by cases h; exact hp

/-- Takes apart a method. -/
macro "keep" : tactic => `(tactic| repeat' first
  | with_reducible exact Keeps.pure _
  | with_reducible exact Keeps.get
  | with_reducible exact Keeps.stuck
  | with_reducible exact Keeps.halt _
  | with_reducible exact Keeps.now _
  | with_reducible exact Keeps.say _
  | with_reducible exact Keeps.flags _ _
  | with_reducible exact Keeps.hardware _
  | with_reducible exact Keeps.motors _
  | with_reducible exact Keeps.testSwitch _ _ _
  | with_reducible exact Keeps.drive _ _ _ _ _
  | with_reducible exact Keeps.enqueue _ _ _
  | with_reducible exact Keeps.external _ _ _
  | with_reducible refine Keeps.bind ?_ (fun _ => ?_)
  | with_reducible refine Keeps.ite ?_ ?_
  | with_reducible assumption)

/-- `P` is what is true of the spindle after it was told to stop. -/
def AfterOff (P : σ → Prop) : Prop := ∀ sp, e.spindle = some sp → ∀ x y l, sp.off x = some (y, l) → P y

variable {e}

theorem spindleOff_off (h : AfterOff e P) {sp : SpindleCtl F σ} (hs : e.spindle = some sp) {s s' : State F β σ} {u : Unit}
    (hr : setSpindleOff e s = some (u, s')) : P s'.spindle := by
  unfold setSpindleOff at hr
  rw [hs] at hr
  obtain ⟨_, s1, -, h2⟩ := bind_some.1 hr
  obtain ⟨r, h3, h4⟩ := Option.bind_eq_some_iff.1 h2
  cases h4
  exact h sp hs _ _ _ h3

theorem keeps_spindleOff (h : AfterOff e P) : Keeps P (setSpindleOff e) := by
  intro s a s' hr hp
  cases hs : e.spindle with
  | none =>
    unfold setSpindleOff at hr
    rw [hs] at hr
    cases hr
    exact hp
  | some sp => exact spindleOff_off h hs hr

theorem keeps_motorsEnable (on : Bool) : Keeps P (motorsEnable e on) := by
  unfold motorsEnable
  keep
  exact .modify fun s => by split <;> rfl

theorem keeps_setEstop (h : AfterOff e P) (hard : Bool) : Keeps P (setEstop e hard) := by
  have h1 := keeps_spindleOff h
  have h2 : Keeps P (motorsEnable e false) := keeps_motorsEnable _
  unfold setEstop
  keep
  exact .modify fun s => rfl

theorem keeps_clearEstop : Keeps P (clearEstop e) := by
  unfold clearEstop inEstop testEStop
  keep

theorem keeps_checkForEstop (h : AfterOff e P) : Keeps P (checkForEstop e) := by
  have := keeps_setEstop h true
  unfold checkForEstop inEstop testEStop
  keep

theorem keeps_fanspeed (v : F) : Keeps P (setFanspeed e v) := by
  unfold setFanspeed
  keep

theorem keeps_waitPause : ∀ fuel n, Keeps P (waitPause e fuel n)
  | 0, 0 => .pure _
  | _ + 1, 0 => .pure _
  | 0, _ + 1 => .stuck
  | fuel + 1, n + 1 => by
    have h1 := keeps_waitPause fuel 2
    have h2 := keeps_waitPause fuel n
    unfold waitPause testPause
    keep

theorem keeps_waitStart : ∀ fuel, Keeps P (waitStart e fuel)
  | 0 => .stuck
  | fuel + 1 => by
    have h1 := keeps_waitStart fuel
    unfold waitStart testStart
    keep

theorem keeps_waitForStart : Keeps P (waitForStart e) := by
  have h1 : Keeps P (waitPause e e.patience 2) := keeps_waitPause _ _
  have h2 : Keeps P (waitStart e e.patience) := keeps_waitStart _
  unfold waitForStart testPause testStart
  keep

theorem keeps_dwell (h : AfterOff e P) : Keeps P (dwell e) := by
  have h1 := keeps_checkForEstop h
  have h2 : Keeps P (waitForStart e) := keeps_waitForStart
  unfold dwell testPause
  keep

theorem keeps_setLookahead (args : List (Char × F)) : Keeps P (handleSetLookahead e args) := by
  have hset : ∀ n : Int, Keeps P (do
      motors e.queue.waitQueueEmpty
      let s ← get
      let r := Planner.setLookahead s.planner n
      if r.2 then modify fun s => { s with planner := (Planner.setLookahead s.planner n).1 } else stuck : M F β σ Unit) := by
    intro n
    dsimp only
    keep
    exact .modify fun _ => rfl
  unfold handleSetLookahead
  dsimp only
  split
  · exact .bind (hset _) fun _ => .pure _
  · split
    · exact .pure _
    · split
      · keep
      · exact .bind (hset _) fun _ => .pure _

theorem keeps_auxBitCommands (h : AfterOff e P) {code : Int} (h3 : code ≠ 3) (h4 : code ≠ 4) (args : List (Char × F)) :
    Keeps P (auxBitCommands e code args) := by
  have h1 := keeps_spindleOff h
  unfold auxBitCommands
  rw [if_neg h3, if_neg h4]
  dsimp only
  keep

theorem keeps_special (h : AfterOff e P) (l : Char) (v : F) (args : List (Char × F))
    (hl : l = 'M' → e.A.toInt v ≠ 3 ∧ e.A.toInt v ≠ 4) : Keeps P (special e l v args) := by
  have h1 := keeps_setEstop h false
  have h2 : Keeps P (clearEstop e) := keeps_clearEstop
  have h3 := keeps_dwell h
  have h4 : Keeps P (handleSetLookahead e args) := keeps_setLookahead args
  unfold special
  by_cases hM : l = 'M'
  · have h5 := keeps_auxBitCommands h (hl hM).1 (hl hM).2 args
    dsimp only
    keep
    all_goals exact .modify fun _ => rfl
  · rw [if_pos hM]
    exact .pure _

theorem keeps_finished (h : AfterOff e P) (eos : Bool) : Keeps P (gcodeFinished e eos) := by
  have h1 := keeps_spindleOff h
  have h2 : Keeps P (motorsEnable e false) := keeps_motorsEnable _
  unfold gcodeFinished
  keep

theorem keeps_allowed (pos : Axis → F) : Keeps P (allowed e pos) := by
  have h1 : Keeps P (allowedHoming e) := by unfold allowedHoming; keep
  have h2 : Keeps P (allowedLimits e pos) := by
    unfold allowedLimits
    refine .ite (.pure _) ?_
    split <;> keep
  have h3 : Keeps P (allowedEstop : M F β σ Bool) := by unfold allowedEstop inEstop; keep
  unfold allowed
  keep

theorem keeps_submit (h : AfterOff e P) (pos : Axis → F) (feed : F) : Keeps P (submit e pos feed) := by
  have h1 := keeps_checkForEstop h
  unfold submit
  keep

theorem keeps_coordinated (h : AfterOff e P) (feed : F) (pos : Axis → F) : Keeps P (coordinatedMove e feed pos) := by
  have h1 : Keeps P (allowed e pos) := keeps_allowed _
  have h2 := fun f => keeps_submit h pos f
  unfold coordinatedMove
  dsimp only
  keep
  all_goals first | exact h2 _ | exact .modify fun _ => rfl

theorem keeps_rapid (h : AfterOff e P) (feed : F) (pos : Axis → F) : Keeps P (rapidMove e feed pos) := by
  have h1 : Keeps P (allowed e pos) := keeps_allowed _
  have h2 := fun f => keeps_submit h pos f
  unfold rapidMove
  dsimp only
  keep
  all_goals first | exact h2 _ | exact .modify fun _ => rfl

theorem keeps_idle (h : AfterOff e P) (first : Bool) : Keeps P (inputIdle e first) := by
  have h1 := keeps_checkForEstop h
  have h2 : Keeps P (idleFan e) := by
    have : Keeps P (setFanspeed e e.A.zero) := keeps_fanspeed _
    unfold idleFan
    keep
    exact .modify fun _ => rfl
  have h3 : Keeps P (idleMotor e first) := by
    have : Keeps P (motorsEnable e false) := keeps_motorsEnable _
    unfold idleMotor
    keep
    all_goals exact .modify fun _ => rfl
  unfold inputIdle
  keep

theorem keeps_testAxis (a : Axis) (t : Trigger) : Keeps P (testAxis e a t) := by
  cases t <;> unfold testAxis <;> keep

theorem keeps_approach (a : Axis) (t : Trigger) (d : Int) (v1 : F) : ∀ fuel v0 n, Keeps P (approach e a t d v1 fuel v0 n)
  | 0, _, _ => .stuck
  | fuel + 1, v0, n => by
    have h1 : Keeps P (testAxis e a t) := keeps_testAxis a t
    have h2 := fun m => keeps_approach a t d v1 fuel v1 m
    unfold approach testEStop
    keep
    all_goals exact h2 _

theorem keeps_backOff (a : Axis) (t : Trigger) (d : Int) (v0 v1 : F) : ∀ fuel n, Keeps P (backOff e a t d v0 v1 fuel n)
  | 0, _ => .stuck
  | fuel + 1, n => by
    have h1 : Keeps P (testAxis e a t) := keeps_testAxis a t
    have h2 := fun m => keeps_backOff a t d v0 v1 fuel m
    unfold backOff testEStop
    keep
    all_goals exact h2 _

theorem keeps_moveToEndstop (a : Axis) (f : F) (t : Trigger) : Keeps P (moveToEndstop e a f t) := by
  unfold moveToEndstop
  dsimp only
  refine .bind .get fun _ => .ite (.pure _) (.bind (keeps_approach _ _ _ _ _ _ _) fun r => ?_)
  split
  · exact .pure _
  · refine .bind (keeps_backOff _ _ _ _ _ _ _) fun r => ?_
    split <;> exact .pure _

theorem keeps_probeLoop (a : Axis) (st v1 : F) (mx : Int) : ∀ fuel v0 n, Keeps P (probeLoop e a st v1 mx fuel v0 n)
  | 0, _, _ => .stuck
  | fuel + 1, v0, n => by
    have h2 := fun m => keeps_probeLoop a st v1 mx fuel v1 m
    unfold probeLoop testProbe
    keep
    all_goals exact h2 _

theorem keeps_moveToProbe (a : Axis) (f : F) (d mx : Int) : Keeps P (moveToProbe e a f d mx) := by
  unfold moveToProbe
  dsimp only
  exact .bind .get fun _ => .ite (.pure _) (keeps_probeLoop _ _ _ _ _ _ _)

theorem keeps_homeAxis (a : Axis) : Keeps P (homeAxis e a) := by
  have h1 := fun f t => keeps_moveToEndstop (e := e) (P := P) a f t
  unfold homeAxis
  dsimp only
  keep
  all_goals exact h1 _ _

theorem keeps_homeAll (axes : Axis → Bool) : ∀ l, Keeps P (homeAll e axes l)
  | [] => .pure _
  | none :: rest => by unfold homeAll; exact keeps_homeAll axes rest
  | some a :: rest => by
    have h1 : Keeps P (homeAxis e a) := keeps_homeAxis a
    have h2 := keeps_homeAll axes rest
    unfold homeAll
    dsimp only
    keep

theorem keeps_home (h : AfterOff e P) (axes : Axis → Bool) : Keeps P (goHome e axes) := by
  have h1 := keeps_checkForEstop h
  have h2 : Keeps P (clearEstop e) := keeps_clearEstop
  have h3 : Keeps P (homeAll e axes e.cfg.homeOrder) := keeps_homeAll _ _
  unfold goHome
  keep
  exact .modify fun _ => rfl

theorem keeps_probe (feed : F) (a : Axis) : Keeps P (probeAxis e feed a) := by
  have h1 : Keeps P (allowedHoming e) := by unfold allowedHoming; keep
  have h3 : Keeps P (allowedEstop : M F β σ Bool) := by unfold allowedEstop inEstop; keep
  have h4 := fun f d m => keeps_moveToProbe (e := e) (P := P) a f d m
  unfold probeAxis
  dsimp only
  keep
  all_goals exact h4 _ _ _

/-- M3 or M4. -/
def Event.TurnsOn (A : Arith F) (ev : Event F) : Prop :=
  ∃ v args, ev = .unprocessed 'M' v args ∧ (A.toInt v = 3 ∨ A.toInt v = 4)

/-- M0, M5 or the end of the program. -/
def Event.TurnsOff (A : Arith F) (ev : Event F) : Prop :=
  (∃ eos, ev = .finished eos) ∨ ∃ v args, ev = .unprocessed 'M' v args ∧ (A.toInt v = 0 ∨ A.toInt v = 5)

theorem keeps_handle (h : AfterOff e P) (ev : Event F) (hn : ¬ ev.TurnsOn e.A) : Keeps P (handle e ev) := by
  cases ev with
  | start =>
    unfold handle gcodeStart
    have := fun v => keeps_fanspeed (e := e) (P := P) v
    keep
    exact this _
  | finished eos => exact .bind (keeps_finished h _) fun _ => .pure _
  | idle first => exact .bind (keeps_idle h _) fun _ => .pure _
  | waitForStart => exact .bind keeps_waitForStart fun _ => .pure _
  | home axes => exact .bind (keeps_home h _) fun _ => .pure _
  | probe feed a => exact .bind (keeps_probe _ _) fun _ => .pure _
  | speedFactor f =>
    unfold handle setSpeedFactor
    dsimp only
    keep
    exact .modify fun _ => rfl
  | fan v => exact .bind (keeps_fanspeed _) fun _ => .pure _
  | dwell => exact .bind (keeps_dwell h) fun _ => .pure _
  | motors on => exact .bind (keeps_motorsEnable _) fun _ => .pure _
  | coordinated feed pos => exact .bind (keeps_coordinated h _ _) fun _ => .pure _
  | rapid feed pos => exact .bind (keeps_rapid h _ _) fun _ => .pure _
  | unprocessed l v args =>
    refine .bind (keeps_special h l v args fun hl => ⟨fun h3 => hn ?_, fun h4 => hn ?_⟩) fun _ => .pure _
    · exact ⟨v, args, by rw [hl], .inl h3⟩
    · exact ⟨v, args, by rw [hl], .inr h4⟩

/-- **C106** M0, M5 and the end of a program stop the spindle. -/
theorem C106_stops (h : AfterOff e P) {sp : SpindleCtl F σ} (hs : e.spindle = some sp) {ev : Event F} (ho : ev.TurnsOff e.A)
    {s s' : State F β σ} {a : Answer F} (hr : handle e ev s = some (a, s')) : P s'.spindle := by
  rcases ho with ⟨eos, rfl⟩ | ⟨v, args, rfl, hv | hv⟩
  · obtain ⟨_, s1, h1, h2⟩ := bind_some.1 hr
    cases h2
    unfold gcodeFinished at h1
    obtain ⟨_, s2, -, h1⟩ := bind_some.1 h1
    obtain ⟨_, s3, h3, h1⟩ := bind_some.1 h1
    have k : Keeps P (motorsEnable e false) := keeps_motorsEnable _
    exact (show Keeps P (if eos = true ∧ 0 < e.cfg.autoMotorDisable then motorsEnable e false else pure ()) from
      .ite k (.pure _)) _ _ _ h1 (spindleOff_off h hs h3)
  · obtain ⟨_, s1, h1, h2⟩ := bind_some.1 hr
    cases h2
    simp only [special, hv] at h1
    obtain ⟨_, s2, h2, h1⟩ := bind_some.1 (by simpa using h1)
    cases h1
    unfold setEstop at h2
    obtain ⟨_, s3, h3, h2⟩ := bind_some.1 h2
    refine (show Keeps P _ from ?_) _ _ _ h2 (spindleOff_off h hs h3)
    have k : Keeps P (motorsEnable e false) := keeps_motorsEnable _
    keep
    exact .modify fun _ => rfl
  · obtain ⟨_, s1, h1, h2⟩ := bind_some.1 hr
    cases h2
    simp only [special, hv, auxBitCommands] at h1
    obtain ⟨_, s2, h2, h1⟩ := bind_some.1 (by simpa using h1)
    cases h1
    obtain ⟨_, s3, h3, h2⟩ := bind_some.1 h2
    cases h2
    exact spindleOff_off h hs h3

/-- **C106** An emergency stop by the input stops it, too. -/
theorem C106_input (h : AfterOff e P) {sp : SpindleCtl F σ} (hs : e.spindle = some sp) {s s' : State F β σ}
    (hr : checkForEstop e s = some (true, s')) : P s'.spindle := by
  unfold checkForEstop at hr
  obtain ⟨b, s1, -, hr⟩ := bind_some.1 hr
  cases b with
  | true => cases hr
  | false =>
    obtain ⟨b, s2, -, hr⟩ := bind_some.1 hr
    cases b with
    | false => cases hr
    | true =>
      obtain ⟨_, s3, h3, hr⟩ := bind_some.1 hr
      cases hr
      unfold setEstop at h3
      obtain ⟨_, s4, h4, h3⟩ := bind_some.1 h3
      refine (show Keeps P _ from ?_) _ _ _ h3 (spindleOff_off h hs h4)
      have k : Keeps P (motorsEnable e false) := keeps_motorsEnable _
      keep
      exact .modify fun _ => rfl

/-- **C106** Only M3 and M4 start the spindle: whatever else is done, once stopped it is not told to turn. -/
theorem C106_stays_off (h : AfterOff e P) : ∀ (evs : List (Event F)) (s s' : State F β σ), (∀ ev ∈ evs, ¬ ev.TurnsOn e.A) →
    run e s evs = some s' → P s.spindle → P s'.spindle
  | [], _, _, _, hr, hp => by cases hr; exact hp
  | ev :: evs, s, s', hn, hr, hp => by
    obtain ⟨r, h1, h2⟩ := Option.bind_eq_some_iff.1 hr
    exact C106_stays_off h evs _ _ (fun x hx => hn x (List.mem_cons_of_mem _ hx)) h2
      (keeps_handle h ev (hn ev List.mem_cons_self) _ _ _ h1 hp)

end

/-! ### What is missing -/

/-- The same machine with another way to wait for the motors. -/
def Env.waiting (w : Hw F × β → Hw F × β) : Env F β σ := { e with queue := { e.queue with waitQueueEmpty := w } }

theorem issueLoop_waiting (hsync : e.plan.synchronous = false) (w : Hw F × β → Hw F × β) : ∀ (n : Nat) (p : Planner.State F (Hw F × β)) (b : Bool),
    Planner.issueLoop e.A e.plan (e.waiting w).backend n p b = Planner.issueLoop e.A e.plan e.backend n p b
  | 0, _, _ => rfl
  | n + 1, p, b => by
    unfold Planner.issueLoop
    split
    · rfl
    · have hs : Planner.sendSegment e.A e.plan (e.waiting w).backend = Planner.sendSegment e.A e.plan e.backend := by
        funext b seg ret
        unfold Planner.sendSegment
        rw [hsync]
        rfl
      rw [hs]
      dsimp only
      split
      · exact issueLoop_waiting hsync w n _ _
      · exact issueLoop_waiting hsync w n _ _

theorem halt_waiting (hsync : e.plan.synchronous = false) (w : Hw F × β → Hw F × β) : halt (e.waiting w) = halt e := by
  funext s
  unfold halt Planner.bringPathToHalt Planner.issue
  show (if s.planner.halted then _ else (Planner.issueLoop e.A e.plan (e.waiting w).backend _ _ _).map _).map _ = _
  rw [issueLoop_waiting e hsync]

theorem words_waiting (w : Hw F × β → Hw F × β) : ∀ (args : List (Char × F)) (n : Int),
    spindleWords (e.waiting w) n args = spindleWords e n args
  | [], _ => rfl
  | (l, v) :: rest, n => by
    unfold spindleWords
    split
    · exact words_waiting w rest _
    · rfl

/-- **C106** fails: the spindle is not told after the moves before are done, but as soon as they are planned. What M3, M4 and M5 do does not
depend on what waiting for the motors would be; they do not wait. (In synchronous mode the planner waits, but before each move only.) -/
theorem C106_early (hsync : e.plan.synchronous = false) (w : Hw F × β → Hw F × β) {value : F} (hv : e.A.toInt value = 3 ∨ e.A.toInt value = 4 ∨ e.A.toInt value = 5)
    (args : List (Char × F)) (s : State F β σ) :
    special (e.waiting w) 'M' value args s = special e 'M' value args s := by
  have h1 : ∀ ccw, setSpindleOn (e.waiting w) ccw args = setSpindleOn e ccw args := by
    intro ccw
    unfold setSpindleOn
    rw [halt_waiting e hsync, words_waiting]
    rfl
  have h2 : setSpindleOff (e.waiting w) = setSpindleOff e := by
    unfold setSpindleOff
    rw [halt_waiting e hsync]
    rfl
  have hA : (e.waiting w).A = e.A := rfl
  rcases hv with hv | hv | hv <;> simp [special, auxBitCommands, hA, hv, h1, h2]

/-- **C106** fails: M3 and M4 turn the spindle on in emergency stop, too. -/
theorem C106_in_estop {code : Int} (hc : code = 3 ∨ code = 4) {value : F} (hv : e.A.toInt value = code) {speed : F}
    (hp : 0 ≤ e.A.lround speed) {sp : SpindleCtl F σ} (hs : e.spindle = some sp) (s : State F β σ) (hh : s.planner.halted = true)
    (hi : Inv e.A s.planner) (_ : s.hw.estop = true) {r : σ × List (Spindle.Act F)}
    (hr : sp.on s.spindle (decide (code = 4)) (e.A.lround speed) = some r) :
    special e 'M' value [('S', speed)] s = some (some [], s.told e s.planner r) := by
  obtain ⟨p, h1, -, -, h4⟩ := C106_on e hc hv (args := [('S', speed)]) (used := [('S', speed)]) (rest := [])
    ⟨rfl, by simp, by simp⟩ hs s hi
  have : p = s.planner := by
    unfold Planner.bringPathToHalt at h1
    rw [hh] at h1
    exact (Option.some.inj h1).symm
  subst this
  have hl : lastWord e 'S' [('S', speed)] (-1) = e.A.lround speed := by simp [lastWord]
  rw [h4, hl, if_pos hp, hr]
  rfl

/-! ### The spindles of the program -/

/-- **C106** For the PWM spindle: after M0, M5 or the end of a program its flag `is_off` is set, and only M3 and M4 change that. -/
theorem C106_pwm {A : Arith F} {cfg : Spindle.Config} {fuel : Nat} (e : Env F β (Spindle.State F))
    (hs : e.spindle = some ⟨Spindle.on A cfg fuel, Spindle.off A fuel⟩) :
    AfterOff e fun x => x.isOff = true ∧ A.lt A.zero x.duty = false := by
  intro sp h x y l ho
  rw [hs] at h
  cases h
  obtain ⟨r, h1, h2⟩ := Option.map_eq_some_iff.1 ho
  cases h2
  refine ⟨rfl, ?_⟩
  have : ∀ (n : Nat) (d : F) (r : F × List (Spindle.Act F)), Spindle.rampDown A n d = some r → A.lt A.zero r.1 = false := by
    intro n
    induction n with
    | zero =>
      intro d r h
      unfold Spindle.rampDown at h
      split at h
      · cases h
      · rename_i hn; cases h; simpa using hn
    | succ n ih =>
      intro d r h
      unfold Spindle.rampDown at h
      split at h
      · obtain ⟨q, h1, h2⟩ := Option.map_eq_some_iff.1 h
        cases h2
        exact ih _ q h1
      · rename_i hn; cases h; simpa using hn
  exact this _ _ _ h1

end BeagleG.Machine
