import Verif.Machine.HomeProps
import Verif.Hardware.AuxProps
/-!
# C35: emergency stop

Specification: `Stopped`, the hardware is in emergency stop and the motors are off. The motor backend is
arbitrary, apart from being `Lawful`: it touches the hardware mapping only by `EnableMotors`, and the
firmware writes the auxiliary pins.
-/
namespace BeagleG.Machine

open Planner (Axis Motor Arith Command)
open Hardware

variable {F β σ : Type}

/-- What the motor backend does to the hardware: `EnableMotors` (pru-motion-queue.cc 75-77), and the
firmware sets the auxiliary pins of the segment it executes (motor-interface-pru.p 214-216). -/
inductive QAct where
  | enable (on : Bool)
  | aux (i : Fin 16) (v : Bool)

/-- Its effect on the hardware. -/
def QAct.apply (c : Cape) (h : Hw F) : QAct → Hw F
  | .enable on => enableMotors c h on
  | .aux i v => h.write (c.aux i) v

/-- The second hardware state results from the first by such actions. -/
def Touches (c : Cape) (h h' : Hw F) : Prop := ∃ l : List QAct, h' = l.foldl (QAct.apply c) h

/-- A motor backend that touches the hardware only in these ways. -/
structure Lawful (c : Cape) (Q : Queue F β) : Prop where
  enqueue : ∀ x cmd, Touches c x.1 (Q.enqueue x cmd).1.1
  wait : ∀ x, Touches c x.1 (Q.waitQueueEmpty x).1
  ext : ∀ x m p, Touches c x.1 (Q.setExternalPosition x m p).1
  enable : ∀ x on, ∃ h, Touches c x.1 h ∧ (Q.motorEnable x on).1 = enableMotors c h on

/-- The auxiliary pins and the pin that enables the motors are different. -/
structure Sane (c : Cape) : Prop where
  mapped : c.motorEnable ≠ 0
  aux : ∀ i, c.aux i ≠ c.motorEnable

/-- Specification: the motors are off. -/
def MotorsOff (c : Cape) (h : Hw F) : Prop :=
  h.motorsEnabled = false ∧ h.level c.motorEnable = !c.activeHigh

/-- Specification: in emergency stop and the motors are off. -/
structure Stopped (c : Cape) (h : Hw F) : Prop where
  initialized : h.initialized = true
  estop : h.estop = true
  off : MotorsOff c h

/-- The same apart from output levels, and a stopped machine stays stopped. -/
structure Keep (c : Cape) (h h' : Hw F) : Prop where
  same : h' = { h with level := h'.level, motorsEnabled := h'.motorsEnabled }
  off : h.estop = true → MotorsOff c h → MotorsOff c h'

variable {c : Cape}

theorem Keep.refl (h : Hw F) : Keep c h h := ⟨rfl, fun _ h => h⟩

theorem Keep.trans {h h' h'' : Hw F} (k : Keep c h h') (k' : Keep c h' h'') : Keep c h h'' := by
  refine ⟨?_, fun he ho => k'.off ?_ (k.off he ho)⟩
  · have h1 := k'.same
    rw [k.same] at h1
    exact h1
  · rw [k.same]; exact he

theorem write_same (h : Hw F) (pin : Nat) (v : Bool) :
    h.write pin v = { h with level := (h.write pin v).level } := by
  unfold Hw.write
  split <;> rfl

theorem enableMotors_off (hc : Sane c) {h : Hw F} (hi : h.initialized = true) {on : Bool}
    (ho : on = true → h.estop = true) : MotorsOff c (enableMotors c h on) := by
  have hon : (if (on && h.estop) = true then false else on) = false := by
    cases on
    · simp
    · simp [ho rfl]
  have he : enableMotors c h on =
      { h.write c.motorEnable (!(false ^^ c.activeHigh)) with motorsEnabled := false } := by
    unfold enableMotors
    rw [hi]
    simp only [hon, Bool.not_true, Bool.false_eq_true, if_false]
  rw [he]
  refine ⟨rfl, ?_⟩
  show (h.write c.motorEnable (!(false ^^ c.activeHigh))).level c.motorEnable = _
  rw [write_level, if_pos ⟨hc.mapped, rfl⟩, Bool.false_xor]

theorem enableMotors_same (h : Hw F) (on : Bool) : enableMotors c h on =
    { h with level := (enableMotors c h on).level, motorsEnabled := (enableMotors c h on).motorsEnabled } := by
  unfold enableMotors
  split
  · rfl
  · dsimp only
    rw [write_same]

theorem QAct.keep (hc : Sane c) (h : Hw F) (a : QAct) : Keep c h (a.apply c h) := by
  cases a with
  | enable on =>
    refine ⟨enableMotors_same h on, fun he ho => ?_⟩
    by_cases hi : h.initialized = true
    · exact enableMotors_off hc hi (fun _ => he)
    · simp only [QAct.apply, enableMotors, hi, Bool.not_false, if_true]
      exact ho
  | aux i v =>
    refine ⟨?_, fun he ho => ?_⟩
    · simp only [QAct.apply]
      unfold Hw.write
      split <;> rfl
    · simp only [QAct.apply]
      constructor
      · rw [write_same]; exact ho.1
      · rw [write_level, if_neg (fun h => hc.aux i h.2.symm)]
        exact ho.2

theorem Touches.keep (hc : Sane c) {h h' : Hw F} (ht : Touches c h h') : Keep c h h' := by
  obtain ⟨l, rfl⟩ := ht
  induction l generalizing h with
  | nil => exact .refl h
  | cons a l ih => exact (a.keep hc h).trans ih

theorem Lawful.respects {e : Env F β σ} (hl : Lawful e.cape e.queue) (hc : Sane e.cape) :
    Respects e.backend (fun x y => Keep e.cape x.1 y.1) :=
  ⟨fun x => .refl x.1, fun h h' => h.trans h', fun x cmd => (hl.enqueue x cmd).keep hc,
    fun x => (hl.wait x).keep hc, fun x m p => (hl.ext x m p).keep hc⟩

/-- `SetAuxOutputs` writes auxiliary pins. -/
theorem setAuxOutputs_touches (h : Hw F) : Touches c h (setAuxOutputs c h) := by
  unfold setAuxOutputs
  split
  · exact ⟨[], rfl⟩
  · refine ⟨(List.finRange 16).map fun i => .aux i (h.auxBits.getLsbD i.val), ?_⟩
    rw [List.foldl_map]
    rfl

/-- Changes that leave a stopped machine stopped; bits may change. -/
structure Holds (c : Cape) (h h' : Hw F) : Prop where
  initialized : h'.initialized = h.initialized
  estopInput : h'.estopInput = h.estopInput
  auxOf : h'.auxOf = h.auxOf
  stopped : Stopped c h → Stopped c h'

theorem Holds.refl (h : Hw F) : Holds c h h := ⟨rfl, rfl, rfl, fun h => h⟩

theorem Holds.trans {h h' h'' : Hw F} (k : Holds c h h') (k' : Holds c h' h'') : Holds c h h'' :=
  ⟨k'.initialized.trans k.initialized, k'.estopInput.trans k.estopInput, k'.auxOf.trans k.auxOf,
    fun h => k'.stopped (k.stopped h)⟩

theorem Keep.holds {h h' : Hw F} (k : Keep c h h') : Holds c h h' := by
  have hs := k.same
  refine ⟨?_, ?_, ?_, fun st => ⟨?_, ?_, k.off st.estop st.off⟩⟩ <;> rw [hs]
  · exact st.initialized
  · exact st.estop

theorem setAux_holds (hc : Sane c) (h : Hw F) : Holds c h (setAuxOutputs c h) :=
  ((setAuxOutputs_touches h).keep hc).holds

/-- Changes of the software bits only. -/
theorem bits_holds (h : Hw F) (b : BitVec 16) (st : Bool) (hs : h.estop = true → st = true) :
    Holds c h { h with auxBits := b, estop := st } :=
  ⟨rfl, rfl, rfl, fun k => ⟨k.initialized, hs k.estop, k.off⟩⟩

theorem bitmap_holds (h : Hw F) (o : Output) (on : Bool) (ho : o = .estop → on = true) :
    Holds c h (updateAuxBitmap h o on) := by
  unfold updateAuxBitmap
  apply bits_holds
  intro he
  split
  · exact ho ‹_›
  · exact he

theorem pwm_holds (h : Hw F) (o : Output) (v : F) (p : Bool) : Holds c h (setPwmOutput h o v p) := by
  have h1 : ∀ (h : Hw F) pin on, Holds c h (pwmStart h pin on) := by
    intro h pin on
    unfold pwmStart
    split
    · exact .refl h
    · exact ⟨rfl, rfl, rfl, fun k => ⟨k.initialized, k.estop, k.off⟩⟩
  have h2 : ∀ (h : Hw F) pin v, Holds c h (pwmDuty h pin v) := by
    intro h pin on
    unfold pwmDuty
    split
    · exact .refl h
    · exact ⟨rfl, rfl, rfl, fun k => ⟨k.initialized, k.estop, k.off⟩⟩
  unfold setPwmOutput
  split
  · exact .refl h
  · split
    · exact h1 _ _ _
    · exact (h2 _ _ _).trans (h1 _ _ _)

theorem spindle_holds (A : Arith F) (hc : Sane c) (h : Hw F) (a : Spindle.Act F) :
    Holds c h (a.apply A c h) := by
  cases a with
  | power on =>
    exact (bitmap_holds h .spindle on (by simp)).trans (setAux_holds hc _)
  | direction on =>
    exact (bitmap_holds h .spindleDirection on (by simp)).trans (setAux_holds hc _)
  | speed v => exact pwm_holds h _ _ _

theorem spindles_holds (A : Arith F) (hc : Sane c) (l : List (Spindle.Act F)) : ∀ h : Hw F,
    Holds c h (l.foldl (Spindle.Act.apply A c) h) := by
  induction l with
  | nil => intro h; exact .refl h
  | cons a l ih => intro h; exact (spindle_holds A hc h a).trans (ih _)

variable (e : Env F β σ)

/-- Every step but clearing leaves a stopped machine stopped. -/
theorem step_holds (hc : Sane e.cape) (hq : Lawful e.cape e.queue) {l : Label F} {s s' : State F β σ}
    (h : Step e l s s') (hl : l ≠ .clear) : Holds e.cape s.hw s'.hw := by
  have hR := hq.respects hc
  cases l with
  | clear => exact absurd rfl hl
  | say m => obtain ⟨_, h⟩ := h; subst h; exact .refl _
  | stopped => obtain ⟨_, h⟩ := h; subst h; exact .refl _
  | flag o on => obtain ⟨h1, h⟩ := h; subst h; exact bitmap_holds _ _ _ h1
  | auxBit pin on =>
    subst h
    exact ⟨rfl, rfl, rfl, fun k => ⟨k.initialized, k.estop, k.off⟩⟩
  | setAux => subst h; exact setAux_holds hc _
  | auxOff =>
    subst h
    exact Holds.trans (h' := { s.hw with auxBits := 0 })
      ⟨rfl, rfl, rfl, fun k => ⟨k.initialized, k.estop, k.off⟩⟩ (setAux_holds hc _)
  | fan => subst h; exact pwm_holds _ _ _ _
  | spindle => obtain ⟨_, l, h⟩ := h; subst h; exact spindles_holds _ hc l _
  | halt => exact (halt_rel hR h).2.holds
  | move => obtain ⟨_, _, _, h⟩ := h; exact (move_rel hR h).2.holds
  | drive => obtain ⟨_, _, _, _, h⟩ := h; exact (drive_rel hR h).2.holds
  | external => obtain ⟨_, h⟩ := h; exact (external_rel hR h).2.holds
  | enable on =>
    subst h
    obtain ⟨h1, t, he⟩ := hq.enable s.planner.backend on
    have := (t.keep hc).trans (QAct.keep hc h1 (.enable on))
    show Holds _ _ (e.queue.motorEnable s.planner.backend on).1
    rw [he]
    exact this.holds
  | wait => subst h; exact (hq.wait _ |>.keep hc).holds
  | lookahead =>
    obtain ⟨n, h⟩ := h
    subst h
    have : (Planner.setLookahead s.planner n).1.backend = s.planner.backend := by
      unfold Planner.setLookahead; split <;> rfl
    show Holds _ _ (Planner.setLookahead s.planner n).1.backend.1
    rw [this]
    exact .refl _
  | _ => subst h; exact .refl _

theorem trace_holds (hc : Sane e.cape) (hq : Lawful e.cape e.queue) {ls : List (Label F)}
    {s s' : State F β σ} (h : Trace e s ls s') (hl : ∀ l ∈ ls, l ≠ .clear) :
    Holds e.cape s.hw s'.hw := by
  induction h with
  | nil => exact .refl _
  | cons h1 _ ih =>
    exact (step_holds e hc hq h1 (hl _ List.mem_cons_self)).trans
      (ih fun l hm => hl l (List.mem_cons_of_mem _ hm))

/-- `clear_estop` on a stopped machine. -/
theorem clear_stopped {s s' : State F β σ} {b : Bool} (hs : s.hw.estop = true) (hi : s.hw.initialized = true)
    (h : clearEstop e s = some (b, s')) :
    (b = false ∧ s'.hw = s.hw) ∨
    (b = true ∧ Says s s' [.estopCleared] ∧
      (e.cape.switchPin s.hw.estopInput = 0 ∨ e.read s.tick s.hw.estopInput = false)) := by
  unfold clearEstop inEstop at h
  obtain ⟨b1, s1, h1, h⟩ := bind_some.1 h
  cases h1
  rw [if_pos hs] at h
  obtain ⟨b2, s2, h2, h⟩ := bind_some.1 h
  unfold testEStop at h2
  obtain ⟨t, s3, h3, h2⟩ := bind_some.1 h2
  cases h3
  unfold testSwitch at h2
  rw [hi] at h2
  by_cases hp : e.cape.switchPin s.hw.estopInput = 0
  · simp only [hp, Bool.not_true, Bool.false_or, decide_true, if_true] at h2
    cases h2
    simp only [Bool.false_eq_true, if_false] at h
    cases h
    exact .inr ⟨rfl, rfl, .inl hp⟩
  · simp only [hp, Bool.not_true, Bool.false_or, decide_false, Bool.false_eq_true, if_false] at h2
    rcases Bool.eq_false_or_eq_true (e.read s.tick s.hw.estopInput) with hr | hr
    · rw [hr] at h2
      cases h2
      cases h
      exact .inl ⟨rfl, rfl⟩
    · rw [hr] at h2
      cases h2
      simp only [Bool.false_eq_true, if_false] at h
      cases h
      exact .inr ⟨rfl, rfl, .inr hr⟩

/-- Events that may clear an emergency stop: G28 and M999. -/
def Event.clears (A : Arith F) : Event F → Prop
  | .home _ => True
  | .unprocessed l v _ => l = 'M' ∧ A.toInt v = 999
  | _ => False

/-- Specification: the event clears the emergency stop: it is G28 or M999, the stop input is inactive (or
there is none), and the clearing is announced. -/
def Clears (ev : Event F) (s s' : State F β σ) : Prop :=
  ev.clears e.A ∧ (∃ new, Says s s' new ∧ Msg.estopCleared ∈ new) ∧
    (e.cape.switchPin s.hw.estopInput = 0 ∨ e.read s.tick s.hw.estopInput = false)

theorem trace_says {ls : List (Label F)} {s s' : State F β σ} (h : Trace e s ls s') :
    ∃ new, Says s s' new := by
  have hR := respects_true e.backend
  induction h with
  | nil => exact ⟨[], by simp [Says]⟩
  | @cons s l s' ls s'' h1 _ ih =>
    obtain ⟨n2, e2⟩ := ih
    have : ∃ new, Says s s' new := by
      have key : s'.out = s.out → ∃ new, Says s s' new := fun h2 => ⟨[], by simp [Says, h2]⟩
      cases l with
      | say m => obtain ⟨h1, h2⟩ := h1; subst h2; exact ⟨[m], rfl⟩
      | stopped hard => obtain ⟨h1, h2⟩ := h1; subst h2; exact ⟨[_], rfl⟩
      | flag o on => obtain ⟨_, h⟩ := h1; subst h; exact key rfl
      | spindle => obtain ⟨_, _, h⟩ := h1; subst h; exact key rfl
      | halt => exact key (halt_rel hR h1).1.out
      | move => obtain ⟨_, _, _, h⟩ := h1; exact key (move_rel hR h).1.out
      | drive => obtain ⟨_, _, _, _, h⟩ := h1; exact key (drive_rel hR h).1.out
      | external => obtain ⟨_, h⟩ := h1; exact key (external_rel hR h).1.out
      | lookahead => obtain ⟨n, h⟩ := h1; subst h; exact key rfl
      | _ => subst h1; exact key rfl
    obtain ⟨n1, e1⟩ := this
    exact ⟨n1 ++ n2, by unfold Says at *; rw [e2, e1, List.append_assoc]⟩

theorem handle_stopped (hc : Sane e.cape) (hq : Lawful e.cape e.queue) {ev : Event F}
    {s s' : State F β σ} {a : Answer F} (hs : Stopped e.cape s.hw) (h : handle e ev s = some (a, s')) :
    Stopped e.cape s'.hw ∨ Clears e ev s s' := by
  by_cases hev : ev.clears e.A
  · cases ev with
    | home axes =>
      unfold handle goHome at h
      obtain ⟨_, s1, h, h2⟩ := bind_some.1 h
      cases h2
      obtain ⟨_, s2, h1, h⟩ := bind_some.1 h
      have hk := (halt_rel (hq.respects hc) h1).2.holds
      have hs2 := hk.stopped hs
      have hsame := (halt_rel (hq.respects hc) h1).1
      obtain ⟨b, s3, h3, h⟩ := bind_some.1 h
      rcases clear_stopped e hs2.estop hs2.initialized h3 with ⟨rfl, h4⟩ | ⟨rfl, h4, h5⟩
      · cases h
        left
        rw [h4]
        exact hs2
      · right
        rw [hsame.tick, hk.estopInput] at h5
        refine ⟨trivial, ?_, h5⟩
        have hrest : Does e (Label.within { drive := fun _ => true, stop := true, enable := true, home := true })
            (if true = true then do
              homeAll e axes e.cfg.homeOrder
              if (← checkForEstop e) = true then pure () else modify fun s => { s with homing := .homed }
            else pure PUnit.unit) :=
          .ite (.bind (does_homeAll e _ _ (fun _ => rfl) _) fun _ => .bind (does_checkForEstop e _ rfl rfl) fun _ =>
            .ite (.pure _) (.modify .homed (fun _ => rfl) rfl)) (.pure _)
        obtain ⟨ls, ht, _⟩ := hrest _ _ _ h
        obtain ⟨n, hn⟩ := trace_says e ht
        refine ⟨[.estopCleared] ++ n, ?_, by simp⟩
        unfold Says at *
        rw [hn, h4, hsame.out, List.append_assoc]
    | unprocessed l v args =>
      obtain ⟨rfl, hv⟩ := hev
      unfold handle special at h
      obtain ⟨_, s1, h1, h2⟩ := bind_some.1 h
      cases h2
      rw [if_neg (by simp)] at h1
      simp only [hv] at h1
      rw [if_neg (by decide), if_pos trivial] at h1
      obtain ⟨b, s2, h3, h4⟩ := bind_some.1 h1
      cases h4
      rcases clear_stopped e hs.estop hs.initialized h3 with ⟨rfl, h4⟩ | ⟨rfl, h4, h5⟩
      · left; rw [h4]; exact hs
      · exact .inr ⟨⟨rfl, hv⟩, ⟨_, h4, by simp⟩, h5⟩
    | _ => exact absurd hev (by simp [Event.clears])
  · left
    by_cases hm : ∃ l v args, ev = .unprocessed l v args ∧ l ≠ 'M'
    · obtain ⟨l, v, args, rfl, hl⟩ := hm
      unfold handle special at h
      obtain ⟨_, s1, h1, h2⟩ := bind_some.1 h
      cases h2
      rw [if_pos hl] at h1
      cases h1
      exact hs
    · obtain ⟨ls, ht, hl⟩ := does_handle e ev _ _ _ h
      refine (trace_holds e hc hq ht fun l hmem hh => ?_).stopped hs
      subst hh
      have := hl _ hmem
      cases ev with
      | unprocessed l v args =>
        simp only [Label.within, Event.powers, decide_eq_true_eq] at this
        apply hev
        refine ⟨?_, this⟩
        by_contra hne
        exact hm ⟨l, v, args, rfl, hne⟩
      | _ => simp [Label.within, Event.powers, Event.clears] at this hev

/-- C35. Once in emergency stop with the motors off, this stays so after every event of every history,
unless the emergency stop was cleared by one of the events: a G28 or M999 at which the stop input was
inactive, and which announced it. -/
theorem C35_stays_stopped (hc : Sane e.cape) (hq : Lawful e.cape e.queue) : ∀ (evs : List (Event F))
    (s s' : State F β σ), Stopped e.cape s.hw → run e s evs = some s' →
    Stopped e.cape s'.hw ∨
    ∃ before ev after s1 s2 a, evs = before ++ ev :: after ∧ run e s before = some s1 ∧
      Stopped e.cape s1.hw ∧ handle e ev s1 = some (a, s2) ∧ Clears e ev s1 s2
  | [], s, s', hs, h => by cases h; exact .inl hs
  | ev :: evs, s, s', hs, h => by
    obtain ⟨a, s1, h1, h2⟩ := (run_cons e).1 h
    rcases handle_stopped e hc hq hs h1 with h3 | h3
    · rcases C35_stays_stopped hc hq evs s1 s' h3 h2 with h4 | ⟨b, ev', c, t1, t2, a', rfl, j1, j⟩
      · exact .inl h4
      · exact .inr ⟨ev :: b, ev', c, t1, t2, a', rfl, (run_cons e).2 ⟨a, s1, h1, j1⟩, j⟩
    · exact .inr ⟨[], ev, evs, s, s1, a, rfl, rfl, hs, h1, h3⟩

/-- C35. In emergency stop no move and no probe is accepted, and none has any effect. -/
theorem C35_no_moves {s : State F β σ} {ev : Event F} (hev : ev.movesOrProbes) (hs : s.hw.estop = true) :
    ∃ a m, handle e ev s = some (a, { s with out := s.out ++ [m] }) ∧
      (a = .bool false ∨ a = .probed none) := by
  have hno : ∀ pos, ¬ InOrder e s pos := fun pos h => by rw [h.estop] at hs; cases hs
  cases ev <;> first | exact hev.elim | skip
  · rename_i feed axis
    by_cases hh : e.cfg.requireHoming = true ∧ s.homing = .never
    · exact never_refused e (ev := .probe feed axis) trivial hh.1 hh.2
    · refine ⟨.probed none, .inSoftEstop, ?_, .inr rfl⟩
      have h1 : allowedHoming e s = some (true, s) := by
        unfold allowedHoming
        rcases Bool.eq_false_or_eq_true e.cfg.requireHoming with hr | hr
        · simp only [hr, Bool.not_true, Bool.false_eq_true, if_false]
          show (if s.homing ≠ .never then (pure true : M F β σ Bool) else _) s = _
          rw [if_pos (fun h' => hh ⟨hr, h'⟩)]; rfl
        · simp only [hr, Bool.not_false, if_true]; rfl
      unfold handle
      rw [bind_some]
      refine ⟨none, _, ?_, rfl⟩
      unfold probeAxis
      rw [bind_some]
      refine ⟨true, s, h1, ?_⟩
      simp only [Bool.not_true, Bool.false_eq_true, if_false]
      rw [bind_some]
      refine ⟨false, { s with out := s.out ++ [.inSoftEstop] }, ?_, rfl⟩
      unfold allowedEstop inEstop
      show (if s.hw.estop = true then _ else (pure true : M F β σ Bool)) s = _
      rw [if_pos hs]; rfl
  · obtain ⟨m, _, hm⟩ := C33_refused e (ev := .coordinated _ _) (pos := _) rfl (hno _)
    exact ⟨_, m, hm, .inl rfl⟩
  · obtain ⟨m, _, hm⟩ := C33_refused e (ev := .rapid _ _) (pos := _) rfl (hno _)
    exact ⟨_, m, hm, .inl rfl⟩

end BeagleG.Machine
