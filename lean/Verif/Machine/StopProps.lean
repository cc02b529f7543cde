import Verif.Machine.EstopProps
/-!
# C35: handling of an emergency stop
-/
namespace BeagleG.Machine

open Planner (Axis Motor Arith Command)
open Hardware

variable {F β σ : Type} (e : Env F β σ)

/-- `check_for_estop` either goes through `set_estop` or is quiet. -/
theorem check_cases {s s' : State F β σ} {b : Bool} (h : checkForEstop e s = some (b, s')) :
    (b = true ∧ ∃ t, setEstop e true t = some ((), s')) ∨ (b = false ∧ Quiet s s') := by
  unfold checkForEstop inEstop at h
  obtain ⟨b1, s1, h1, h⟩ := bind_some.1 h
  cases h1
  split at h
  · cases h; exact .inr ⟨rfl, .refl _⟩
  · obtain ⟨b2, s2, h2, h⟩ := bind_some.1 h
    unfold testEStop at h2
    obtain ⟨ls, ht, hl⟩ := Does.bind (e := e) (Q := Label.within {}) Does.get
      (fun a => Does.testSwitch a.hw.estopInput false trivial) _ _ _ h2
    split at h
    · obtain ⟨_, s3, h3, h⟩ := bind_some.1 h
      cases h
      exact .inl ⟨rfl, s2, h3⟩
    · cases h
      exact .inr ⟨rfl, trace_quiet e ht fun l hm hard hh => by
        subst hh; exact absurd (hl _ hm) (by simp [Label.within])⟩

/-- Methods without emergency stop are quiet. -/
theorem does_quiet {α : Type} {p : Powers} {m : M F β σ α} (hp : p.stop = false)
    (h : Does e (Label.within p) m) {s s' : State F β σ} {a : α} (hm : m s = some (a, s')) :
    Quiet s s' := by
  obtain ⟨ls, ht, hl⟩ := h _ _ _ hm
  refine trace_quiet e ht fun l hm hard hh => ?_
  subst hh
  have := hl _ hm
  simp [Label.within, hp] at this

theorem submit_cases {pos : Axis → F} {feed : F} {s s' : State F β σ} {b : Bool}
    (h : submit e pos feed s = some (b, s')) :
    (∃ t, setEstop e true t = some ((), s')) ∨ Quiet s s' := by
  unfold submit at h
  obtain ⟨b1, s1, h1, h⟩ := bind_some.1 h
  have q1 := (move_rel (respects_true e.backend) h1).1.out
  have q1 : Quiet s s1 := ⟨[], by simp [Says, q1], by simp⟩
  split at h
  · cases h; exact .inr q1
  · obtain ⟨b2, s2, h2, h⟩ := bind_some.1 h
    rcases check_cases e h2 with ⟨rfl, t, ht⟩ | ⟨rfl, hq⟩
    · cases h; exact .inl ⟨t, ht⟩
    · cases h; exact .inr (q1.trans hq)

theorem dwell_cases {s s' : State F β σ} {r : Unit} (h : dwell e s = some (r, s')) :
    (∃ t, setEstop e true t = some ((), s')) ∨ Quiet s s' := by
  unfold dwell at h
  obtain ⟨_, s1, h1, h⟩ := bind_some.1 h
  obtain ⟨_, s2, h2, h⟩ := bind_some.1 h
  obtain ⟨b, s3, h3, h⟩ := bind_some.1 h
  have q1 := does_quiet e (p := {}) rfl (.halt trivial) h1
  have q2 := does_quiet e (p := {}) rfl (.wait trivial) h2
  rcases check_cases e h3 with ⟨rfl, t, ht⟩ | ⟨rfl, hq⟩
  · cases h; exact .inl ⟨t, ht⟩
  · right
    refine (q1.trans q2).trans (hq.trans ?_)
    refine does_quiet e (p := {}) rfl ?_ h
    unfold testPause
    walk
    with_reducible exact does_waitForStart e _

/-- Whenever an event announces an emergency stop, the last thing it does is `set_estop`. -/
theorem alarm_cases {ev : Event F} {s s' : State F β σ} {a : Answer F}
    (h : handle e ev s = some (a, s')) (ha : Alarm s s') :
    ∃ hard t, setEstop e hard t = some ((), s') := by
  by_contra hno
  have hno' : ∀ t, setEstop e true t ≠ some ((), s') := fun t ht => hno ⟨true, t, ht⟩
  refine Quiet.not_alarm ?_ ha
  have sub : ∀ {b : Bool} {t : State F β σ}, checkForEstop e t = some (b, s') → Quiet t s' := by
    intro b t hh
    rcases check_cases e hh with ⟨_, t, ht⟩ | ⟨_, hq⟩
    · exact absurd ht (hno' t)
    · exact hq
  have quiet : (ev.powers e.A).stop = false → Quiet s s' := fun hp =>
    does_quiet e hp (does_handle e ev) h
  cases ev with
  | start => exact quiet rfl
  | finished => exact quiet rfl
  | waitForStart => exact quiet rfl
  | probe => exact quiet rfl
  | speedFactor => exact quiet rfl
  | fan => exact quiet rfl
  | motors => exact quiet rfl
  | idle first =>
    unfold handle inputIdle at h
    obtain ⟨_, s1, h, h'⟩ := bind_some.1 h
    cases h'
    obtain ⟨_, s2, h2, h⟩ := bind_some.1 h
    obtain ⟨_, s3, h3, h⟩ := bind_some.1 h
    obtain ⟨_, s4, h4, h⟩ := bind_some.1 h
    obtain ⟨_, s5, h5, h⟩ := bind_some.1 h
    cases h
    have q2 := does_quiet e (p := {}) rfl (.halt trivial) h2
    have q3 := does_quiet e (p := { timers := true, enable := true }) rfl (does_idleMotor e _ _ rfl rfl) h3
    have q4 := does_quiet e (p := { timers := true }) rfl (does_idleFan e _ rfl) h4
    exact (q2.trans q3).trans (q4.trans (sub h5))
  | home axes =>
    unfold handle goHome at h
    obtain ⟨_, s1, h, h'⟩ := bind_some.1 h
    cases h'
    obtain ⟨_, s2, h2, h⟩ := bind_some.1 h
    obtain ⟨b, s3, h3, h⟩ := bind_some.1 h
    have q2 := does_quiet e (p := {}) rfl (.halt trivial) h2
    have q3 := does_quiet e (p := { clear := true }) rfl (does_clearEstop e _ rfl) h3
    cases b with
    | false => cases h; exact q2.trans q3
    | true =>
      simp only [if_true] at h
      obtain ⟨_, s4, h4, h⟩ := bind_some.1 h
      obtain ⟨b, s5, h5, h⟩ := bind_some.1 h
      have q4 := does_quiet e (p := { drive := fun _ => true }) rfl (does_homeAll e _ _ (fun _ => rfl) _) h4
      cases b with
      | true =>
        cases h
        exact (q2.trans q3).trans (q4.trans (sub h5))
      | false =>
        rcases check_cases e h5 with ⟨hh, _⟩ | ⟨_, hq⟩
        · cases hh
        · cases h
          exact (q2.trans q3).trans (q4.trans hq)
  | dwell =>
    unfold handle at h
    obtain ⟨_, s1, h, h'⟩ := bind_some.1 h
    cases h'
    rcases dwell_cases e h with ⟨t, ht⟩ | hq
    · exact absurd ht (hno' t)
    · exact hq
  | coordinated feed pos =>
    unfold handle coordinatedMove at h
    obtain ⟨_, s1, h, h'⟩ := bind_some.1 h
    cases h'
    obtain ⟨b, s2, h2, h⟩ := bind_some.1 h
    have q2 := does_quiet e (p := {}) rfl (does_allowed e _ _) h2
    cases b with
    | false => cases h; exact q2
    | true =>
      simp only [Bool.not_true, Bool.false_eq_true, if_false] at h
      have fin : ∀ {t : State F β σ} {b},
          (do let s ← get
              if e.A.le s.feedrate e.A.zero then do say .noFeedrate; return false
              else submit e pos (e.A.mul s.progFactor s.feedrate)) t = some (b, s') → Quiet t s' := by
        intro t b hh
        obtain ⟨_, t1, h1, hh⟩ := bind_some.1 hh
        cases h1
        split at hh
        · exact does_quiet e (p := {}) rfl
            (.bind (.say (by intro _ h; cases h) trivial) fun _ => .pure _) hh
        · rcases submit_cases e hh with ⟨t, ht⟩ | hq
          · exact absurd ht (hno' t)
          · exact hq
      split at h
      · obtain ⟨_, t, h3, h⟩ := bind_some.1 h
        exact q2.trans ((does_quiet e (p := { move := true }) rfl
          (.modify (.feed _) (fun _ => rfl) rfl) h3).trans (fin h))
      · exact q2.trans (fin h)
  | rapid feed pos =>
    unfold handle rapidMove at h
    obtain ⟨_, s1, h, h'⟩ := bind_some.1 h
    cases h'
    obtain ⟨b, s2, h2, h⟩ := bind_some.1 h
    have q2 := does_quiet e (p := {}) rfl (does_allowed e _ _) h2
    cases b with
    | false => cases h; exact q2
    | true =>
      simp only [Bool.not_true, Bool.false_eq_true, if_false] at h
      have fin : ∀ {t : State F β σ} {b f}, submit e pos f t = some (b, s') → Quiet t s' := by
        intro t b f hh
        rcases submit_cases e hh with ⟨t, ht⟩ | hq
        · exact absurd ht (hno' t)
        · exact hq
      obtain ⟨_, t1, h1, h⟩ := bind_some.1 h
      cases h1
      split at h
      · obtain ⟨_, t, h3, h⟩ := bind_some.1 h
        exact q2.trans ((does_quiet e (p := { move := true }) rfl
          (.modify (.feed _) (fun _ => rfl) rfl) h3).trans (fin h))
      · exact q2.trans (fin h)
  | unprocessed l v args =>
    unfold handle special at h
    obtain ⟨_, s1, h, h'⟩ := bind_some.1 h
    cases h'
    by_cases hl : l ≠ 'M'
    · rw [if_pos hl] at h; cases h; exact .refl _
    rw [if_neg hl] at h
    by_cases h0 : e.A.toInt v = 0
    · simp only [h0] at h
      rw [if_pos trivial] at h
      obtain ⟨_, s2, h2, h⟩ := bind_some.1 h
      cases h
      exact absurd ⟨false, s, h2⟩ hno
    by_cases h400 : e.A.toInt v = 400
    · simp only [h400] at h
      rw [if_neg (by decide), if_neg (by decide), if_neg (by decide), if_pos trivial] at h
      obtain ⟨_, s2, h2, h⟩ := bind_some.1 h
      cases h
      rcases dwell_cases e h2 with ⟨t, ht⟩ | hq
      · exact absurd ht (hno' t)
      · exact hq
    · simp only [h0, h400, if_false] at h
      refine does_quiet e (p := { clear := true, pause := true }) rfl ?_ h
      refine .ite (.bind (does_clearEstop e _ rfl) fun _ => .pure _) ?_
      walk
      all_goals first
        | with_reducible exact does_auxBitCommands e _ _ _
        | with_reducible exact does_setLookahead e _ _ | exact .modify (.pause _) (fun _ => rfl) rfl

/-- The queue leaves the auxiliary pins alone. -/
def NoAux (c : Cape) (Q : Queue F β) : Prop :=
  (∀ x cmd i, (Q.enqueue x cmd).1.1.level (c.aux i) = x.1.level (c.aux i)) ∧
  (∀ x i, (Q.waitQueueEmpty x).1.level (c.aux i) = x.1.level (c.aux i)) ∧
  (∀ x m p i, (Q.setExternalPosition x m p).1.level (c.aux i) = x.1.level (c.aux i)) ∧
  ∀ x on i, (Q.motorEnable x on).1.level (c.aux i) = x.1.level (c.aux i)

theorem auxOutputsOff_low (c : Cape) (h : Hw F) (hi : h.initialized = true) (i : Fin 16) (h0 : c.aux i ≠ 0) :
    (auxOutputsOff c h).level (c.aux i) = false := by
  unfold auxOutputsOff setAuxOutputs
  simp only [hi, Bool.not_true, Bool.false_eq_true, if_false]
  have : ∀ (l : List (Fin 16)) (k : Hw F),
      (l.foldl (fun h' j => h'.write (c.aux j) ((0 : BitVec 16).getLsbD j.val)) k).level (c.aux i) =
        if ∃ j ∈ l, c.aux j = c.aux i then false else k.level (c.aux i) := by
    intro l
    induction l with
    | nil => intro k; simp
    | cons j l ih =>
      intro k
      rw [List.foldl_cons, ih]
      by_cases hl : ∃ j ∈ l, c.aux j = c.aux i
      · rw [if_pos hl, if_pos]
        obtain ⟨j', hj, hj'⟩ := hl
        exact ⟨j', List.mem_cons_of_mem _ hj, hj'⟩
      · rw [if_neg hl, write_level]
        by_cases hj : c.aux j = c.aux i
        · rw [if_pos ⟨by rw [hj]; exact h0, hj.symm⟩, if_pos ⟨j, List.mem_cons_self, hj⟩]
          simp
        · rw [if_neg (fun h => hj h.2.symm), if_neg]
          rintro ⟨j', hj', hh⟩
          rcases List.mem_cons.1 hj' with rfl | hm
          · exact hj hh
          · exact hl ⟨j', hm, hh⟩
  exact (this _ _).trans (if_pos ⟨i, List.mem_finRange i, rfl⟩)

theorem auxOutputsOff_holds (c : Cape) (hc : Sane c) (h : Hw F) :
    Keep c { h with auxBits := 0 } (auxOutputsOff c h) :=
  (setAuxOutputs_touches { h with auxBits := 0 }).keep hc

/-- What `set_estop` does. -/
theorem setEstop_spec (hc : Sane e.cape) (hq : Lawful e.cape e.queue) {hard : Bool} {s s' : State F β σ}
    (hi : s.hw.initialized = true) (h : setEstop e hard s = some ((), s')) :
    Stopped e.cape s'.hw ∧ s'.hw.auxBits = s'.hw.auxOf .estop ∧
    (NoAux e.cape e.queue → ∀ i, e.cape.aux i ≠ 0 → s'.hw.level (e.cape.aux i) = false) := by
  unfold setEstop at h
  obtain ⟨_, t1, k1, h⟩ := bind_some.1 h
  obtain ⟨_, t2, k2, h⟩ := bind_some.1 h
  obtain ⟨_, t3, k3, h⟩ := bind_some.1 h
  obtain ⟨_, t4, k4, h⟩ := bind_some.1 h
  obtain ⟨_, t5, k5, h⟩ := bind_some.1 h
  cases h
  cases k5
  have w1 : Holds e.cape s.hw t1.hw := by
    obtain ⟨ls, ht, hl⟩ := does_spindleOff e {} _ _ _ k1
    exact trace_holds e hc hq ht fun l hm hh => by
      subst hh; exact absurd (hl _ hm) (by simp [Label.within])
  have i1 : t1.hw.initialized = true := w1.initialized.trans hi
  have k2 := (Prod.mk.injEq ..).mp (Option.some.inj k2) |>.2
  have k3 := (Prod.mk.injEq ..).mp (Option.some.inj k3) |>.2
  have e2 : t2.hw = auxOutputsOff e.cape t1.hw := by rw [← k2]
  have e3 : t3.hw = updateAuxBitmap t2.hw .estop true := by rw [← k3]
  have s2 := (auxOutputsOff_holds e.cape hc t1.hw).same
  rw [← e2] at s2
  have i3 : t3.hw.initialized = true := by rw [e3, s2]; exact i1
  have a3 : t3.hw.auxBits = t3.hw.auxOf .estop := by rw [e3, s2]; simp [updateAuxBitmap]
  have p3 : t3.hw.estop = true := by rw [e3]; simp [updateAuxBitmap]
  have l3 : ∀ i, e.cape.aux i ≠ 0 → t3.hw.level (e.cape.aux i) = false := by
    intro i h0
    rw [e3]
    show t2.hw.level _ = _
    rw [e2]
    exact auxOutputsOff_low e.cape t1.hw i1 i h0
  unfold motorsEnable at k4
  obtain ⟨_, u1, j1, k4⟩ := bind_some.1 k4
  obtain ⟨_, u2, j2, k4⟩ := bind_some.1 k4
  have j2 := (Prod.mk.injEq ..).mp (Option.some.inj j2) |>.2
  have k4 := (Prod.mk.injEq ..).mp (Option.some.inj k4) |>.2
  have e4 : t4.hw = u2.hw := by
    rw [← k4]
    dsimp only
    split <;> rfl
  have m1 := (halt_rel (hq.respects hc) j1).2
  obtain ⟨hh, ht, he⟩ := hq.enable u1.planner.backend false
  have m2 : Keep e.cape t3.hw hh := m1.trans (ht.keep hc)
  have e5 : t4.hw = enableMotors e.cape hh false := by
    rw [e4, ← j2]
    exact he
  have sm := (m2.trans (QAct.keep hc hh (.enable false))).same
  change enableMotors e.cape hh false = _ at sm
  rw [← e5] at sm
  have ih : hh.initialized = true := by rw [m2.same]; exact i3
  refine ⟨⟨?_, ?_, ?_⟩, ?_, ?_⟩
  · show t4.hw.initialized = true
    rw [sm]; exact i3
  · show t4.hw.estop = true
    rw [sm]; exact p3
  · show MotorsOff e.cape t4.hw
    rw [e5]
    exact enableMotors_off hc ih (by simp)
  · show t4.hw.auxBits = t4.hw.auxOf .estop
    rw [sm]; exact a3
  · intro hn i h0
    have hR : Respects e.backend (fun x y => ∀ i, y.1.level (e.cape.aux i) = x.1.level (e.cape.aux i)) :=
      ⟨fun _ _ => rfl, fun h h' i => (h' i).trans (h i), hn.1, hn.2.1, hn.2.2.1⟩
    have q1 := (halt_rel hR j1).2 i
    show t4.hw.level _ = false
    rw [e4, ← j2]
    show (e.queue.motorEnable u1.planner.backend false).1.level _ = false
    rw [hn.2.2.2, q1]
    exact l3 i h0

theorem handle_initialized (hc : Sane e.cape) (hq : Lawful e.cape e.queue) {ev : Event F}
    {s s' : State F β σ} {a : Answer F} (h : handle e ev s = some (a, s')) :
    s'.hw.initialized = s.hw.initialized := by
  obtain ⟨ls, ht, hl⟩ := does_handle e ev _ _ _ h
  clear h hl
  induction ht with
  | nil => rfl
  | @cons s l s' ls s'' h1 _ ih =>
    rw [ih]
    by_cases hl : l = .clear
    · subst hl; rw [h1]; rfl
    · exact (step_holds e hc hq h1 hl).initialized

/-- The other direction: `set_estop` is where a machine that is in order gets stopped. -/
theorem setEstop_initialized (hc : Sane e.cape) (hq : Lawful e.cape e.queue) {hard : Bool}
    {s s' : State F β σ} (h : setEstop e hard s = some ((), s')) :
    s'.hw.initialized = s.hw.initialized := by
  obtain ⟨ls, ht, hl⟩ := does_setEstop e { stop := true, enable := true } hard rfl rfl _ _ _ h
  exact (trace_holds e hc hq ht fun l hm hh => by
    subst hh; exact absurd (hl _ hm) (by simp [Label.within])).initialized

/-- C35. When an event has handled an emergency stop (announced it), the machine is in emergency stop, the
motors are off, and of the auxiliary bits only those of the ESTOP output are set. -/
theorem C35_stop_partial (hc : Sane e.cape) (hq : Lawful e.cape e.queue) {ev : Event F}
    {s s' : State F β σ} {a : Answer F} (hi : s.hw.initialized = true)
    (h : handle e ev s = some (a, s')) (ha : Alarm s s') :
    Stopped e.cape s'.hw ∧ s'.hw.auxBits = s'.hw.auxOf .estop := by
  obtain ⟨hard, t, ht⟩ := alarm_cases e h ha
  have := setEstop_initialized e hc hq ht
  have := handle_initialized e hc hq h
  have := setEstop_spec e hc hq (s := t) (by rw [← setEstop_initialized e hc hq ht, this]; exact hi) ht
  exact ⟨this.1, this.2.1⟩

/-- C35. If, in addition, the motor backend does not write auxiliary outputs of segments still in the
queue, all auxiliary pins are low after the event; also those of the ESTOP output, although its bit is set,
because the code does not write the pins again. Without this condition see `C35_aux_returns`. -/
theorem C35_outputs_off_partial (hc : Sane e.cape) (hq : Lawful e.cape e.queue) (hn : NoAux e.cape e.queue)
    {ev : Event F} {s s' : State F β σ} {a : Answer F} (hi : s.hw.initialized = true)
    (h : handle e ev s = some (a, s')) (ha : Alarm s s') (i : Fin 16) (h0 : e.cape.aux i ≠ 0) :
    s'.hw.level (e.cape.aux i) = false := by
  obtain ⟨hard, t, ht⟩ := alarm_cases e h ha
  have := handle_initialized e hc hq h
  have := setEstop_spec e hc hq (s := t) (by rw [← setEstop_initialized e hc hq ht, this]; exact hi) ht
  exact this.2.2 hn i h0

/-- C35. From an emergency stop on: after every history of events the motors are off, unless one of the
events cleared the emergency stop. -/
theorem C35_motors_off_partial (hc : Sane e.cape) (hq : Lawful e.cape e.queue) {ev : Event F}
    {s s1 s' : State F β σ} {a : Answer F} {evs : List (Event F)} (hi : s.hw.initialized = true)
    (h : handle e ev s = some (a, s1)) (ha : Alarm s s1) (hrun : run e s1 evs = some s') :
    Stopped e.cape s'.hw ∨
    ∃ before ev after t1 t2 a, evs = before ++ ev :: after ∧ run e s1 before = some t1 ∧
      Stopped e.cape t1.hw ∧ handle e ev t1 = some (a, t2) ∧ Clears e ev t1 t2 :=
  C35_stays_stopped e hc hq evs s1 s' (C35_stop_partial e hc hq hi h ha).1 hrun

/-- C35. Freshly initialised hardware is in emergency stop with the motors off. -/
theorem C35_initial (c : Cape) (hc : Sane c) (h : Hw F) : Stopped c (initializeHardware c h) := by
  unfold initializeHardware resetHardware
  simp only [Bool.not_true, Bool.false_eq_true, if_false]
  have h1 : ∀ (l : List (Fin 4)) (h : Hw F), Stopped c h →
      Stopped c (l.foldl (fun h i => pwmStart h (c.pwm i) false) h) := by
    intro l
    induction l with
    | nil => intro h hs; exact hs
    | cons i l ih =>
      intro h hs
      apply ih
      unfold pwmStart
      dsimp only
      split
      · exact hs
      · exact ⟨hs.initialized, hs.estop, hs.off⟩
  apply h1
  have k := (setAuxOutputs_touches (c := c)
    { h with estop := true, initialized := true, auxBits := 0 }).keep hc
  have hi : (setAuxOutputs c { h with estop := true, initialized := true, auxBits := 0 }).initialized = true := by
    rw [k.same]
  have he : (setAuxOutputs c { h with estop := true, initialized := true, auxBits := 0 }).estop = true := by
    rw [k.same]
  refine ⟨?_, ?_, enableMotors_off hc hi (by simp)⟩
  · rw [enableMotors_same]; exact hi
  · rw [enableMotors_same]; exact he

end BeagleG.Machine
