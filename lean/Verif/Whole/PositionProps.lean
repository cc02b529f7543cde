import Verif.Whole.Model
import Verif.Parser.ParamProps
/-!
# C80: the parser knows where the machine is

Specification: `Tracks`, `Undisturbed` in `Model.lean`.
-/
namespace BeagleG.Whole

open _root_.BeagleG.Planner (Inv Motor)
open _root_.BeagleG.Machine (Counts)
open _root_.BeagleG.Parser (Micro Steps Quiet MoveTo Axes Receiver Num moves)
open _root_.BeagleG.Text (Byte)

variable {F β σ : Type} {e : Machine.Env F β σ} {rc : Receiver F} {fl : Num F} {T : List Byte → Prop}
  {acc : Motor → β → Int} {P : List (Parser.Event F) → Machine.State F β σ → Prop}
  {log0 : List (Parser.Event F)} {s0 : Machine.State F β σ}

/-- Calls after which the planner may be somewhere else. -/
def moving : Parser.Event F → Bool
  | .coordinatedMove _ _ => true
  | .rapidMove _ _ => true
  | .goHome _ => true
  | .probeAxis _ => true
  | _ => false

section
variable (hq : Counts e.queue acc) (h0 : e.A.eq e.A.zero e.A.zero = true)
include hq h0

theorem handle_still {ev : Machine.Event F} (hm : (ev.powers e.A).move = false) (hd : ∀ a, (ev.powers e.A).drive a = false)
    {s s' : Machine.State F β σ} {r : Machine.Answer F} (h : Machine.handle e ev s = some (r, s'))
    (hs : Inv e.A s.planner) : Inv e.A s'.planner ∧ ∀ a, s'.planner.position a = s.planner.position a :=
  Machine.Does.still hq h0 (Machine.does_handle e ev) hd hm h hs

/-- Every call keeps the planner consistent, and most do not change where it is. -/
theorem handles_inv {log : List (Parser.Event F)} {ev : Parser.Event F} {s s' : Machine.State F β σ}
    (h : Handles e rc log ev s s') (hs : Inv e.A s.planner) :
    Inv e.A s'.planner ∧ (moving ev = false → ∀ a, s'.planner.position a = s.planner.position a) := by
  have any : ∀ {ev : Machine.Event F} {r : Machine.Answer F}, Machine.handle e ev s = some (r, s') → Inv e.A s'.planner := by
    intro ev r h
    obtain ⟨ls, ht, _⟩ := Machine.does_handle e ev _ _ _ h
    exact Machine.trace_inv h0 ht hs
  cases ev <;> simp only [Handles] at h
  case goHome => exact ⟨any h.choose_spec, fun h => by cases h⟩
  case probeAxis => exact ⟨any h, fun h => by cases h⟩
  case coordinatedMove => exact ⟨any h, fun h => by cases h⟩
  case rapidMove => exact ⟨any h, fun h => by cases h⟩
  case start => obtain ⟨_, h⟩ := h; exact (handle_still hq h0 rfl (fun _ => rfl) h hs).imp_right fun h _ => h
  case finished => obtain ⟨_, h⟩ := h; exact (handle_still hq h0 rfl (fun _ => rfl) h hs).imp_right fun h _ => h
  case speedFactor => obtain ⟨_, h⟩ := h; exact (handle_still hq h0 rfl (fun _ => rfl) h hs).imp_right fun h _ => h
  case fanSpeed => obtain ⟨_, h⟩ := h; exact (handle_still hq h0 rfl (fun _ => rfl) h hs).imp_right fun h _ => h
  case dwell => obtain ⟨_, h⟩ := h; exact (handle_still hq h0 rfl (fun _ => rfl) h hs).imp_right fun h _ => h
  case motorsEnable => obtain ⟨_, h⟩ := h; exact (handle_still hq h0 rfl (fun _ => rfl) h hs).imp_right fun h _ => h
  case waitForStart => obtain ⟨_, h⟩ := h; exact (handle_still hq h0 rfl (fun _ => rfl) h hs).imp_right fun h _ => h
  case unprocessed => obtain ⟨_, _, h⟩ := h; exact (handle_still hq h0 rfl (fun _ => rfl) h hs).imp_right fun h _ => h
  case clampToRange => obtain ⟨rfl, _⟩ := h; exact ⟨hs, fun _ _ => rfl⟩
  all_goals (subst h; exact ⟨hs, fun _ _ => rfl⟩)

theorem joint_inv {log : List (Parser.Event F)} {s : Machine.State F β σ} (h : Joint e rc P log0 s0 log s)
    (hs : Inv e.A s0.planner) : Inv e.A s.planner := by
  induction h with
  | here => exact hs
  | idle _ h ih => exact (handle_still hq h0 rfl (fun _ => rfl) h ih).1
  | call _ h _ ih => exact (handles_inv hq h0 h ih).1

omit hq h0 in
theorem joint_suffix {log : List (Parser.Event F)} {s : Machine.State F β σ} (h : Joint e rc P log0 s0 log s) :
    log0 <:+ log := by
  induction h with
  | here => exact List.suffix_refl _
  | idle _ _ ih => exact ih
  | call _ _ _ ih => exact ih.trans (List.suffix_cons _ _)

/-- The last call, and nothing but idling after it. -/
theorem joint_last {log : List (Parser.Event F)} {ev : Parser.Event F} {s : Machine.State F β σ}
    (h : Joint e rc P log0 s0 (ev :: log) s) (hl : log0 <:+ log) (hs : Inv e.A s0.planner) :
    ∃ s1 s2, Joint e rc P log0 s0 log s1 ∧ Inv e.A s1.planner ∧ Handles e rc log ev s1 s2 ∧ P (ev :: log) s2 ∧
      ∀ a, s.planner.position a = s2.planner.position a := by
  generalize hx : ev :: log = l at h
  induction h with
  | here =>
    subst hx
    have := hl.length_le
    simp at this
  | idle hj h ih =>
    obtain ⟨s1, s2, k1, k2, k3, k4, k5⟩ := ih hx
    exact ⟨s1, s2, k1, k2, k3, k4, fun a =>
      ((handle_still hq h0 rfl (fun _ => rfl) h (joint_inv hq h0 hj hs)).2 a).trans (k5 a)⟩
  | call hj h hp =>
    cases hx
    exact ⟨_, _, hj, joint_inv hq h0 hj hs, h, hp, fun _ => rfl⟩

/-- Wherever a run of the parser has come, the planner is at `pos`. -/
def At (e : Machine.Env F β σ) (rc : Receiver F) (P : List (Parser.Event F) → Machine.State F β σ → Prop)
    (log0 : List (Parser.Event F)) (s0 : Machine.State F β σ) (log : List (Parser.Event F)) (pos : Axes F) : Prop :=
  log0 <:+ log ∧ ∀ s, Joint e rc P log0 s0 log s →
    ∀ a, s.planner.position (num a) = e.A.lround (e.A.mul (pos a) (e.plan.stepsPerMm (num a)))

theorem At.still (hs : Inv e.A s0.planner) {log : List (Parser.Event F)} {pos : Axes F} (h : At e rc P log0 s0 log pos) :
    ∀ es : List (Parser.Event F), (∀ ev ∈ es, moving ev = false) → At e rc P log0 s0 (es ++ log) pos
  | [], _ => h
  | ev :: es, hes => by
    obtain ⟨h1, h2⟩ := At.still hs h es fun ev hm => hes ev (List.mem_cons_of_mem _ hm)
    refine ⟨h1.trans (List.suffix_cons _ _), fun s hj a => ?_⟩
    obtain ⟨s1, s2, k1, k2, k3, _, k5⟩ := joint_last hq h0 hj h1 hs
    rw [k5, (handles_inv hq h0 k3 k2).2 (hes ev List.mem_cons_self)]
    exact h2 s1 k1 a

/-- **After a move that was made, parser and planner agree**, whatever was before. -/
theorem At.moved (hs : Inv e.A s0.planner) {log : List (Parser.Event F)} (hl : log0 <:+ log) {ev : Parser.Event F}
    {p : Axes F} (hm : MoveTo ev p) (ha : rc.accepts (ev :: log) = true) : At e rc P log0 s0 (ev :: log) p := by
  refine ⟨hl.trans (List.suffix_cons _ _), fun s hj a => ?_⟩
  obtain ⟨s1, s2, k1, k2, k3, _, k5⟩ := joint_last hq h0 hj hl hs
  rw [k5]
  obtain ⟨f, rfl | rfl⟩ := hm
  · simp only [Handles, ha] at k3
    rw [Machine.C77_target hq h0 (.inl rfl) k3 k2, regs, axisAt_num]
  · simp only [Handles, ha] at k3
    rw [Machine.C77_target hq h0 (.inr rfl) k3 k2, regs, axisAt_num]

/-- The same for the last piece of an arc or a spline. -/
theorem At.moves (hs : Inv e.A s0.planner) {feed : F} {target : Axes F} : ∀ (ps : List (Axes F)) (st : Parser.State F),
    log0 <:+ st.log → (moves rc feed st (ps ++ [target])).2 = true →
    At e rc P log0 s0 (moves rc feed st (ps ++ [target])).1.log target
  | [], st, hl, h => by
    simp only [List.nil_append, Parser.moves] at h ⊢
    split at h
    · rename_i ha
      rw [if_pos ha]
      exact At.moved hq h0 hs hl ⟨feed, .inl rfl⟩ ha
    · cases h
  | p :: ps, st, hl, h => by
    simp only [List.cons_append, Parser.moves] at h ⊢
    split at h
    · rename_i ha
      rw [if_pos ha]
      exact At.moves hs ps _ (hl.trans (List.suffix_cons _ _)) h
    · cases h

theorem At.never {ev : Parser.Event F} {log : List (Parser.Event F)} (hl : log0 <:+ log) (pos : Axes F)
    (hs : Inv e.A s0.planner) (hp : ∀ s, ¬ P (ev :: log) s) : At e rc P log0 s0 (ev :: log) pos := by
  refine ⟨hl.trans (List.suffix_cons _ _), fun s hj => ?_⟩
  obtain ⟨s1, s2, _, _, _, k4, _⟩ := joint_last hq h0 hj hl hs
  exact absurd k4 (hp s2)

theorem At.curveRefused (hs : Inv e.A s0.planner) {origin : Axes F} {feed : F} (pos : Axes F) :
    ∀ (ps : List (Axes F)) (st : Parser.State F), log0 <:+ st.log → (Parser.moves rc feed st ps).2 = false →
    At e rc (Undisturbed e rc origin) log0 s0 (Parser.moves rc feed st ps).1.log pos
  | [], st, hl, h => by cases h
  | p :: ps, st, hl, h => by
    simp only [Parser.moves] at h ⊢
    split at h
    · rename_i ha
      rw [if_pos ha]
      exact At.curveRefused hs pos ps _ (hl.trans (List.suffix_cons _ _)) h
    · rename_i ha
      rw [if_neg ha]
      refine At.never hq h0 hl pos hs ?_
      intro s hx
      exact ha hx

end

/-- What every step of the parser keeps. -/
structure Agree (e : Machine.Env F β σ) (rc : Receiver F) (log0 : List (Parser.Event F)) (s0 : Machine.State F β σ)
    (origin : Axes F) (st : Parser.State F) : Prop where
  home : st.machineOrigin = origin
  at_ : At e rc (Undisturbed e rc origin) log0 s0 st.log st.pos

section
variable (hq : Counts e.queue acc) (h0 : e.A.eq e.A.zero e.A.zero = true) (hs : Inv e.A s0.planner)
include hq h0 hs

theorem Agree.still {origin : Axes F} {a b : Parser.State F} (h : Agree e rc log0 s0 origin a)
    (ho : b.machineOrigin = a.machineOrigin) (hp : b.pos = a.pos) (es : List (Parser.Event F))
    (hes : ∀ ev ∈ es, moving ev = false) (hl : b.log = es ++ a.log) : Agree e rc log0 s0 origin b :=
  ⟨ho.trans h.home, by rw [hl, hp]; exact h.at_.still hq h0 hs es hes⟩

omit hq h0 hs in
theorem outside_still {ev : Parser.Event F} (h : Parser.Outside fl ev) : moving ev = false := by cases h <;> rfl

theorem Agree.adds {origin : Axes F} {a b : Parser.State F} (h : Agree e rc log0 s0 origin a)
    (ho : b.machineOrigin = a.machineOrigin) (hp : b.pos = a.pos) (hb : Parser.Adds (Parser.Outside fl) a b) :
    Agree e rc log0 s0 origin b := by
  obtain ⟨_, es, h2, h3⟩ := hb
  exact h.still hq h0 hs ho hp es (fun ev hm => outside_still (h3 ev hm).2) h2

theorem Agree.micro {origin : Axes F} {a b : Parser.State F} (h : Agree e rc log0 s0 origin a)
    (m : Micro fl rc T a b) : Agree e rc log0 s0 origin b := by
  have hl := h.at_.1
  cases m with
  | quiet q => exact h.adds hq h0 hs (by rw [q.eq]) (by rw [q.eq]) (Parser.quiet_adds q)
  | start l _ =>
    refine h.adds (fl := fl) hq h0 hs ?_ ?_ (Parser.whileStart_adds a l)
    · unfold Parser.whileStart; split <;> rfl
    · unfold Parser.whileStart; split <;> rfl
  | collect l _ _ => exact h.still hq h0 hs rfl rfl [] (by simp) rfl
  | say ev he =>
    refine h.still hq h0 hs rfl rfl [ev] ?_ rfl
    intro x hx
    rw [List.mem_singleton] at hx
    subst hx
    cases x <;> first | rfl | cases he
  | modal hc => exact h.still hq h0 hs hc.rest.machineOrigin hc.rest.pos [] (by simp) hc.rest.log
  | shift name hc _ => exact h.still hq h0 hs hc.machineOrigin hc.pos [.originOffset _ name] (by simp [moving]) (by rw [← hc.log]; rfl)
  | load => exact h.still hq h0 hs rfl rfl [.loadParams] (by simp [moving]) rfl
  | moved ev p hm ha => exact ⟨h.home, At.moved hq h0 hs hl hm ha⟩
  | refused ev p hm ha =>
    refine ⟨h.home, At.never hq h0 hl _ hs fun s hx => ?_⟩
    obtain ⟨f, rfl | rfl⟩ := hm <;> exact absurd (ha.symm.trans hx) (by simp)
  | curve feed ps target ha => exact ⟨(by rw [Parser.moves_eq]; exact h.home), At.moves hq h0 hs ps a hl ha⟩
  | curveRefused feed ps ha =>
    exact ⟨(by rw [Parser.moves_eq]; exact h.home), At.curveRefused hq h0 hs _ ps a hl ha⟩
  | ignored _ _ _ target _ =>
    refine ⟨h.home, hl.trans (List.suffix_cons _ _), fun s hj x => ?_⟩
    obtain ⟨s1, s2, _, _, _, k4, k5⟩ := joint_last hq h0 hj hl hs
    rw [k5]
    exact k4 x
  | bareRefused _ _ ev p hm ha =>
    refine ⟨h.home, At.never hq h0 hl _ hs fun s hx => ?_⟩
    obtain ⟨f, rfl | rfl⟩ := hm <;> exact absurd (ha.symm.trans hx) (by simp)
  | home flags =>
    refine ⟨h.home, hl.trans (List.suffix_cons _ _), fun s hj x => ?_⟩
    obtain ⟨s1, s2, k1, k2, k3, k4, k5⟩ := joint_last hq h0 hj hl hs
    rw [k5]
    show _ = e.A.lround (e.A.mul (if flags x = true then a.machineOrigin x else a.pos x) _)
    by_cases hf : flags x = true
    · rw [if_pos hf, h.home]
      exact k4 x hf
    · rw [if_neg hf, ← h.at_.2 s1 k1 x]
      simp only [Handles] at k3
      obtain ⟨_, k3⟩ := k3
      unfold Machine.handle at k3
      obtain ⟨_, s3, k6, k7⟩ := Machine.bind_some.1 k3
      cases k7
      rcases (Machine.goHome_place hq h0 k6 k2).2 with k | k
      · rw [k, if_neg]
        rintro ⟨k, _⟩
        rw [regs, axisAt_num] at k
        exact hf k
      · exact k.1 _
  | probed feed z hz =>
    refine ⟨h.home, hl.trans (List.suffix_cons _ _), fun s hj x => ?_⟩
    obtain ⟨s1, s2, k1, k2, k3, k4, k5⟩ := joint_last hq h0 hj hl hs
    rw [k5]
    simp only [Handles] at k3
    unfold Machine.handle at k3
    obtain ⟨r, s3, k6, k7⟩ := Machine.bind_some.1 k3
    have e1 : r = some z := by cases k7; exact hz
    have e2 : s3 = s2 := by cases k7; rfl
    subst e1; subst e2
    have k := (Machine.probe_place hq h0 k6 k2).2 (num x)
    dsimp only at k
    rw [k]
    show _ = e.A.lround (e.A.mul (Parser.setAxis a.pos .Z z x) _)
    have hz : x = .Z ↔ num x = 2 := by cases x <;> decide
    unfold Parser.setAxis
    by_cases hx : x = .Z
    · rw [if_pos (hz.1 hx), if_pos hx]
      subst hx
      rfl
    · rw [if_neg (fun h => hx (hz.2 h)), if_neg hx]
      exact h.at_.2 s1 k1 x
  | notProbed feed hz =>
    refine ⟨h.home, hl.trans (List.suffix_cons _ _), fun s hj x => ?_⟩
    obtain ⟨s1, s2, k1, k2, k3, k4, k5⟩ := joint_last hq h0 hj hl hs
    rw [k5]
    simp only [Handles] at k3
    unfold Machine.handle at k3
    obtain ⟨r, s3, k6, k7⟩ := Machine.bind_some.1 k3
    have e1 : r = none := by cases k7; exact hz
    have e2 : s3 = s2 := by cases k7; rfl
    subst e1; subst e2
    have k := (Machine.probe_place hq h0 k6 k2).2 (num x)
    exact k.trans (h.at_.2 s1 k1 x)

/-- **C80 (partly). The parser knows where the machine is**: let the parser read any text, and let the machine handle
its calls. If every move asked for is made, homing leads to the home positions, and arcs that are too short to be made
are where the machine is already, then in the end the planner is at the position of the parser, rounded to steps. -/
theorem C80_agree_partial (hfl : fl.toFloat_.Ok) (n : Nat) (lines : List (List Byte)) (st st' : Parser.State F)
    (hlines : ∀ l ∈ lines, Expr.Clean l) (hx : Parser.Texts Expr.Clean st)
    (hrun : Parser.runLines fl rc n st lines = .ok st') {s : Machine.State F β σ}
    (hj : Joint e rc (Undisturbed e rc st.machineOrigin) st.log s0 st'.log s)
    (ht : Tracks e st s0) : Tracks e st' s := by
  have start : Agree e rc st.log s0 st.machineOrigin st := by
    refine ⟨rfl, List.suffix_refl _, fun s' hj' a => ?_⟩
    rw [← ht a]
    clear hj hrun
    generalize hl : st.log = l at hj'
    have key : ∀ l' (s' : Machine.State F β σ), Joint e rc (Undisturbed e rc st.machineOrigin) l s0 l' s' → l' = l →
        s'.planner.position (num a) = s0.planner.position (num a) := by
      intro l' s' h
      induction h with
      | here => intro _; rfl
      | idle hj h ih =>
        intro hl
        rw [(handle_still hq h0 rfl (fun _ => rfl) h (joint_inv hq h0 hj hs)).2, ih hl]
      | call hj _ _ _ =>
        intro hl
        have := (joint_suffix hj).length_le
        rw [← hl] at this
        simp at this
    exact key l s' (hl ▸ hj') rfl
  have := ((Parser.runLines_steps (rc := rc) hfl Parser.clean_safer n lines st hlines hx).ok hrun).induct
    (I := Agree e rc st.log s0 st.machineOrigin) (fun _ _ h m => h.micro hq h0 hs m) ?_ ?_ start
  · exact this.at_.2 s hj
  · intro a h
    unfold Parser.startProgram
    split
    · exact h
    · exact h.still hq h0 hs rfl rfl [.start] (by simp [moving]) rfl
  · intro a h
    have h1 := h.still hq h0 hs (b := a.say (.finished false)) rfl rfl [.finished false] (by simp [moving]) rfl
    have h2 := h1.adds hq h0 hs (b := Parser.initProgramDefaults fl (a.say (.finished false))) (fl := fl) rfl rfl
      (Parser.initProgramDefaults_adds _)
    exact ⟨h2.home, h2.at_⟩

/-- **After a move that was made they agree**, whatever has gone wrong before. -/
theorem C80_move_recovers {st : Parser.State F} {ev : Parser.Event F} {p : Axes F} (hm : MoveTo ev p)
    (ha : rc.accepts (ev :: st.log) = true) (hl : log0 <:+ st.log) {s : Machine.State F β σ}
    (hj : Joint e rc P log0 s0 (ev :: st.log) s) : Tracks e { st.say ev with pos := p } s :=
  (At.moved hq h0 hs hl hm ha).2 s hj

/-- Homing leads to the home positions, unless there is an emergency stop, for axes that have a switch and are in the
homing order. -/
theorem C80_home_undisturbed {log : List (Parser.Event F)} {axes : Parser.Axis → Bool} {s' : Machine.State F β σ}
    (h : Handles e rc log (.goHome axes) s0 s') (hn : s'.hw.estop = false)
    (hax : ∀ a, axes a = true → some (num a) ∈ e.cfg.homeOrder ∧ e.cfg.homingTrigger (num a) ≠ .none) :
    Undisturbed e rc (fun a => Machine.homePos e (num a)) (.goHome axes :: log) s' := by
  intro a haxis
  simp only [Handles] at h
  obtain ⟨_, k3⟩ := h
  unfold Machine.handle at k3
  obtain ⟨_, s3, k6, k7⟩ := Machine.bind_some.1 k3
  cases k7
  rcases (Machine.goHome_place hq h0 k6 hs).2 with k | k
  · rw [k, if_pos ⟨by rw [regs, axisAt_num]; exact haxis, hax a haxis⟩]
  · rw [k.2] at hn; cases hn

omit hq h0 hs in
/-- At the start of the program parser and planner are both at the home position (machine-control.cc 632,
gcode-machine-control.cc 1112-1121, planner.cc 415-420). -/
theorem C80_initial (params : Option (List Byte → Option F)) {b : Hardware.Hw F × β} {s : Machine.State F β σ}
    (h : Planner.init e.A e.plan e.backend b (Machine.homePos e) = some s.planner) :
    Inv e.A s.planner ∧ Tracks e (Parser.initial fl params fun a => Machine.homePos e (num a)) s := by
  obtain ⟨p, e1, e2, _⟩ := Planner.C52_init e.A e.plan e.backend b (Machine.homePos e)
  rw [h] at e1
  cases e1
  refine ⟨e2, fun a => ?_⟩
  rw [Machine.init_position h]
  have : ∀ st : Parser.State F, (Parser.initCoordSystems fl st).pos = st.pos := by
    intro st
    unfold Parser.initCoordSystems
    simp only
    split
    · rw [Parser.storeParameter_eq]; rfl
    · rfl
  unfold Parser.initial
  rw [this]
  rfl

omit hs in
theorem joint_known (hd : e.plan.Disjoint) {log : List (Parser.Event F)} {s : Machine.State F β σ}
    (h : Joint e rc P log0 s0 log s) (hs : Machine.Known e acc s0) : Machine.Known e acc s := by
  induction h with
  | here => exact hs
  | idle _ h ih => exact Machine.handle_known hq hd h0 h ih
  | @call log s s' ev _ h _ ih =>
    cases ev <;> simp only [Handles] at h
    case start => obtain ⟨_, h⟩ := h; exact Machine.handle_known hq hd h0 h ih
    case finished => obtain ⟨_, h⟩ := h; exact Machine.handle_known hq hd h0 h ih
    case goHome => obtain ⟨_, h⟩ := h; exact Machine.handle_known hq hd h0 h ih
    case probeAxis => exact Machine.handle_known hq hd h0 h ih
    case speedFactor => obtain ⟨_, h⟩ := h; exact Machine.handle_known hq hd h0 h ih
    case fanSpeed => obtain ⟨_, h⟩ := h; exact Machine.handle_known hq hd h0 h ih
    case dwell => obtain ⟨_, h⟩ := h; exact Machine.handle_known hq hd h0 h ih
    case motorsEnable => obtain ⟨_, h⟩ := h; exact Machine.handle_known hq hd h0 h ih
    case waitForStart => obtain ⟨_, h⟩ := h; exact Machine.handle_known hq hd h0 h ih
    case coordinatedMove => exact Machine.handle_known hq hd h0 h ih
    case rapidMove => exact Machine.handle_known hq hd h0 h ih
    case unprocessed => obtain ⟨_, _, h⟩ := h; exact Machine.handle_known hq hd h0 h ih
    case clampToRange => obtain ⟨rfl, _⟩ := h; exact ih
    all_goals (subst h; exact ih)

/-- Calls that come between a wait and the next line. -/
def silent : Parser.Event F → Bool
  | .error => true
  | .commandDone _ _ => true
  | .blockDone => true
  | .word _ _ => true
  | _ => false

omit hs in
/-- After a wait the motors have stopped. -/
theorem joint_arrived (hr : Machine.Reports e.queue acc) {log es : List (Parser.Event F)} {v : F}
    {s : Machine.State F β σ} (h : Joint e rc P log0 s0 (es ++ .dwell v :: log) s) (hes : ∀ ev ∈ es, silent ev = true)
    (hl : log0 <:+ log) (hs : Inv e.A s0.planner) : Machine.Arrived e acc s := by
  generalize hx : es ++ .dwell v :: log = l at h
  induction h generalizing es with
  | here =>
    have := hl.length_le
    rw [← hx] at this
    simp at this
    omega
  | idle hj h ih =>
    exact Machine.Does.stopped hq hr (Machine.does_handle e _) (fun _ => rfl) rfl h (ih hes hx)
  | @call log' s s' ev hj h _ ih =>
    cases es with
    | nil =>
      cases hx
      obtain ⟨_, h⟩ := h
      exact Machine.dwell_stopped hq hr h (joint_inv hq h0 hj hs)
    | cons ev' es =>
      cases hx
      have hsi := hes ev List.mem_cons_self
      have k := ih (fun ev hm => hes ev (List.mem_cons_of_mem _ hm)) rfl
      cases ev <;> cases hsi
      all_goals (have h : s' = s := h; subst h; exact k)

omit hs in
/-- **What is reported is where the parser believes the machine is**: after a text that ends with a wait (`G4`), if
nothing has been disturbed, the position reported for an axis with a motor is the position of the parser, rounded to
whole steps. -/
theorem C80_reported_partial (hr : Machine.Reports e.queue acc) (hd : e.plan.Disjoint) (hfl : fl.toFloat_.Ok) (n : Nat)
    (lines : List (List Byte)) (st st' : Parser.State F) (hlines : ∀ l ∈ lines, Expr.Clean l)
    (hx : Parser.Texts Expr.Clean st) (hrun : Parser.runLines fl rc n st lines = .ok st') {s : Machine.State F β σ}
    (hj : Joint e rc (Undisturbed e rc st.machineOrigin) st.log s0 st'.log s) (hk : Machine.Known e acc s0)
    (ht : Tracks e st s0) {es log : List (Parser.Event F)} {v : F} (hlog : st'.log = es ++ .dwell v :: log)
    (hes : ∀ ev ∈ es, silent ev = true) (hl : st.log <:+ log)
    (hw : ∀ a m, (s.hw.axisToDriver a).getLsbD m.val = e.plan.motorMap a m) {a : Parser.Axis} {m : Motor}
    (hm : e.plan.motorMap (num a) m = true) (hz : e.A.eq (e.plan.stepsPerMm (num a)) e.A.zero = false) :
    Machine.currentPosition e s (num a) =
      e.A.div (e.A.ofInt (e.A.lround (e.A.mul (st'.pos a) (e.plan.stepsPerMm (num a))))) (e.plan.stepsPerMm (num a)) := by
  have k1 := C80_agree_partial hq h0 hk.inv hfl n lines st st' hlines hx hrun hj ht a
  have k2 := joint_arrived hq h0 hr (hlog ▸ hj) hes hl hk.inv
  rw [Machine.C77_reported (joint_known hq h0 hd hj hk) k2 hw hm hz, k1]

end
end BeagleG.Whole
