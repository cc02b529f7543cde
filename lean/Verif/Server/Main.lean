import Verif.Server.SessionProps
import Verif.LineBuf.SuccessProps
/-!
# C67: theorems
-/
namespace BeagleG.Server
open BeagleG.FdMux
open BeagleG.LineBuf (Byte Buf Streamer Session EndsStream chunksOf)

/-! ### Every run -/

/-- The invariants of the world and of its sessions. -/
def Ok2 (s0 : Streamer) (m : Mux Handler) (w : Option World) : Prop :=
  Ok m w ∧ ∀ v, w = some v → SInv s0 v

theorem call_sess {s0 : Streamer} {m : Mux Handler} {w v : World} (hm : MInv m w) (hs : SInv s0 w) (fd : Nat) (h : Handler)
    (hr : regs m fd h ∨ h = .timeout) (hv : (call h (some w)).2.2 = some v) : SInv s0 v :=
  handle_sess hm.inv hs fd h hr hv

theorem ok2_cycle (s0 : Streamer) (m : Mux Handler) (w : Option World) (sel : Sel) (h : Ok2 s0 m w) :
    Ok2 s0 (cycle call m w sel).2.1 (cycle call m w sel).2.2.1 := by
  refine cycle_induct call (Ok2 s0) ?_ ?_ m w sel h
  · intro k m w fd h hp hm
    refine ⟨ok_after m w k fd h hp.1 hm, ?_⟩
    intro v hv
    cases w with
    | none => simp [after, call] at hv
    | some w =>
      have h1 : MInv m w := hp.1
      cases k with
      | write => rw [h1.write] at hm; simp at hm
      | read => exact call_sess h1 (hp.2 w rfl) fd h (Or.inl hm) hv
  · intro m w l hp hl
    refine ⟨ok_idle m w l hp.1 hl, ?_⟩
    cases w with
    | none =>
      have : ∀ (l : List Handler) (m : Mux Handler), (callIdle call l m none).2.2.1 = none := by
        intro l
        induction l with
        | nil => intro m; rfl
        | cons h l ih => intro m; simp only [callIdle]; exact ih _
      intro v hv; rw [this] at hv; simp at hv
    | some w =>
      have hidle : MInv m w := hp.1
      have := callIdle_induct call (Ok2 s0) l (by
        intro m' w' h hok hh
        have ht := hidle.idle h (hl h hh)
        subst ht
        cases w' with
        | none => exact ⟨trivial, by intro v hv; simp [afterIdle, call] at hv⟩
        | some w' =>
          have hok1 : MInv m' w' := hok.1
          have hinv := hok1.of_effect (handle_effect (w' := _) hok1.inv 0 .timeout (Or.inr rfl) rfl)
          refine ⟨?_, ?_⟩
          · exact hinv
          · intro v hv
            exact call_sess hok1 (hok.2 w' rfl) 0 .timeout (Or.inr rfl) hv) m (some w) hp
      exact this.2

theorem serve_ok2 {gcode : Nat} {status : Option Nat} {tab : Nat → Option Obj} (h : Start gcode status tab)
    (buf : Buf) (answers : Nat → Answer) (sels : List Sel) :
    Ok2 ⟨buf, false, false⟩ (serve gcode status tab buf answers sels).1 (serve gcode status tab buf answers sels).2.1 := by
  refine loop_induct call (Ok2 _) (ok2_cycle _) sels _ _ ⟨start_ok h buf answers, ?_⟩
  intro v hv
  injection hv with hv
  subst hv
  exact ⟨⟨[], rfl, rfl⟩, by simp [startWorld, connected], [], 0, by simp, by simp [startWorld, connected],
    by simp [startWorld, connected, current, events]⟩

/-- C67. In every run of the server, with any clients, data, time-outs and results of system calls: a client is
connected only while none is; a client that comes meanwhile is told so; all reading of G-code, all lines given
to the parser and the end of the program belong to the client that is connected, and what the parser and the
machine print meanwhile goes to that client (or nowhere, if `fdopen` failed); also what the machine prints when
idle, as long as a client is connected. Every connection is accepted once. The status server reads and answers
only connections to its own socket. -/
theorem C67_one_client {gcode : Nat} {status : Option Nat} {tab : Nat → Option Obj} (h : Start gcode status tab)
    (buf : Buf) (answers : Nat → Answer) (sels : List Sel) {w : World}
    (hw : (serve gcode status tab buf answers sels).2.1 = some w) :
    Fine w.log ∧ ∀ fd c, current w.log = some (fd, c) ↔ w.connFd = some fd ∧ w.tab fd = some (.client c) := by
  have := serve_ok h buf answers sels
  rw [hw] at this
  have this : MInv _ w := this
  exact ⟨this.inv.fine, this.inv.cur⟩

/-- C67. What the parser gets is what the clients that were connected sent, one client after the other: the
calls of the streamer are a sequence of connections, each with the bytes received from its client, and the lines,
ends and idle calls are those that the streamer's model yields for them. -/
theorem C67_sessions {gcode : Nat} {status : Option Nat} {tab : Nat → Option Obj} (h : Start gcode status tab)
    (buf : Buf) (answers : Nat → Answer) (sels : List Sel) {w : World}
    (hw : (serve gcode status tab buf answers sels).2.1 = some w) :
    (∃ cs n, SessionsOf w.log cs n) ∧
    ∃ o, Streamer.run ⟨buf, false, false⟩ (events w.log) = some (w.streamer, o) ∧ o.filter (· ≠ .close) = outs w.log := by
  have := (serve_ok2 h buf answers sels).2 w hw
  exact ⟨this.sess, this.sim⟩

theorem flatMap_congr' {α β : Type} {f g : α → List β} : ∀ (l : List α), (∀ x ∈ l, f x = g x) → l.flatMap f = l.flatMap g
  | [], _ => rfl
  | x :: l, h => by
    rw [List.flatMap_cons, List.flatMap_cons, h x List.mem_cons_self,
      flatMap_congr' l fun y hy => h y (List.mem_cons_of_mem _ hy)]

/-- The lines given to the parser. -/
def parsed (log : List Act) : List (List Byte) :=
  log.filterMap fun
    | .parse l _ _ => some l
    | _ => none

theorem parsed_outs (log : List Act) : parsed log = (outs log).filterMap fun
    | .parse l => some l
    | _ => none := by
  simp only [parsed, outs, List.filterMap_filterMap]
  congr 1
  funext e
  cases e <;> rfl

/-- C67. After a run at the end of which no client is connected, the lines that were parsed are those of the
first client, then those of the second and so on, each as if the client were alone: no matter which other
clients were refused in between, and what the status server did. -/
theorem C67_programs {gcode : Nat} {status : Option Nat} {tab : Nat → Option Obj} (h : Start gcode status tab)
    (buf : Buf) (answers : Nat → Answer) (sels : List Sel) {w : World}
    (hw : (serve gcode status tab buf answers sels).2.1 = some w) (hn : w.connFd = none)
    (hfresh : LineBuf.Fresh ⟨buf, false, false⟩) :
    parsed w.log = (connected w.log).flatMap fun c => (LineBuf.parsedOf (received c w.log)).map LineBuf.cut := by
  have hi := serve_ok h buf answers sels
  rw [hw] at hi
  have hi : MInv _ w := hi
  have hcur := hi.inv.noClient hn
  obtain ⟨⟨cs, n, hs⟩, o, ho, hoc⟩ := C67_sessions h buf answers sels hw
  have hr := hs.rest
  simp only [hcur] at hr
  obtain ⟨hr1, hr2⟩ := hr
  rw [hr2, show cs.flatMap (·.2.events) = (cs.map (·.2)).flatMap Session.events by rw [List.flatMap_map]] at ho
  obtain ⟨s', o1, o2, hrun, hrun', rfl⟩ := LineBuf.run_split _ _ ho
  obtain ⟨hf, hd⟩ := LineBuf.C17_success_all (cs.map (·.2)) _ _ _ hfresh (by
    intro c hc
    obtain ⟨p, hp, rfl⟩ := List.mem_map.1 hc
    exact (hs.ok p hp).1) hrun
  obtain ⟨p, o2', hrun2, hd2, -⟩ := LineBuf.run_timeouts s' hf.connected n
  rw [hrun2] at hrun'
  simp only [Option.some.injEq, Prod.mk.injEq] at hrun'
  obtain ⟨-, rfl⟩ := hrun'
  have hdata : LineBuf.dataOuts (o1 ++ o2') = cs.flatMap fun p =>
      (LineBuf.parsedOf (received p.1 w.log)).map (fun l => .parse (LineBuf.cut l)) ++ [.finished, .close] := by
    rw [LineBuf.dataOuts_append, hd, hd2, List.append_nil, List.flatMap_map]
    apply flatMap_congr'
    intro p hp
    rw [(hs.ok p hp).2]
  have key : ∀ (l : List LineBuf.Out), (l.filter (· ≠ .close)).filterMap (fun
      | .parse l => some l
      | _ => none) = (LineBuf.dataOuts l).filterMap (fun
      | .parse l => some l
      | _ => none : LineBuf.Out → Option (List Byte)) := by
    intro l
    induction l with
    | nil => rfl
    | cons x l ih =>
      cases x <;> simp [LineBuf.dataOuts] at ih ⊢ <;> exact ih
  rw [parsed_outs, ← hoc, key, hdata, hr1, List.flatMap_map, List.filterMap_flatMap]
  apply flatMap_congr'
  intro p _
  rw [List.filterMap_append, List.filterMap_map]
  simp only [List.filterMap_cons, List.filterMap_nil, List.append_nil]
  induction LineBuf.parsedOf (received p.1 w.log) with
  | nil => rfl
  | cons x l ih => simp_all

/-! ### What becomes of a connection -/

/-- An act that decides what becomes of connection `c`. -/
def Fate (c : Nat) (e : Act) : Prop :=
  ∃ fd, e = .abandon fd c ∨ e = .refuse fd c ∨ e = .connect fd c ∨ e = .watch fd c

theorem fate_last {log : List Act} (hf : Fine log) {a b : List Act} {c : Nat} {e : Act} (he : Fate c e)
    (h : log = a ++ e :: b) : ∃ s fd, a.getLast? = some (.accept s fd c) := by
  have hok := hf a e b h
  obtain ⟨fd, rfl | rfl | rfl | rfl⟩ := he
  · obtain ⟨s, hs⟩ := hok; exact ⟨s, fd, hs⟩
  · obtain ⟨-, s, hs⟩ := hok; exact ⟨s, fd, hs⟩
  · obtain ⟨-, s, hs⟩ := hok; exact ⟨s, fd, hs⟩
  · obtain ⟨s, hs⟩ := hok; exact ⟨s, fd, hs⟩

theorem accept_once {log : List Act} (hf : Fine log) {x y x' y' : List Act} {s fd s' fd' c : Nat}
    (h : log = x ++ .accept s fd c :: y) (h' : log = x' ++ .accept s' fd' c :: y') : x = x' ∧ y = y' := by
  have key : ∀ {x y x' y' : List Act} {s fd s' fd' : Nat}, log = x ++ .accept s fd c :: y →
      log = x' ++ .accept s' fd' c :: y' → ∀ z, x' = x ++ z → z = [] := by
    intro x y x' y' s fd s' fd' h h' z hz
    cases z with
    | nil => rfl
    | cons e z =>
      exfalso
      rw [hz, List.append_assoc] at h'
      rw [h] at h'
      have := List.append_cancel_left h'
      injection this with h1 h2
      have hok := hf (x ++ e :: z) (.accept s' fd' c) y' (by rw [h, h', List.append_assoc])
      exact hok s fd (by rw [← h1]; simp)
  have heq : x = x' := by
    rcases List.append_eq_append_iff.1 (h.symm.trans h') with ⟨z, hz, -⟩ | ⟨z, hz, -⟩
    · have := key h h' z hz
      rw [hz, this, List.append_nil]
    · have := key h' h z hz
      rw [hz, this, List.append_nil]
  refine ⟨heq, ?_⟩
  subst heq
  rw [h] at h'
  have := List.append_cancel_left h'
  injection this with _ h2

/-- Nothing else becomes of a connection afterwards. -/
theorem fate_unique {log : List Act} (hf : Fine log) {c : Nat} {e e' : Act} (he : Fate c e) (he' : Fate c e')
    (hm : e ∈ log) (hm' : e' ∈ log) : e = e' := by
  obtain ⟨a, b, h⟩ := List.append_of_mem hm
  obtain ⟨a', b', h'⟩ := List.append_of_mem hm'
  obtain ⟨s, fd, hl⟩ := fate_last hf he h
  obtain ⟨s', fd', hl'⟩ := fate_last hf he' h'
  have ha : a = a.dropLast ++ [.accept s fd c] := by
    rw [List.getLast?_eq_some_iff] at hl
    obtain ⟨ys, rfl⟩ := hl
    simp
  have ha' : a' = a'.dropLast ++ [.accept s' fd' c] := by
    rw [List.getLast?_eq_some_iff] at hl'
    obtain ⟨ys, rfl⟩ := hl'
    simp
  rw [ha, List.append_assoc] at h
  rw [ha', List.append_assoc] at h'
  have := (accept_once hf h h').2
  injection this

theorem connected_mem {log : List Act} {c : Nat} (h : c ∈ connected log) : ∃ fd, Act.connect fd c ∈ log := by
  unfold connected at h
  rw [List.mem_filterMap] at h
  obtain ⟨e, he, h⟩ := h
  split at h
  · rename_i fd c'
    injection h with h
    subst h
    exact ⟨fd, he⟩
  · simp at h

/-- C67. A client that is refused is never connected and nothing is read from it; its connection is closed. -/
theorem C67_refused {gcode : Nat} {status : Option Nat} {tab : Nat → Option Obj} (h : Start gcode status tab)
    (buf : Buf) (answers : Nat → Answer) (sels : List Sel) {w : World}
    (hw : (serve gcode status tab buf answers sels).2.1 = some w) {fd c : Nat} (hr : Act.refuse fd c ∈ w.log) :
    c ∉ connected w.log ∧ received c w.log = [] ∧ ∀ fd', w.tab fd' ≠ some (.client c) := by
  have hi := serve_ok h buf answers sels
  rw [hw] at hi
  have hi : MInv _ w := hi
  have hf := hi.inv.fine
  have hfr : Fate c (.refuse fd c) := ⟨fd, Or.inr (Or.inl rfl)⟩
  have hc : c ∉ connected w.log := by
    intro hc
    obtain ⟨fd', hm⟩ := connected_mem hc
    have := fate_unique hf hfr ⟨fd', Or.inr (Or.inr (Or.inl rfl))⟩ hr hm
    simp at this
  refine ⟨hc, received_nil hf hc, ?_⟩
  intro fd' ht
  rcases hi.inv.kept fd' c ht with ⟨g, hg⟩ | hm
  · have := hi.inv.reg fd' g hg
    cases g with
    | gcodeListen s => rw [this.2] at ht; simp at ht
    | statusListen s => rw [this.2] at ht; simp at ht
    | timeout => exact this
    | statusClient s =>
      obtain ⟨-, -, c', h1, h2⟩ := this
      rw [ht] at h1
      simp at h1; subst h1
      have := fate_unique hf hfr ⟨fd', Or.inr (Or.inr (Or.inr rfl))⟩ hr h2
      simp at this
    | stream =>
      obtain ⟨h1, c', h2⟩ := this
      have := (hi.inv.cur fd' c).2 ⟨h1, ht⟩
      rcases current_connected _ none _ _ this with h3 | h3
      · exact hc h3
      · simp at h3
  · have := fate_unique hf hfr ⟨fd', Or.inl rfl⟩ hr hm
    simp at this

/-- C67, as far as it holds. No descriptor of a connection stays open without the server waiting for it, except
where `fcntl` failed. -/
theorem C67_no_leak_partial {gcode : Nat} {status : Option Nat} {tab : Nat → Option Obj} (h : Start gcode status tab)
    (buf : Buf) (answers : Nat → Answer) (sels : List Sel) {w : World}
    (hw : (serve gcode status tab buf answers sels).2.1 = some w) {fd c : Nat} (ht : w.tab fd = some (.client c)) :
    (∃ g, (fd, g) ∈ (serve gcode status tab buf answers sels).1.maps .read) ∨ Act.abandon fd c ∈ w.log := by
  have hi := serve_ok h buf answers sels
  rw [hw] at hi
  have hi : MInv _ w := hi
  exact hi.inv.kept fd c ht

/-! ### No waiting outside of `select` -/

/-- The descriptor on which an act waits for the other side, and what it refers to. -/
def source : Act → Option (Nat × Option Obj)
  | .acceptFail s => some (s, some .socket)
  | .accept s _ _ => some (s, some .socket)
  | .read fd o _ => some (fd, o)
  | .query fd o _ => some (fd, o)
  | _ => none

/-- What a handler does: it waits only on its own descriptor, leaves the other descriptors alone, and decides
what becomes of the connections it accepts. -/
structure Frame (fd : Nat) (w w' : World) (l : List Act) : Prop where
  log : w'.log = w.log ++ l
  own : ∀ e ∈ l, ∀ x o, source e = some (x, o) → x = fd ∧ o = w.tab fd
  others : ∀ x, x ≠ fd → w.tab x ≠ none → w'.tab x = w.tab x
  fate : ∀ s f c, Act.accept s f c ∈ l → ∃ e ∈ l, Fate c e

theorem handle_frame {R : Nat → Handler → Prop} {w w' : World} (h : Inv R w) (fd : Nat) (g : Handler)
    (hr : R fd g ∨ g = .timeout) (hw : (handle g w).2.2 = some w') : ∃ l, Frame fd w w' l := by
  cases g with
  | timeout =>
    simp only [handle, timeout] at hw
    injection hw with hw
    subst hw
    exact ⟨[.idle w.processing (w.target w.msgOut)], rfl, by simp [source], by intros; rfl, by simp⟩
  | gcodeListen socket =>
    have hr := hr.resolve_right (by simp)
    obtain ⟨rfl, hsock⟩ := h.reg fd _ hr
    simp only [handle, gcodeListen] at hw
    rcases ha : w.tick.accepted w.answer with _ | nfd
    · simp only [ha] at hw
      injection hw with hw
      subst hw
      exact ⟨[.acceptFail socket], rfl, by simp [source, hsock], by intros; rfl, by simp⟩
    · have hfree : w.tab nfd = none := (accepted_free ha).2
      simp only [ha] at hw
      split at hw
      · injection hw with hw
        subst hw
        refine ⟨[.accept socket nfd w.next, .abandon nfd w.next], by simp [World.add, World.tick], by simp [source, hsock], ?_, ?_⟩
        · intro x _ hx
          have : x ≠ nfd := by rintro rfl; exact hx hfree
          simp [World.add, setTab, World.tick, this]
        · intro s f c hm
          simp at hm
          exact ⟨.abandon nfd w.next, by simp, nfd, Or.inl (by simp [hm])⟩
      split at hw
      · injection hw with hw
        subst hw
        refine ⟨[.accept socket nfd w.next, .abandon nfd w.next], by simp [World.add, World.tick], by simp [source, hsock], ?_, ?_⟩
        · intro x _ hx
          have : x ≠ nfd := by rintro rfl; exact hx hfree
          simp [World.add, setTab, World.tick, this]
        · intro s f c hm
          simp at hm
          exact ⟨.abandon nfd w.next, by simp, nfd, Or.inl (by simp [hm])⟩
      split at hw
      · injection hw with hw
        subst hw
        refine ⟨[.accept socket nfd w.next, .refuse nfd w.next, .close nfd (some (.client w.next))],
          by simp [World.add, World.tick, setTab], by simp [source, hsock], ?_, ?_⟩
        · intro x _ hx
          have : x ≠ nfd := by rintro rfl; exact hx hfree
          simp [World.add, setTab, World.tick, this]
        · intro s f c hm
          simp at hm
          exact ⟨.refuse nfd w.next, by simp, nfd, Or.inr (Or.inl (by simp [hm]))⟩
      · rename_i hns
        have hns : w.connFd = none := by simpa [World.add, World.tick] using hns
        have hcond : (World.add { w.tick with
            tab := setTab w.tick.tab nfd (some (Obj.client w.tick.next)), next := w.tick.next + 1 }
            [Act.accept socket nfd w.tick.next]).connFd.isSome = false := by
          simp [World.add, World.tick, hns]
        simp only [connectStream, hcond, Bool.false_eq_true, if_false] at hw
        injection hw with hw
        subst hw
        refine ⟨[.accept socket nfd w.next, .connect nfd w.next], by simp [World.add, World.tick], by simp [source, hsock], ?_, ?_⟩
        · intro x _ hx
          have : x ≠ nfd := by rintro rfl; exact hx hfree
          simp [World.add, setTab, World.tick, this]
        · intro s f c hm
          simp at hm
          exact ⟨.connect nfd w.next, by simp, nfd, Or.inr (Or.inr (Or.inl (by simp [hm])))⟩
  | statusListen socket =>
    have hr := hr.resolve_right (by simp)
    obtain ⟨rfl, hsock⟩ := h.reg fd _ hr
    simp only [handle, statusListen] at hw
    rcases ha : w.tick.accepted w.answer with _ | nfd
    · simp only [ha] at hw
      injection hw with hw
      subst hw
      exact ⟨[.acceptFail socket], rfl, by simp [source, hsock], by intros; rfl, by simp⟩
    · have hfree : w.tab nfd = none := (accepted_free ha).2
      simp only [ha] at hw
      injection hw with hw
      subst hw
      refine ⟨[.accept socket nfd w.next, .watch nfd w.next], by simp [World.add, World.tick], by simp [source, hsock], ?_, ?_⟩
      · intro x _ hx
        have : x ≠ nfd := by rintro rfl; exact hx hfree
        simp [World.add, setTab, World.tick, this]
      · intro s f c hm
        simp at hm
        exact ⟨.watch nfd w.next, by simp, nfd, Or.inr (Or.inr (Or.inr (by simp [hm])))⟩
  | statusClient f =>
    have hr := hr.resolve_right (by simp)
    obtain ⟨rfl, hcf, -⟩ := h.reg fd _ hr
    simp only [handle, statusClient] at hw
    rcases hd : (w.answer.read.getD []).head? with _ | q
    · simp only [hd] at hw
      injection hw with hw
      subst hw
      refine ⟨[.query f (w.tab f) none, .close f (w.tab f)], rfl, by simp [source], ?_, by simp⟩
      intro x hx _
      simp [World.add, setTab, World.tick, hx]
    · simp only [hd] at hw
      injection hw with hw
      subst hw
      refine ⟨_, rfl, ?_, by intros; rfl, ?_⟩
      · intro e he x o hs
        rcases List.mem_cons.1 he with rfl | he
        · simp [source] at hs; exact ⟨hs.1.symm, hs.2.symm⟩
        · split at he
          · simp at he; subst he; simp [source] at hs
          · simp at he
      · intro s f' c hm
        rcases List.mem_cons.1 hm with hm | hm
        · simp at hm
        · split at hm <;> simp at hm
  | stream =>
    have hr := hr.resolve_right (by simp)
    obtain ⟨hcf, c, hc⟩ := h.reg fd _ hr
    simp only [handle, readData, hcf] at hw
    rcases hst : w.tick.streamer.step (.readable w.answer.read) with _ | ⟨s, o⟩
    · simp [hst] at hw
    simp only [hst] at hw
    have hsc : w.tick.streamer.connected = true := by simp [World.streamer, World.tick, hcf]
    have hlist : (∀ e ∈ (Act.read fd (w.tab fd) w.answer.read :: o.map (outAct w.tick fd)), ∀ x o', source e = some (x, o') →
          x = fd ∧ o' = w.tab fd) ∧
        ∀ s f c, Act.accept s f c ∈ (Act.read fd (w.tab fd) w.answer.read :: o.map (outAct w.tick fd)) →
          ∃ e ∈ (Act.read fd (w.tab fd) w.answer.read :: o.map (outAct w.tick fd)), Fate c e := by
      constructor
      · intro e he x o' hs
        rcases List.mem_cons.1 he with rfl | he
        · simp [source] at hs; exact ⟨hs.1.symm, hs.2.symm⟩
        · obtain ⟨y, -, rfl⟩ := List.mem_map.1 he
          cases y <;> simp [outAct, source] at hs
      · intro s f c hm
        rcases List.mem_cons.1 hm with hm | hm
        · simp at hm
        · obtain ⟨y, -, hy⟩ := List.mem_map.1 hm
          cases y <;> simp [outAct] at hy
    split at hw
    · injection hw with hw
      subst hw
      exact ⟨_, rfl, hlist.1, by intros; rfl, hlist.2⟩
    · injection hw with hw
      subst hw
      refine ⟨_, rfl, hlist.1, ?_, hlist.2⟩
      intro x hx _
      simp [World.add, setTab, World.tick, hx]

/-- What is known in the middle of a cycle that began with world `w0`; the iterator is at `pos`. -/
def MidCycle (rd : Nat → Bool) (w0 : World) (pos : Nat) (m : Mux Handler) (w : Option World) : Prop :=
  Ok m w ∧ ∀ v, w = some v → (∀ x, pos ≤ x → w0.tab x ≠ none → v.tab x = w0.tab x) ∧
    ∃ l, v.log = w0.log ++ l ∧ ∀ e ∈ l, ∀ x o, source e = some (x, o) → rd x = true ∧ w0.tab x = o

/-- C67. In every cycle of every run `accept` and `read` are called only on descriptors that `select` reported
as readable in this cycle, and which since then refer to the same connection: a descriptor number that was
closed and used again in the same cycle is not read. -/
theorem C67_ready {gcode : Nat} {status : Option Nat} {tab : Nat → Option Obj} (h : Start gcode status tab)
    (buf : Buf) (answers : Nat → Answer) (sels : List Sel) {m : Mux Handler} {w0 w : World} {n : Nat} {rd wr : Nat → Bool}
    (hm : (serve gcode status tab buf answers sels).1 = m) (h0 : (serve gcode status tab buf answers sels).2.1 = some w0)
    (hsel : SelOk m (.ready n rd wr)) (hw : (cycle call m (some w0) (.ready n rd wr)).2.2.1 = some w) :
    ∃ l, w.log = w0.log ++ l ∧ ∀ e ∈ l, ∀ x o, source e = some (x, o) → rd x = true ∧ w0.tab x = o := by
  have hi := serve_ok h buf answers sels
  rw [h0, hm] at hi
  have hok : Ok m (some w0) := hi
  have hi : MInv m w0 := hi
  unfold cycle at hw
  split at hw
  · injection hw with hw
    subst hw
    exact ⟨[], by simp, by simp⟩
  simp only at hw
  split at hw
  · -- time-out
    have := callIdle_induct call (fun m w => Ok m w ∧ ∀ v, w = some v → ∃ l, v.log = w0.log ++ l ∧ ∀ e ∈ l, source e = none)
      m.idle (by
        intro m' w' g hp hg
        have ht := hi.idle g hg
        subst ht
        cases w' with
        | none => exact ⟨trivial, by intro v hv; simp [afterIdle, call] at hv⟩
        | some w' =>
          have hok1 : MInv m' w' := hp.1
          refine ⟨hok1.of_effect (handle_effect (w' := _) hok1.inv 0 .timeout (Or.inr rfl) rfl), ?_⟩
          intro v hv
          obtain ⟨l, hl1, hl2⟩ := hp.2 w' rfl
          simp only [afterIdle, call, handle, timeout] at hv
          injection hv with hv
          subst hv
          refine ⟨l ++ [.idle w'.processing (w'.target w'.msgOut)], by simp [World.add, hl1], ?_⟩
          intro e he
          rcases List.mem_append.1 he with he | he
          · exact hl2 e he
          · simp at he; subst he; rfl) m (some w0) ⟨hok, by
            intro v hv
            injection hv with hv
            subst hv
            exact ⟨[], by simp, by simp⟩⟩
    obtain ⟨l, h1, h2⟩ := this.2 w hw
    refine ⟨l, h1, ?_⟩
    intro e he x o hs
    rw [h2 e he] at hs; simp at hs
  · have hopen : ∀ fd, rd fd = true → w0.tab fd ≠ none := by
      intro fd hfd
      obtain ⟨g, hg⟩ := hsel.1 fd hfd
      exact hi.inv.open_ (R := regs m) hg
    have h1 := callHandlers_induct call .read rd (MidCycle rd w0) (by
      intro pos m' w' fd g hp hmem hpos hset
      refine ⟨ok_after m' w' .read fd g hp.1 hmem, ?_⟩
      intro v hv
      cases w' with
      | none => simp [after, call] at hv
      | some w' =>
        have hok1 : MInv m' w' := hp.1
        obtain ⟨p1, l, p2, p3⟩ := hp.2 w' rfl
        obtain ⟨l', hf⟩ := handle_frame hok1.inv fd g (Or.inl hmem) hv
        have hfd := p1 fd hpos (hopen fd hset)
        refine ⟨?_, l ++ l', by rw [hf.log, p2, List.append_assoc], ?_⟩
        · intro x hx hne
          have hx1 := p1 x (by omega) hne
          rw [hf.others x (by omega) (by rw [hx1]; exact hne), hx1]
        · intro e he x o hs
          rcases List.mem_append.1 he with he | he
          · exact p3 e he x o hs
          · obtain ⟨rfl, rfl⟩ := hf.own e he x o hs
            exact ⟨hset, hfd.symm⟩)
      (by
        intro pos pos' m' w' hle hp
        refine ⟨hp.1, fun v hv => ?_⟩
        obtain ⟨p1, p2⟩ := hp.2 v hv
        exact ⟨fun x hx => p1 x (by omega), p2⟩)
      n m 0 (some w0) ⟨hok, by
        intro v hv
        injection hv with hv
        subst hv
        exact ⟨fun _ _ _ => rfl, [], by simp, by simp⟩⟩
    obtain ⟨pos, h2⟩ := h1
    generalize hr1 : callHandlers call .read rd n m 0 (some w0) = r1 at hw h2
    obtain ⟨k1, m1, w1, e1⟩ := r1
    simp only at hw h2
    obtain ⟨pos', h3⟩ := callHandlers_induct call .write wr (fun _ m w => MidCycle rd w0 pos m w) (by
      intro _ m' w' fd g hp hmem _ _
      cases w' with
      | none => exact ⟨trivial, by intro v hv; simp [after, call] at hv⟩
      | some w' =>
        have hok1 : MInv m' w' := hp.1
        rw [hok1.write] at hmem; simp at hmem) (fun _ _ _ _ _ hp => hp) k1 m1 0 w1 h2
    exact (h3.2 w hw).2

/-- C67. Something becomes of every connection, and only one thing: it is left open as `fcntl` failed, refused,
connected as the source of G-code, or served by the status server. -/
theorem C67_fate {gcode : Nat} {status : Option Nat} {tab : Nat → Option Obj} (h : Start gcode status tab)
    (buf : Buf) (answers : Nat → Answer) (sels : List Sel) {w : World}
    (hw : (serve gcode status tab buf answers sels).2.1 = some w) {s fd c : Nat} (hm : Act.accept s fd c ∈ w.log) :
    ∃ e ∈ w.log, Fate c e ∧ ∀ e' ∈ w.log, Fate c e' → e' = e := by
  have key := loop_induct call (fun m w => Ok m w ∧ ∀ v, w = some v → ∀ s f c, Act.accept s f c ∈ v.log → ∃ e ∈ v.log, Fate c e)
    (by
      intro m w sel hp
      refine cycle_induct call (fun m w => Ok m w ∧ ∀ v, w = some v → ∀ s f c, Act.accept s f c ∈ v.log → ∃ e ∈ v.log, Fate c e)
        ?_ ?_ m w sel hp
      · intro k m w fd g hp hmem
        refine ⟨ok_after m w k fd g hp.1 hmem, ?_⟩
        intro v hv s f c hacc
        cases w with
        | none => simp [after, call] at hv
        | some w =>
          have hok1 : MInv m w := hp.1
          cases k with
          | write => rw [hok1.write] at hmem; simp at hmem
          | read =>
            obtain ⟨l, hf⟩ := handle_frame hok1.inv fd g (Or.inl hmem) hv
            rw [hf.log] at hacc ⊢
            rcases List.mem_append.1 hacc with hacc | hacc
            · obtain ⟨e, he, hfe⟩ := hp.2 w rfl s f c hacc
              exact ⟨e, List.mem_append_left _ he, hfe⟩
            · obtain ⟨e, he, hfe⟩ := hf.fate s f c hacc
              exact ⟨e, List.mem_append_right _ he, hfe⟩
      · intro m w l hp hl
        refine ⟨ok_idle m w l hp.1 hl, ?_⟩
        cases w with
        | none =>
          have : ∀ (l : List Handler) (m : Mux Handler), (callIdle call l m none).2.2.1 = none := by
            intro l
            induction l with
            | nil => intro m; rfl
            | cons h l ih => intro m; simp only [callIdle]; exact ih _
          intro v hv; rw [this] at hv; simp at hv
        | some w =>
          have hidle : MInv m w := hp.1
          have := callIdle_induct call
            (fun m w => Ok m w ∧ ∀ v, w = some v → ∀ s f c, Act.accept s f c ∈ v.log → ∃ e ∈ v.log, Fate c e) l (by
            intro m' w' g hok hh
            have ht := hidle.idle g (hl g hh)
            subst ht
            cases w' with
            | none => exact ⟨trivial, by intro v hv; simp [afterIdle, call] at hv⟩
            | some w' =>
              have hok1 : MInv m' w' := hok.1
              refine ⟨hok1.of_effect (handle_effect (w' := _) hok1.inv 0 .timeout (Or.inr rfl) rfl), ?_⟩
              intro v hv s f c hacc
              simp only [afterIdle, call, handle, timeout] at hv
              injection hv with hv
              subst hv
              obtain ⟨e, he, hfe⟩ := hok.2 w' rfl s f c (by simpa [World.add] using hacc)
              exact ⟨e, List.mem_append_left _ he, hfe⟩) m (some w) hp
          exact this.2) sels _ _ (⟨start_ok h buf answers, by
            intro v hv s f c hm
            injection hv with hv
            subst hv
            simp [startWorld] at hm⟩)
  obtain ⟨e, he, hfe⟩ := key.2 w hw s fd c hm
  refine ⟨e, he, hfe, ?_⟩
  intro e' he' hfe'
  exact fate_unique (C67_one_client h buf answers sels hw).1 hfe' hfe he' he

end BeagleG.Server
