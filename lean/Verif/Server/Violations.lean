import Verif.Server.Main
/-!
# C67: where it does not hold
-/
namespace BeagleG.Server
open BeagleG.FdMux
open BeagleG.LineBuf (Byte Buf Streamer)

/-- `select` reports this one descriptor as readable. -/
def readable (fd : Nat) : Sel := .ready 1 (· == fd) (fun _ => false)

/-- The wait times out. -/
def nothing : Sel := .ready 0 (fun _ => false) (fun _ => false)

theorem callHandlers_zero (k : Kind) (set : Nat → Bool) (m : Mux Handler) (pos : Nat) (w : Option World) :
    callHandlers call k set 0 m pos w = (0, m, w, []) := by
  unfold callHandlers; simp

theorem callHandlers_one (fd : Nat) (h : Handler) (set : Nat → Bool) (avail : Nat) (m : Mux Handler) (pos : Nat)
    (w : Option World) (hset : set = (· == fd)) (hav : avail = 1) (hs : Sorted (m.maps .read)) (hm : (fd, h) ∈ m.maps .read)
    (hp : pos ≤ fd) :
    (callHandlers call .read set avail m pos w).1 = 0 ∧
    (callHandlers call .read set avail m pos w).2.1 = (after call .read fd h m w).1 ∧
    (callHandlers call .read set avail m pos w).2.2.1 = (after call .read fd h m w).2 := by
  have hmem : (fd, h) ∈ from_ pos (m.maps .read) := List.mem_filter.2 ⟨hm, by simpa using hp⟩
  fun_induction callHandlers call .read set avail m pos w with
  | case1 => omega
  | case2 avail m pos w _ hh =>
    rw [List.head?_eq_none_iff] at hh
    rw [hh] at hmem; simp at hmem
  | case3 avail m pos w hav' fd' hd hh hset' keep m1 regLog heq m2 r ih =>
    subst hset hav
    have hfd : fd' = fd := by simpa using hset'
    subst hfd
    have : h = hd := sorted_unique hs hm (head_from hh).1
    subst this
    have hr : r = (0, m2, (call h w).2.2, []) := by
      simp only [r, Nat.sub_self]
      exact callHandlers_zero _ _ _ _ _
    simp only [hr, after, heq]
    exact ⟨trivial, rfl, trivial⟩
  | case4 avail m pos w hav' fd' hd hh hset' ih =>
    subst hset
    have hfd : fd' ≠ fd := by simpa using hset'
    have hlt : fd' < fd := by
      have hsf : Sorted (from_ pos (m.maps .read)) := List.Pairwise.filter _ hs
      rcases hl : from_ pos (m.maps .read) with _ | ⟨x, l⟩
      · rw [hl] at hh; simp at hh
      · rw [hl] at hh hmem hsf
        simp at hh; subst hh
        rcases List.mem_cons.1 hmem with e | e
        · injection e with e _; exact absurd e.symm hfd
        · exact (List.pairwise_cons.1 hsf).1 _ e
    exact ih hav hs hm hlt (List.mem_filter.2 ⟨hm, by simpa using Nat.succ_le_of_lt hlt⟩)

/-- A cycle in which one descriptor is readable. -/
theorem loop_one {fd : Nat} {h : Handler} {m : Mux Handler} {w : Option World} (sels : List Sel)
    (hs : Sorted (m.maps .read)) (hm : (fd, h) ∈ m.maps .read) :
    (loop call m w (readable fd :: sels)).1 = (loop call (after call .read fd h m w).1 (after call .read fd h m w).2 sels).1 ∧
    (loop call m w (readable fd :: sels)).2.1 =
      (loop call (after call .read fd h m w).1 (after call .read fd h m w).2 sels).2.1 := by
  obtain ⟨h1, h2, h3⟩ := callHandlers_one fd h (· == fd) 1 m 0 w rfl rfl hs hm (Nat.zero_le _)
  have hne : ((m.maps .read).isEmpty && (m.maps .write).isEmpty) = false := by
    have : m.maps .read ≠ [] := List.ne_nil_of_mem hm
    simp [this]
  have hc : cycle call m w (readable fd) = (true, (after call .read fd h m w).1, (after call .read fd h m w).2,
      (callHandlers call .read (· == fd) 1 m 0 w).2.2.2 ++ []) := by
    unfold cycle readable
    rw [if_neg (by simp [hne])]
    simp only [Nat.one_ne_zero, if_false]
    rw [h1, callHandlers_zero, h2, h3]
  rw [show loop call m w (readable fd :: sels) = _ from loop.eq_2 .., hc]
  exact ⟨rfl, rfl⟩

instance (l : List (Nat × Handler)) : Decidable (Sorted l) := inferInstanceAs (Decidable (l.Pairwise (·.1 < ·.1)))

/-- Standard input, output and error, and two listening sockets. -/
def table : Nat → Option Obj
  | 0 | 1 | 2 => some .other
  | 3 | 4 => some .socket
  | _ => none

theorem table_start : Start 3 (some 4) table := by
  refine ⟨rfl, ?_, ?_⟩
  · intro s hs; injection hs with hs; subst hs; exact ⟨by decide, rfl⟩
  · intro fd c
    unfold table
    split <;> simp

/-- The system gives the first free number, 5, to every connection; the client has nothing to say. -/
def quiet : Nat → Answer := fun _ => ⟨some 5, true, true, true, some []⟩

/-- C67 fails for messages of the machine when no client is connected. A G-code client connects and leaves; then a
client of the status server connects and is given the same descriptor number; then the machine, when it is idle,
prints to it (for instance that the emergency stop was pressed). The stream that the machine holds was not
replaced when the client left. -/
theorem C67_stale_message : ∃ w, (serve 3 (some 4) table (Buf.init [0, 0]) quiet
      [readable 3, readable 5, readable 4, nothing]).2.1 = some w ∧
    w.log = [.accept 3 5 0, .connect 5 0, .read 5 (some (.client 0)) (some []),
      .parse [] (some (.client 0)) (some (.client 0)), .finish (some (.client 0)), .close 5 (some (.client 0)),
      .accept 4 5 1, .watch 5 1, .idle false (some (.client 1))] := by
  have hs0 := start_sorted 3 (some 4)
  unfold serve
  rw [(loop_one (h := .gcodeListen 3) _ hs0 (by decide)).2]
  rw [(loop_one (h := .stream) _ (by decide) (by decide)).2]
  rw [(loop_one (h := .statusListen 4) _ (by decide) (by decide)).2]
  exact ⟨_, rfl, rfl⟩

/-- C67 fails for descriptors when `fcntl` fails: the connection stays open and nobody waits for it. -/
theorem C67_leak : ∃ w, (serve 3 (some 4) table (Buf.init [0, 0]) (fun _ => ⟨some 5, false, true, true, none⟩)
      [readable 3]).2.1 = some w ∧ w.tab 5 = some (.client 0) ∧
    ∀ g, (5, g) ∉ (serve 3 (some 4) table (Buf.init [0, 0]) (fun _ => ⟨some 5, false, true, true, none⟩)
      [readable 3]).1.maps .read := by
  have hs0 := start_sorted 3 (some 4)
  unfold serve
  rw [(loop_one (h := .gcodeListen 3) _ hs0 (by decide)).1, (loop_one (h := .gcodeListen 3) _ hs0 (by decide)).2]
  refine ⟨_, rfl, rfl, ?_⟩
  intro g hg
  have : (5, g) ∈ [(3, Handler.gcodeListen 3), (4, .statusListen 4)] := hg
  simp at this

/-- A client that sends "a", is joined by a second one that is refused, and leaves: non-vacuity of
`C67_one_client`, `C67_programs`, `C67_refused`. -/
def twoClients : Nat → Answer
  | 0 => ⟨some 5, true, true, true, none⟩
  | 1 => ⟨none, true, true, true, some [0x61]⟩
  | 2 => ⟨some 6, true, true, true, none⟩
  | _ => ⟨none, true, true, true, some []⟩

example : ∃ w, (serve 3 none table (Buf.init [0, 0, 0, 0]) twoClients
      [readable 3, readable 5, readable 3, readable 5]).2.1 = some w ∧
    w.log = [.accept 3 5 0, .connect 5 0, .read 5 (some (.client 0)) (some [0x61]), .accept 3 6 1, .refuse 6 1,
      .close 6 (some (.client 1)), .read 5 (some (.client 0)) (some []),
      .parse [0x61] (some (.client 0)) (some (.client 0)), .finish (some (.client 0)), .close 5 (some (.client 0))] := by
  have hs0 := start_sorted 3 none
  unfold serve
  rw [(loop_one (h := .gcodeListen 3) _ hs0 (by decide)).2]
  rw [(loop_one (h := .stream) _ (by decide) (by decide)).2]
  rw [(loop_one (h := .gcodeListen 3) _ (by decide) (by decide)).2]
  rw [(loop_one (h := .stream) _ (by decide) (by decide)).2]
  exact ⟨_, rfl, rfl⟩

/-- C67. While a client is connected, a `read` that fails ends the program and the connection, whatever the
reason: also `EAGAIN`, for which the descriptor was made non-blocking. -/
theorem C67_error_ends (w : World) (fd : Nat) (hc : w.connFd = some fd) (hr : w.answer.read = none)
    {keep : Bool} {rs : List (Reg Handler)} {w' : World} (h : readData w = (keep, rs, some w')) :
    keep = false ∧ w'.connFd = none ∧ w'.tab fd = none ∧
      ∃ l, w'.log = w.log ++ l ++ [.finish (w.target w.msgOut), .close fd (w.tab fd)] := by
  unfold readData at h
  simp only [hc, hr] at h
  rcases hst : w.tick.streamer.step (.readable none) with _ | ⟨s, o⟩
  · simp [hst] at h
  simp only [hst] at h
  have hsc : w.tick.streamer.connected = true := by simp [World.streamer, World.tick, hc]
  rcases step_readable hsc hst with ⟨hne, -⟩ | ⟨-, hs1, -, ls, rfl⟩
  · simp at hne
  · simp only [hs1, Bool.false_eq_true, if_false, Prod.mk.injEq, Option.some.injEq] at h
    obtain ⟨rfl, -, rfl⟩ := h
    refine ⟨rfl, rfl, by simp [setTab], .read fd (w.tab fd) none :: (ls.map LineBuf.Out.parse).map (outAct w.tick fd), ?_⟩
    simp [World.add, World.tick, outAct, World.target]

/-- C67. A G-code file that cannot be opened is not reported: descriptor −1 is registered, and the first cycle
calls `FD_SET` with it, which is undefined. With a descriptor in the range of `FD_SET` the loop waits for it. -/
theorem C67_no_file : prepareSets (sendFile (-1)) = none ∧
    ∀ fd : Int, 0 ≤ fd → fd < fdSetSize → prepareSets (sendFile fd) = some true := by
  refine ⟨by decide, ?_⟩
  intro fd h1 h2
  simp [prepareSets, sendFile, h1, h2]

/-- C67. The number of connections to the status server is not limited: once one has a descriptor number of at
least `FD_SETSIZE`, the next cycle is undefined. -/
theorem C67_too_many (keys : List Int) (fd : Int) (hm : fd ∈ keys) (h : fdSetSize ≤ fd) : prepareSets keys = none := by
  unfold prepareSets
  rw [if_neg]
  intro hall
  rw [List.all_eq_true] at hall
  have := hall fd hm
  simp at this
  omega

theorem estop_text {e e' : EStop} {x y : List Char} (h : e.text ++ x = e'.text ++ y) : e = e' ∧ x = y := by
  cases e <;> cases e' <;> simp [EStop.text] at h ⊢ <;> exact h

theorem switch_text {e e' : Switch} {x y : List Char} (h : e.text ++ x = e'.text ++ y) : e = e' ∧ x = y := by
  cases e <;> cases e' <;> simp [Switch.text] at h ⊢ <;> exact h

theorem homing_text {e e' : Homing} {x y : List Char} (h : e.text ++ x = e'.text ++ y) : e = e' ∧ x = y := by
  cases e <;> cases e' <;> simp [Homing.text] at h ⊢ <;> exact h

theorem reply_texts {e e' : EStop} {p p' s s' : Switch} {h h' : Homing} {x y : List Char} (a b c d f g : List Char)
    (heq : a ++ (e.text ++ (b ++ (p.text ++ (c ++ (s.text ++ (d ++ (h.text ++ (f ++ (x ++ g))))))))) =
      a ++ (e'.text ++ (b ++ (p'.text ++ (c ++ (s'.text ++ (d ++ (h'.text ++ (f ++ (y ++ g)))))))))) :
    e = e' ∧ p = p' ∧ s = s' ∧ h = h' ∧ x = y := by
  obtain ⟨rfl, h1⟩ := estop_text (List.append_cancel_left heq)
  obtain ⟨rfl, h2⟩ := switch_text (List.append_cancel_left h1)
  obtain ⟨rfl, h3⟩ := switch_text (List.append_cancel_left h2)
  obtain ⟨rfl, h4⟩ := homing_text (List.append_cancel_left h3)
  exact ⟨rfl, rfl, rfl, rfl, List.append_cancel_right (List.append_cancel_left h4)⟩

/-- C67. The reply to 's' tells the states apart. -/
theorem C67_reply (e e' : EStop) (p p' s s' : Switch) (h h' : Homing) (m m' : Bool)
    (heq : statusReply e p s h m = statusReply e' p' s' h' m') : e = e' ∧ p = p' ∧ s = s' ∧ h = h' ∧ m = m' := by
  obtain ⟨h1, h2, h3, h4, h5⟩ := reply_texts _ _ _ _ _ _ heq
  refine ⟨h1, h2, h3, h4, ?_⟩
  cases m <;> cases m' <;> simp_all

end BeagleG.Server
