import Verif.Server.Props
/-!
# C67: the parser receives the programs of the clients one after the other
-/
namespace BeagleG.Server
open BeagleG.FdMux
open BeagleG.LineBuf (Byte Buf Streamer Session EndsStream chunksOf)

/-! ### Specification -/

/-- The events that concern the streamer. -/
def events (log : List Act) : List LineBuf.Event :=
  log.filterMap fun
    | .connect _ _ => some .connect
    | .read _ _ r => some (.readable r)
    | .idle _ _ => some .timeout
    | _ => none

/-- What the streamer says to the parser and the machine. -/
def outs (log : List Act) : List LineBuf.Out :=
  log.filterMap fun
    | .connect _ _ => some (.connect true)
    | .parse l _ _ => some (.parse l)
    | .finish _ => some .finished
    | .idle f _ => some (.idle f)
    | _ => none

/-- The G-code clients, in the order in which they were connected. -/
def connected (log : List Act) : List Nat :=
  log.filterMap fun
    | .connect _ c => some c
    | _ => none

/-- The bytes the streamer got from a client. -/
def received (c : Nat) (log : List Act) : List Byte :=
  (log.filterMap fun
    | .read _ (some (.client c')) (some d) => if c' = c then some d else none
    | _ => none).flatten

/-- The calls of the streamer, taken apart into connections: `cs` with the number of the client, and what
there is after the last one that ended. -/
structure SessionsOf (log : List Act) (cs : List (Nat × Session)) (n : Nat) : Prop where
  ok : ∀ p ∈ cs, p.2.Ok ∧ (chunksOf p.2.body).flatten = received p.1 log
  nodup : (connected log).Nodup
  rest : match (generalizing := false) current log with
    | none => connected log = cs.map (·.1) ∧
        events log = cs.flatMap (·.2.events) ++ List.replicate n LineBuf.Event.timeout
    | some (_, c) => ∃ body, connected log = cs.map (·.1) ++ [c] ∧
        events log = cs.flatMap (·.2.events) ++ (List.replicate n LineBuf.Event.timeout ++ .connect :: body) ∧
        (∀ e ∈ body, ¬ EndsStream e) ∧ (chunksOf body).flatten = received c log

/-! ### Proof -/

theorem events_append (a b : List Act) : events (a ++ b) = events a ++ events b := List.filterMap_append
theorem outs_append (a b : List Act) : outs (a ++ b) = outs a ++ outs b := List.filterMap_append
theorem connected_append (a b : List Act) : connected (a ++ b) = connected a ++ connected b := List.filterMap_append
theorem received_append (c : Nat) (a b : List Act) : received c (a ++ b) = received c a ++ received c b := by
  simp only [received, List.filterMap_append, List.flatten_append]

/-- The log is that of the streamer on its own, session by session. -/
structure SInv (s0 : Streamer) (w : World) : Prop where
  sim : ∃ o, s0.run (events w.log) = some (w.streamer, o) ∧ o.filter (· ≠ .close) = outs w.log
  bound : ∀ c ∈ connected w.log, c < w.next
  sess : ∃ cs n, SessionsOf w.log cs n

theorem chunksOf_append (a b : List LineBuf.Event) : chunksOf (a ++ b) = chunksOf a ++ chunksOf b := List.filterMap_append

/-- An act that is not about the streamer. -/
def Silent : Act → Prop
  | .connect _ _ | .read _ _ _ | .idle _ _ | .parse _ _ _ | .finish _ => False
  | _ => True

theorem silent_nil : ∀ (l : List Act), (∀ e ∈ l, Silent e) →
    events l = [] ∧ outs l = [] ∧ connected l = [] ∧ ∀ c, received c l = []
  | [], _ => ⟨rfl, rfl, rfl, fun _ => rfl⟩
  | e :: l, h => by
    obtain ⟨h1, h2, h3, h4⟩ := silent_nil l fun x hx => h x (List.mem_cons_of_mem _ hx)
    have he := h e List.mem_cons_self
    have a1 := events_append [e] l
    have a2 := outs_append [e] l
    have a3 := connected_append [e] l
    have a4 := fun c => received_append c [e] l
    rw [h1] at a1; rw [h2] at a2; rw [h3] at a3
    refine ⟨a1.trans ?_, a2.trans ?_, a3.trans ?_, fun c => (a4 c).trans ?_⟩ <;> (try rw [h4 c]) <;>
      cases e <;> first | exact absurd he id | rfl

theorem SInv.silent {s0 : Streamer} {w w' : World} (h : SInv s0 w) (l : List Act) (hl : ∀ e ∈ l, Silent e)
    (hlog : w'.log = w.log ++ l) (hs : w'.streamer = w.streamer) (hn : w.next ≤ w'.next)
    (hc : current w'.log = current w.log) : SInv s0 w' := by
  obtain ⟨h1, h2, h3, h4⟩ := silent_nil l hl
  have e1 : events w'.log = events w.log := by rw [hlog, events_append, h1, List.append_nil]
  have e2 : outs w'.log = outs w.log := by rw [hlog, outs_append, h2, List.append_nil]
  have e3 : connected w'.log = connected w.log := by rw [hlog, connected_append, h3, List.append_nil]
  have e4 : ∀ c, received c w'.log = received c w.log := by
    intro c; rw [hlog, received_append, h4, List.append_nil]
  refine ⟨?_, ?_, ?_⟩
  · rw [e1, e2, hs]; exact h.sim
  · intro c hc'
    rw [e3] at hc'
    have := h.bound c hc'; omega
  · obtain ⟨cs, n, hk⟩ := h.sess
    refine ⟨cs, n, ?_, ?_, ?_⟩
    · intro p hp; rw [e4]; exact hk.ok p hp
    · rw [e3]; exact hk.nodup
    · have := hk.rest
      rw [hc]
      rcases hcur : current w.log with _ | ⟨fd, c⟩
      · simp only [hcur] at this ⊢
        rw [e1, e3]; exact this
      · simp only [hcur] at this ⊢
        obtain ⟨body, b1, b2, b3, b4⟩ := this
        exact ⟨body, by rw [e3]; exact b1, by rw [e1]; exact b2, b3, by rw [e4]; exact b4⟩

theorem run_snoc {s0 s s' : Streamer} {es : List LineBuf.Event} {e : LineBuf.Event} {o o' : List LineBuf.Out}
    (h : s0.run es = some (s, o)) (he : s.step e = some (s', o')) : s0.run (es ++ [e]) = some (s', o ++ o') :=
  LineBuf.run_append _ _ _ _ _ _ _ h (by simp [Streamer.run, he])

theorem SInv.timeout {s0 : Streamer} {w : World} (h : SInv s0 w) (m : Option Obj) :
    SInv s0 ({ w with processing := false }.add [.idle w.processing m]) := by
  have hc : current (w.log ++ [.idle w.processing m]) = current w.log := by rw [current_snoc]; rfl
  refine ⟨?_, ?_, ?_⟩
  · obtain ⟨o, h1, h2⟩ := h.sim
    refine ⟨o ++ [.idle w.processing], ?_, ?_⟩
    · simp only [World.add]
      rw [events_append]
      exact run_snoc h1 rfl
    · simp only [World.add]
      rw [outs_append, List.filter_append, h2]
      rfl
  · intro c hc'
    simp only [World.add] at hc' ⊢
    rw [connected_append] at hc'
    exact h.bound c (by simpa [connected] using hc')
  · obtain ⟨cs, n, hk⟩ := h.sess
    simp only [World.add]
    have hr := hk.rest
    have e3 : connected (w.log ++ [.idle w.processing m]) = connected w.log := by
      rw [connected_append]; simp [connected]
    have e4 : ∀ c, received c (w.log ++ [.idle w.processing m]) = received c w.log := by
      intro c; rw [received_append]; simp [received]
    have e1 : events (w.log ++ [.idle w.processing m]) = events w.log ++ [.timeout] := by
      rw [events_append]; rfl
    rcases hcur : current w.log with _ | ⟨fd, c⟩
    · simp only [hcur] at hr
      refine ⟨cs, n + 1, ?_, ?_, ?_⟩
      · intro p hp; rw [e4]; exact hk.ok p hp
      · rw [e3]; exact hk.nodup
      · simp only [hc, hcur]
        rw [e3, e1, hr.2, List.replicate_succ', List.append_assoc]
        exact ⟨hr.1, rfl⟩
    · simp only [hcur] at hr
      obtain ⟨body, b1, b2, b3, b4⟩ := hr
      refine ⟨cs, n, ?_, ?_, ?_⟩
      · intro p hp; rw [e4]; exact hk.ok p hp
      · rw [e3]; exact hk.nodup
      · simp only [hc, hcur]
        refine ⟨body ++ [.timeout], by rw [e3]; exact b1, ?_, ?_, ?_⟩
        · rw [e1, b2]; simp
        · intro e he
          rcases List.mem_append.1 he with he | he
          · exact b3 e he
          · simp at he; subst he; exact id
        · rw [chunksOf_append, e4, ← b4]; simp [chunksOf]

theorem SInv.connect {s0 : Streamer} {w : World} (h : SInv s0 w) (fd : Nat) (w' : World) (socket : Nat)
    (hnone : current w.log = none) (hcf : w.connFd = none)
    (hlog : w'.log = w.log ++ [.accept socket fd w.next, .connect fd w.next]) (hn : w'.next = w.next + 1)
    (hs : w'.streamer = ⟨w.buf, true, w.processing⟩) (hrec : received w.next w.log = []) : SInv s0 w' := by
  have e1 : events w'.log = events w.log ++ [.connect] := by rw [hlog, events_append]; rfl
  have e2 : outs w'.log = outs w.log ++ [.connect true] := by rw [hlog, outs_append]; rfl
  have e3 : connected w'.log = connected w.log ++ [w.next] := by rw [hlog, connected_append]; rfl
  have e4 : ∀ c, received c w'.log = received c w.log := by
    intro c; rw [hlog, received_append]; simp [received]
  have hc : current w'.log = some (fd, w.next) := by rw [hlog, current_append]; rfl
  refine ⟨?_, ?_, ?_⟩
  · obtain ⟨o, h1, h2⟩ := h.sim
    refine ⟨o ++ [.connect true], ?_, ?_⟩
    · rw [e1, hs]
      refine run_snoc h1 ?_
      simp [Streamer.step, World.streamer, hcf]
    · rw [e2, List.filter_append, h2]; rfl
  · intro c hc'
    rw [e3] at hc'
    rcases List.mem_append.1 hc' with hc' | hc'
    · have := h.bound c hc'; omega
    · simp at hc'; omega
  · obtain ⟨cs, n, hk⟩ := h.sess
    have hr := hk.rest
    simp only [hnone] at hr
    refine ⟨cs, n, ?_, ?_, ?_⟩
    · intro p hp; rw [e4]; exact hk.ok p hp
    · rw [e3, List.nodup_append]
      refine ⟨hk.nodup, by simp, ?_⟩
      intro a ha b hb
      simp at hb; subst hb
      have := h.bound a ha; omega
    · simp only [hc]
      refine ⟨[], by rw [e3, hr.1], by rw [e1, hr.2]; simp, by simp, ?_⟩
      rw [e4, hrec]; rfl

theorem filterMap_outAct (w : World) (fd : Nat) (ls : List (List Byte)) :
    outs ((ls.map LineBuf.Out.parse).map (outAct w fd)) = ls.map .parse ∧
    events ((ls.map LineBuf.Out.parse).map (outAct w fd)) = [] ∧
    connected ((ls.map LineBuf.Out.parse).map (outAct w fd)) = [] ∧
    ∀ c, received c ((ls.map LineBuf.Out.parse).map (outAct w fd)) = [] := by
  induction ls with
  | nil => exact ⟨rfl, rfl, rfl, fun _ => rfl⟩
  | cons l ls ih =>
    obtain ⟨h1, h2, h3, h4⟩ := ih
    refine ⟨?_, ?_, ?_, ?_⟩
    · simp only [List.map_cons, outs, outAct, List.filterMap_cons] at h1 ⊢
      rw [h1]
    · simp only [List.map_cons, events, outAct, List.filterMap_cons] at h2 ⊢
      exact h2
    · simp only [List.map_cons, connected, outAct, List.filterMap_cons] at h3 ⊢
      exact h3
    · intro c
      have := h4 c
      simp only [List.map_cons, received, outAct, List.filterMap_cons] at this ⊢
      exact this

theorem SInv.read {s0 : Streamer} {w w' : World} (h : SInv s0 w) {fd c : Nat} (r : Option (List Byte)) (s : Streamer)
    (ls : List (List Byte)) (hcur : current w.log = some (fd, c))
    (hst : w.streamer.step (.readable r) = some (s, ls.map .parse)) (hr : r.getD [] ≠ [])
    (hlog : w'.log = w.log ++ (.read fd (some (.client c)) r :: (ls.map LineBuf.Out.parse).map (outAct w fd)))
    (hn : w'.next = w.next) (hs : w'.streamer = s) (hc : current w'.log = some (fd, c)) : SInv s0 w' := by
  obtain ⟨a1, a2, a3, a4⟩ := filterMap_outAct w fd ls
  have hcons : ∀ l : List Act, (Act.read fd (some (.client c)) r :: l) = [Act.read fd (some (.client c)) r] ++ l := fun _ => rfl
  have e1 : events w'.log = events w.log ++ [.readable r] := by
    rw [hlog, hcons, events_append, events_append, a2]; rfl
  have e2 : outs w'.log = outs w.log ++ ls.map .parse := by
    rw [hlog, hcons, outs_append, outs_append, a1]; rfl
  have e3 : connected w'.log = connected w.log := by
    rw [hlog, hcons, connected_append, connected_append, a3]; simp [connected]
  have e4 : ∀ c', received c' w'.log = received c' w.log ++ if c = c' then r.getD [] else [] := by
    intro c'
    rw [hlog, hcons, received_append, received_append, a4, List.append_nil]
    congr 1
    cases r with
    | none => simp [received]
    | some d =>
      simp only [received, List.filterMap_cons, List.filterMap_nil, Option.getD_some]
      split <;> rename_i hh
      · split at hh
        · simp at hh
        · rename_i hne; rw [if_neg hne]; rfl
      · split at hh
        · rename_i he
          injection hh with hh
          rw [if_pos he, ← hh]; simp
        · simp at hh
  obtain ⟨cs, n, hk⟩ := h.sess
  have hrest := hk.rest
  simp only [hcur] at hrest
  obtain ⟨body, b1, b2, b3, b4⟩ := hrest
  have hnd := hk.nodup
  rw [b1, List.nodup_append] at hnd
  refine ⟨?_, ?_, cs, n, ?_, ?_, ?_⟩
  · obtain ⟨o, h1, h2⟩ := h.sim
    refine ⟨o ++ ls.map .parse, ?_, ?_⟩
    · rw [e1, hs]; exact run_snoc h1 hst
    · rw [e2, List.filter_append, h2]
      congr 1
      rw [List.filter_eq_self]
      intro x hx
      obtain ⟨l, -, rfl⟩ := List.mem_map.1 hx
      simp
  · intro x hx
    rw [e3] at hx
    rw [hn]; exact h.bound x hx
  · intro p hp
    rw [e4]
    have : c ≠ p.1 := by
      have := hnd.2.2 p.1 (List.mem_map.2 ⟨p, hp, rfl⟩) c (by simp)
      exact Ne.symm this
    rw [if_neg this, List.append_nil]
    exact hk.ok p hp
  · rw [e3]; exact hk.nodup
  · simp only [hc]
    refine ⟨body ++ [.readable r], by rw [e3]; exact b1, by rw [e1, b2]; simp, ?_, ?_⟩
    · intro e he
      rcases List.mem_append.1 he with he | he
      · exact b3 e he
      · simp at he; subst he; exact hr
    · rw [chunksOf_append, List.flatten_append, b4, e4, if_pos rfl]
      congr 1
      cases r with
      | none => exact absurd rfl hr
      | some d => simp [chunksOf]

theorem SInv.readEnd {s0 : Streamer} {w w' : World} (h : SInv s0 w) {fd c : Nat} (r : Option (List Byte)) (s : Streamer)
    (ls : List (List Byte)) (hcur : current w.log = some (fd, c))
    (hst : w.streamer.step (.readable r) = some (s, ls.map .parse ++ [.finished, .close])) (hr : r.getD [] = [])
    (hlog : w'.log = w.log ++ (.read fd (some (.client c)) r ::
      (ls.map LineBuf.Out.parse ++ [LineBuf.Out.finished, .close]).map (outAct w fd)))
    (hn : w'.next = w.next) (hs : w'.streamer = s) (hc : current w'.log = none) : SInv s0 w' := by
  obtain ⟨a1, a2, a3, a4⟩ := filterMap_outAct w fd ls
  have hcons : ∀ l : List Act, (Act.read fd (some (.client c)) r :: l) = [Act.read fd (some (.client c)) r] ++ l := fun _ => rfl
  have hlog' : w'.log = w.log ++ ([Act.read fd (some (.client c)) r] ++ ((ls.map LineBuf.Out.parse).map (outAct w fd) ++
      [.finish (w.target w.msgOut), .close fd (w.tab fd)])) := by
    rw [hlog, List.map_append]; rfl
  have e1 : events w'.log = events w.log ++ [.readable r] := by
    rw [hlog', events_append, events_append, events_append, a2]; rfl
  have e2 : outs w'.log = outs w.log ++ (ls.map .parse ++ [.finished]) := by
    rw [hlog', outs_append, outs_append, outs_append, a1]; rfl
  have e3 : connected w'.log = connected w.log := by
    rw [hlog', connected_append, connected_append, connected_append, a3]; simp [connected]
  have e4 : ∀ c', received c' w'.log = received c' w.log := by
    intro c'
    rw [hlog', received_append, received_append, received_append, a4]
    have : received c' [Act.read fd (some (.client c)) r] = [] := by
      cases r with
      | none => simp [received]
      | some d =>
        simp at hr; subst hr
        simp only [received, List.filterMap_cons, List.filterMap_nil]
        split <;> rename_i hh
        · rfl
        · split at hh
          · injection hh with hh; subst hh; rfl
          · simp at hh
    rw [this]; simp [received]
  obtain ⟨cs, n, hk⟩ := h.sess
  have hrest := hk.rest
  simp only [hcur] at hrest
  obtain ⟨body, b1, b2, b3, b4⟩ := hrest
  refine ⟨?_, ?_, cs ++ [(c, ⟨n, body, .readable r⟩)], 0, ?_, ?_, ?_⟩
  · obtain ⟨o, h1, h2⟩ := h.sim
    refine ⟨_, by rw [e1, hs]; exact run_snoc h1 hst, ?_⟩
    rw [e2, List.filter_append, h2, List.filter_append]
    congr 1
    congr 1
    rw [List.filter_eq_self]
    intro x hx
    obtain ⟨l, -, rfl⟩ := List.mem_map.1 hx
    simp
  · intro x hx
    rw [e3] at hx
    rw [hn]; exact h.bound x hx
  · intro p hp
    rw [e4]
    rcases List.mem_append.1 hp with hp | hp
    · exact hk.ok p hp
    · simp at hp; subst hp
      exact ⟨⟨b3, hr⟩, b4⟩
  · rw [e3]; exact hk.nodup
  · simp only [hc]
    refine ⟨by rw [e3, b1]; simp, ?_⟩
    rw [e1, b2]
    simp [Session.events]

theorem current_connected : ∀ (l : List Act) (cur : Option (Nat × Nat)) (fd c : Nat),
    l.foldl curStep cur = some (fd, c) → c ∈ connected l ∨ cur = some (fd, c)
  | [], cur, fd, c, h => Or.inr h
  | e :: l, cur, fd, c, h => by
    have hl : ∀ x, x ∈ connected l → x ∈ connected (e :: l) := by
      intro x hx
      have := connected_append [e] l
      rw [show e :: l = [e] ++ l from rfl, this]
      exact List.mem_append_right _ hx
    rcases current_connected l (curStep cur e) fd c h with h1 | h1
    · exact Or.inl (hl c h1)
    · cases e <;> simp only [curStep] at h1 <;> try exact Or.inr h1
      · simp at h1
        obtain ⟨-, rfl⟩ := h1
        left; simp [connected]
      · split at h1
        · simp at h1
        · exact Or.inr h1

theorem received_nil {log : List Act} (hf : Fine log) {c : Nat} (hc : c ∉ connected log) : received c log = [] := by
  unfold received
  rw [List.flatten_eq_nil_iff]
  intro d hd
  rw [List.mem_filterMap] at hd
  obtain ⟨e, he, hd⟩ := hd
  split at hd
  · rename_i fd c' d'
    split at hd
    · rename_i hcc; subst hcc
      obtain ⟨a, b, rfl⟩ := List.append_of_mem he
      obtain ⟨c2, hcur, hc2⟩ := hf a _ b rfl
      simp at hc2; subst hc2
      rcases current_connected a none _ _ hcur with h1 | h1
      · exact absurd (by rw [connected_append]; exact List.mem_append_left _ h1) hc
      · simp at h1
    · simp at hd
  · simp at hd

/-- The client that is connected does not change if neither the descriptor of the streamer nor what it refers
to does. -/
theorem current_eq {R R' : Nat → Handler → Prop} {w w' : World} (h : Inv R w) (h' : Inv R' w')
    (hc : w'.connFd = w.connFd) (ht : ∀ fd, w.connFd = some fd → w'.tab fd = w.tab fd) :
    current w'.log = current w.log := by
  have key : ∀ x, current w'.log = some x ↔ current w.log = some x := by
    rintro ⟨fd, c⟩
    rw [h.cur, h'.cur, hc]
    constructor
    · rintro ⟨h1, h2⟩; exact ⟨h1, by rw [← ht fd h1]; exact h2⟩
    · rintro ⟨h1, h2⟩; exact ⟨h1, by rw [ht fd h1]; exact h2⟩
  rcases hx : current w.log with _ | x
  · rw [Option.eq_none_iff_forall_ne_some]
    intro x hx'
    rw [(key x).1 hx'] at hx; simp at hx
  · exact (key x).2 hx

/-- The handlers keep the streamer in step with its model. -/
theorem handle_sess {R : Nat → Handler → Prop} {w w' : World} {s0 : Streamer} (h : Inv R w) (hs : SInv s0 w) (fd : Nat)
    (g : Handler) (hr : R fd g ∨ g = .timeout) (hw : (handle g w).2.2 = some w') : SInv s0 w' := by
  obtain ⟨R', h'⟩ : ∃ R', Inv R' w' := by
    rcases handle_effect h fd g hr hw with ⟨-, -, hi⟩ | ⟨-, _, _, -, -, hi⟩ | ⟨-, -, hi⟩
    · exact ⟨_, hi⟩
    · exact ⟨_, hi⟩
    · exact ⟨_, hi⟩
  cases g with
  | timeout =>
    simp only [handle, timeout] at hw
    injection hw with hw
    subst hw
    exact hs.timeout _
  | gcodeListen socket =>
    simp only [handle, gcodeListen] at hw
    rcases ha : w.tick.accepted w.answer with _ | nfd
    · simp only [ha] at hw
      injection hw with hw
      refine hs.silent [.acceptFail socket] (by simp [Silent]) (by rw [← hw]; rfl) (by rw [← hw]; rfl)
        (by rw [← hw]; exact Nat.le_refl _) (current_eq h h' (by rw [← hw]; rfl) (by rw [← hw]; intro _ _; rfl))
    · have hfree := (accepted_free ha).2
      have hfree : w.tab nfd = none := hfree
      have hne : ∀ f, w.connFd = some f → f ≠ nfd := by
        rintro f hf rfl
        exact h.open_ (h.conn f hf) hfree
      simp only [ha] at hw
      split at hw
      · injection hw with hw
        refine hs.silent [.accept socket nfd w.next, .abandon nfd w.next] (by simp [Silent]) ?_ (by rw [← hw]; rfl) ?_
          (current_eq h h' (by rw [← hw]; rfl) ?_)
        · rw [← hw]; simp [World.add, World.tick]
        · rw [← hw]; exact Nat.le_succ _
        · rw [← hw]; intro f hf; simp [World.add, setTab, World.tick, hne f hf]
      split at hw
      · injection hw with hw
        refine hs.silent [.accept socket nfd w.next, .abandon nfd w.next] (by simp [Silent]) ?_ (by rw [← hw]; rfl) ?_
          (current_eq h h' (by rw [← hw]; rfl) ?_)
        · rw [← hw]; simp [World.add, World.tick]
        · rw [← hw]; exact Nat.le_succ _
        · rw [← hw]; intro f hf; simp [World.add, setTab, World.tick, hne f hf]
      split at hw
      · injection hw with hw
        refine hs.silent [.accept socket nfd w.next, .refuse nfd w.next, .close nfd (some (.client w.next))]
          (by simp [Silent]) ?_ (by rw [← hw]; rfl) ?_ (current_eq h h' (by rw [← hw]; rfl) ?_)
        · rw [← hw]; simp [World.add, World.tick, setTab]
        · rw [← hw]; exact Nat.le_succ _
        · rw [← hw]; intro f hf; simp [World.add, setTab, World.tick, hne f hf]
      · rename_i hns
        have hns : w.connFd = none := by simpa [World.add, World.tick] using hns
        have hcond : (World.add { w.tick with
            tab := setTab w.tick.tab nfd (some (Obj.client w.tick.next)), next := w.tick.next + 1 }
            [Act.accept socket nfd w.tick.next]).connFd.isSome = false := by
          simp [World.add, World.tick, hns]
        simp only [connectStream, hcond, Bool.false_eq_true, if_false] at hw
        injection hw with hw
        refine hs.connect nfd w' socket (h.noClient hns) hns ?_ (by rw [← hw]; rfl) ?_ ?_
        · rw [← hw]; simp [World.add, World.tick]
        · rw [← hw]; simp [World.streamer, World.add, World.tick]
        · refine received_nil h.fine ?_
          intro hc
          have := hs.bound _ hc
          omega
  | statusListen socket =>
    simp only [handle, statusListen] at hw
    rcases ha : w.tick.accepted w.answer with _ | nfd
    · simp only [ha] at hw
      injection hw with hw
      refine hs.silent [.acceptFail socket] (by simp [Silent]) (by rw [← hw]; rfl) (by rw [← hw]; rfl)
        (by rw [← hw]; exact Nat.le_refl _) (current_eq h h' (by rw [← hw]; rfl) (by rw [← hw]; intro _ _; rfl))
    · have hfree := (accepted_free ha).2
      have hfree : w.tab nfd = none := hfree
      have hne : ∀ f, w.connFd = some f → f ≠ nfd := by
        rintro f hf rfl
        exact h.open_ (h.conn f hf) hfree
      simp only [ha] at hw
      injection hw with hw
      refine hs.silent [.accept socket nfd w.next, .watch nfd w.next] (by simp [Silent]) ?_ (by rw [← hw]; rfl) ?_
        (current_eq h h' (by rw [← hw]; rfl) ?_)
      · rw [← hw]; simp [World.add, World.tick]
      · rw [← hw]; exact Nat.le_succ _
      · rw [← hw]; intro f hf; simp [World.add, setTab, World.tick, hne f hf]
  | statusClient f =>
    rcases hr with hr | hr
    · obtain ⟨rfl, hcf, -⟩ := h.reg fd _ hr
      simp only [handle, statusClient] at hw
      rcases hd : (w.answer.read.getD []).head? with _ | q
      · simp only [hd] at hw
        injection hw with hw
        refine hs.silent [.query f (w.tab f) none, .close f (w.tab f)] (by simp [Silent]) (by rw [← hw]; rfl)
          (by rw [← hw]; rfl) (by rw [← hw]; exact Nat.le_refl _) (current_eq h h' (by rw [← hw]; rfl) ?_)
        rw [← hw]
        intro x hx
        have : x ≠ f := by rintro rfl; exact hcf hx
        simp [World.add, setTab, World.tick, this]
      · simp only [hd] at hw
        injection hw with hw
        refine hs.silent _ ?_ (by rw [← hw]; rfl)
          (by rw [← hw]; rfl) (by rw [← hw]; exact Nat.le_refl _)
          (current_eq h h' (by rw [← hw]; rfl) (by rw [← hw]; intro _ _; rfl))
        intro e he
        split at he
        · simp at he; rcases he with rfl | rfl <;> trivial
        · simp at he; subst he; trivial
    · simp at hr
  | stream =>
    rcases hr with hr | hr
    · obtain ⟨hcf, c, hc⟩ := h.reg fd _ hr
      have hcur : current w.log = some (fd, c) := (h.cur fd c).2 ⟨hcf, hc⟩
      simp only [handle, readData, hcf] at hw
      have hst0 : w.tick.streamer = w.streamer := rfl
      rw [hst0] at hw
      rcases hst : w.streamer.step (.readable w.answer.read) with _ | ⟨s, o⟩
      · simp [hst] at hw
      simp only [hst] at hw
      have hsc : w.streamer.connected = true := by simp [World.streamer, hcf]
      rcases step_readable hsc hst with ⟨hne, hs1, -, ls, rfl⟩ | ⟨hne, hs1, -, ls, rfl⟩
      · simp only [hs1, if_true] at hw
        injection hw with hw
        refine hs.read w.answer.read s ls hcur hst hne ?_ (by rw [← hw]; rfl) ?_ ?_
        · rw [← hw]
          show w.log ++ (Act.read fd (w.tab fd) w.answer.read :: _) = _
          rw [hc]; rfl
        · rw [← hw]
          obtain ⟨b, cn, p⟩ := s
          simp only at hs1
          subst hs1
          simp [World.streamer, World.add, World.tick, hcf]
        · rw [current_eq h h' (by rw [← hw]; rfl) (by rw [← hw]; intro _ _; rfl)]; exact hcur
      · simp only [hs1, Bool.false_eq_true, if_false] at hw
        injection hw with hw
        refine hs.readEnd w.answer.read s ls hcur hst hne ?_ (by rw [← hw]; rfl) ?_ ?_
        · rw [← hw]
          show w.log ++ (Act.read fd (w.tab fd) w.answer.read :: _) = _
          rw [hc]; rfl
        · rw [← hw]
          obtain ⟨b, cn, p⟩ := s
          simp only at hs1
          subst hs1
          simp [World.streamer, World.add]
        · exact h'.noClient (by rw [← hw])
    · simp at hr

end BeagleG.Server
