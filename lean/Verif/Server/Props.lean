import Verif.Server.Model
import Verif.FdMux.Induct
import Verif.LineBuf.StreamerProps
import Mathlib.Tactic.Tauto
/-!
# C67: one G-code client at a time
-/
namespace BeagleG.Server
open BeagleG.FdMux
open BeagleG.LineBuf (Byte Buf Streamer Session)

/-! ### Specification -/

/-- The connected client after one more act. -/
def curStep (cur : Option (Nat × Nat)) : Act → Option (Nat × Nat)
  | .connect fd c => some (fd, c)
  | .close fd _ => if cur.map (·.1) = some fd then none else cur
  | _ => cur

/-- The client that is connected after these acts, with its descriptor: the last one that was connected, unless
its descriptor was closed since. -/
def current (log : List Act) : Option (Nat × Nat) := log.foldl curStep none

/-- Messages of this kind go to client `c`, or nowhere. -/
def ToClient (c : Nat) (msg : Option Obj) : Prop := msg = none ∨ msg = some (.client c)

/-- What has to hold of an act, given the acts before. -/
def ActOk (before : List Act) : Act → Prop
  | .accept _ _ c => ∀ s fd, Act.accept s fd c ∉ before
  | .abandon fd c => ∃ s, before.getLast? = some (.accept s fd c)
  | .connect fd c => current before = none ∧ ∃ s, before.getLast? = some (.accept s fd c)
  | .refuse fd c => (∃ fd' c', current before = some (fd', c') ∧ c' ≠ c) ∧ ∃ s, before.getLast? = some (.accept s fd c)
  | .watch fd c => ∃ s, before.getLast? = some (.accept s fd c)
  | .read fd o _ => ∃ c, current before = some (fd, c) ∧ o = some (.client c)
  | .parse _ p m => ∃ fd c, current before = some (fd, c) ∧ ToClient c p ∧ ToClient c m ∧ p = m
  | .finish m => ∃ fd c, current before = some (fd, c) ∧ ToClient c m
  | .idle _ m => ∀ fd c, current before = some (fd, c) → ToClient c m
  | .query fd o _ => ∃ c, o = some (.client c) ∧ Act.watch fd c ∈ before ∧ ∀ fd', current before ≠ some (fd', c)
  | .reply fd o q => before.getLast? = some (.query fd o (some q))
  | .close _ o => ∃ c, o = some (.client c)
  | _ => True

/-- Every act is in order, given those before. -/
def Fine (log : List Act) : Prop := ∀ a e b, log = a ++ e :: b → ActOk a e

/-! ### Proof -/

theorem current_append (a b : List Act) : current (a ++ b) = b.foldl curStep (current a) := by
  simp [current]

theorem fine_snoc {log : List Act} {e : Act} (h : Fine log) (he : ActOk log e) : Fine (log ++ [e]) := by
  intro a x b hab
  rcases List.eq_nil_or_concat b with rfl | ⟨b', y, rfl⟩
  · have := List.append_inj' hab rfl
    obtain ⟨rfl, h2⟩ := this
    injection h2 with h2 _
    subst h2; exact he
  · rw [List.concat_eq_append, ← List.cons_append, ← List.append_assoc] at hab
    have := List.append_inj' hab rfl
    exact h a x b' this.1

/-- The registrations and the world belong together. `R fd h`: the handler is registered for the descriptor. -/
def RegOk (w : World) (fd : Nat) : Handler → Prop
  | .gcodeListen s => s = fd ∧ w.tab fd = some .socket
  | .statusListen s => s = fd ∧ w.tab fd = some .socket
  | .statusClient g => g = fd ∧ w.connFd ≠ some fd ∧ ∃ c, w.tab fd = some (.client c) ∧ Act.watch fd c ∈ w.log
  | .stream => w.connFd = some fd ∧ ∃ c, w.tab fd = some (.client c)
  | .timeout => False

/-- Registrations and world belong together. -/
structure Inv (R : Nat → Handler → Prop) (w : World) : Prop where
  unique : ∀ fd h g, R fd h → R fd g → h = g
  reg : ∀ fd h, R fd h → RegOk w fd h
  conn : ∀ fd, w.connFd = some fd → R fd .stream
  ids : ∀ fd c, w.tab fd = some (.client c) → c < w.next
  inj : ∀ fd fd' c, w.tab fd = some (.client c) → w.tab fd' = some (.client c) → fd = fd'
  msg : ∀ fd, w.connFd = some fd → w.msgOut = w.msgStream ∧ (w.msgOut = none ∨ w.msgOut = some fd)
  cur : ∀ fd c, current w.log = some (fd, c) ↔ w.connFd = some fd ∧ w.tab fd = some (.client c)
  fine : Fine w.log
  kept : ∀ fd c, w.tab fd = some (.client c) → (∃ h, R fd h) ∨ Act.abandon fd c ∈ w.log
  acc : ∀ s fd c, Act.accept s fd c ∈ w.log → c < w.next

theorem Inv.open_ {R : Nat → Handler → Prop} {w : World} (h : Inv R w) {fd : Nat} {g : Handler} (hg : R fd g) :
    w.tab fd ≠ none := by
  have := h.reg fd g hg
  cases g <;> simp [RegOk] at this
  · simp [this.2]
  · simp [this.2]
  · obtain ⟨-, -, c, hc, -⟩ := this; simp [hc]
  · obtain ⟨-, c, hc⟩ := this; simp [hc]

theorem Inv.client {R : Nat → Handler → Prop} {w : World} (h : Inv R w) {fd : Nat} (hc : w.connFd = some fd) :
    ∃ c, w.tab fd = some (.client c) ∧ current w.log = some (fd, c) := by
  have := h.reg fd _ (h.conn fd hc)
  obtain ⟨-, c, hc'⟩ := this
  exact ⟨c, hc', (h.cur fd c).2 ⟨hc, hc'⟩⟩

theorem Inv.noClient {R : Nat → Handler → Prop} {w : World} (h : Inv R w) (hc : w.connFd = none) :
    current w.log = none := by
  rw [Option.eq_none_iff_forall_ne_some]
  rintro ⟨fd, c⟩ hcc
  have := (h.cur fd c).1 hcc
  simp [hc] at this

theorem current_snoc (a : List Act) (e : Act) : current (a ++ [e]) = curStep (current a) e := by
  simp [current]

/-- An act that changes neither who is connected nor anything else. -/
theorem Inv.note {R : Nat → Handler → Prop} {w : World} (h : Inv R w) (e : Act)
    (he : ∀ cur, curStep cur e = cur) (hna : ∀ s fd c, e ≠ .accept s fd c) (hok : ActOk w.log e) :
    Inv R (w.add [e]) := by
  have hc : current (w.log ++ [e]) = current w.log := by rw [current_snoc, he]
  refine ⟨h.unique, ?_, h.conn, h.ids, h.inj, h.msg, ?_, fine_snoc h.fine hok, ?_, ?_⟩
  · intro fd g hg
    have := h.reg fd g hg
    cases g <;> simp only [RegOk, World.add] at this ⊢
    · exact this
    · exact this
    · obtain ⟨h1, h2, c, h3, h4⟩ := this
      exact ⟨h1, h2, c, h3, List.mem_append_left _ h4⟩
    · exact this
  · intro fd c
    simp only [World.add]
    rw [hc]; exact h.cur fd c
  · intro fd c hcl
    rcases h.kept fd c hcl with h1 | h1
    · exact Or.inl h1
    · exact Or.inr (List.mem_append_left _ h1)
  · intro s fd c hm
    rcases List.mem_append.1 hm with hm | hm
    · exact h.acc s fd c hm
    · exact absurd (List.mem_singleton.1 hm).symm (hna s fd c)

theorem Inv.tick {R : Nat → Handler → Prop} {w : World} (h : Inv R w) : Inv R w.tick :=
  ⟨h.unique, h.reg, h.conn, h.ids, h.inj, h.msg, h.cur, h.fine, h.kept, h.acc⟩

/-- Except for the descriptor `fd`, which is open but not registered, all is as it should be. -/
structure Inv' (R : Nat → Handler → Prop) (w : World) (fd c : Nat) : Prop where
  unique : ∀ fd h g, R fd h → R fd g → h = g
  reg : ∀ fd h, R fd h → RegOk w fd h
  conn : ∀ fd, w.connFd = some fd → R fd .stream
  ids : ∀ fd c, w.tab fd = some (.client c) → c < w.next
  inj : ∀ fd fd' c, w.tab fd = some (.client c) → w.tab fd' = some (.client c) → fd = fd'
  msg : ∀ fd, w.connFd = some fd → w.msgOut = w.msgStream ∧ (w.msgOut = none ∨ w.msgOut = some fd)
  cur : ∀ fd c, current w.log = some (fd, c) ↔ w.connFd = some fd ∧ w.tab fd = some (.client c)
  fine : Fine w.log
  kept : ∀ fd' c, fd' ≠ fd → w.tab fd' = some (.client c) → (∃ h, R fd' h) ∨ Act.abandon fd' c ∈ w.log
  here : w.tab fd = some (.client c)
  free : ∀ h, ¬ R fd h
  acc : ∀ s fd c, Act.accept s fd c ∈ w.log → c < w.next
  last : ∃ s, w.log.getLast? = some (.accept s fd c)

theorem Inv.accept {R : Nat → Handler → Prop} {w : World} (h : Inv R w) (socket fd : Nat) (hf : w.tab fd = none) :
    Inv' R ({ w with tab := setTab w.tab fd (some (.client w.next)), next := w.next + 1 }.add
      [.accept socket fd w.next]) fd w.next := by
  have hfree : ∀ h, ¬ R fd h := fun g hg => h.open_ hg hf
  have hne : ∀ {fd' g}, R fd' g → fd' ≠ fd := by rintro fd' g hg rfl; exact hfree g hg
  have hcf : w.connFd ≠ some fd := fun e => hfree _ (h.conn fd e)
  have hacc : ∀ s fd, Act.accept s fd w.next ∉ w.log := fun s fd hm => by
    have := h.acc s fd _ hm
    omega
  refine ⟨h.unique, ?_, h.conn, ?_, ?_, h.msg, ?_, fine_snoc h.fine hacc, ?_, ?_, hfree, ?_, ⟨socket, by simp [World.add]⟩⟩
  · intro fd' g hg
    have := h.reg fd' g hg
    have hn := hne hg
    cases g <;> simp only [RegOk, World.add, setTab, hn, if_false] at this ⊢
    · exact this
    · exact this
    · obtain ⟨h1, h2, c, h3, h4⟩ := this
      exact ⟨h1, h2, c, h3, List.mem_append_left _ h4⟩
    · exact this
  · intro fd' c hc
    simp only [World.add, setTab] at hc ⊢
    split at hc
    · simp at hc; omega
    · have := h.ids _ _ hc; omega
  · intro a b c ha hb
    simp only [World.add, setTab] at ha hb
    split at ha <;> split at hb
    · simp_all
    · rename_i e1 e2
      simp at ha
      have := h.ids _ _ hb
      omega
    · rename_i e1 e2
      simp at hb
      have := h.ids _ _ ha
      omega
    · exact h.inj _ _ _ ha hb
  · intro fd' c
    simp only [World.add]
    rw [current_snoc]
    simp only [curStep]
    rw [h.cur]
    simp only [setTab]
    constructor
    · rintro ⟨h1, h2⟩
      have : fd' ≠ fd := by rintro rfl; exact hcf h1
      simp [h1, h2, this]
    · rintro ⟨h1, h2⟩
      have : fd' ≠ fd := by rintro rfl; exact hcf h1
      simp [this] at h2
      exact ⟨h1, h2⟩
  · intro fd' c hn hc
    simp only [World.add, setTab, hn, if_false] at hc ⊢
    rcases h.kept fd' c hc with h1 | h1
    · exact Or.inl h1
    · exact Or.inr (List.mem_append_left _ h1)
  · simp [World.add, setTab]
  · intro s fd' c hm
    simp only [World.add] at hm ⊢
    rcases List.mem_append.1 hm with hm | hm
    · have := h.acc s fd' c hm; omega
    · simp at hm; omega

theorem Inv'.connFd_ne {R : Nat → Handler → Prop} {w : World} {fd c : Nat} (h : Inv' R w fd c) : w.connFd ≠ some fd :=
  fun e => h.free _ (h.conn fd e)

theorem Inv'.abandon {R : Nat → Handler → Prop} {w : World} {fd c : Nat} (h : Inv' R w fd c) :
    Inv R (w.add [.abandon fd c]) := by
  refine ⟨h.unique, ?_, h.conn, h.ids, h.inj, h.msg, ?_, fine_snoc h.fine h.last, ?_, ?_⟩
  · intro fd g hg
    have := h.reg fd g hg
    cases g <;> simp only [RegOk, World.add] at this ⊢
    · exact this
    · exact this
    · obtain ⟨h1, h2, c, h3, h4⟩ := this
      exact ⟨h1, h2, c, h3, List.mem_append_left _ h4⟩
    · exact this
  · intro fd' c'
    simp only [World.add]
    rw [current_snoc]
    exact h.cur fd' c'
  · intro fd' c' hc
    simp only [World.add] at hc ⊢
    by_cases hn : fd' = fd
    · subst hn
      rw [h.here] at hc
      simp at hc
      subst hc
      exact Or.inr (by simp)
    · rcases h.kept fd' c' hn hc with h1 | h1
      · exact Or.inl h1
      · exact Or.inr (List.mem_append_left _ h1)
  · intro s fd' c' hm
    exact h.acc s fd' c' (by simpa [World.add] using hm)

theorem Inv'.refuse {R : Nat → Handler → Prop} {w : World} {fd c : Nat} (h : Inv' R w fd c)
    (hs : w.connFd.isSome = true) :
    Inv R ({ w with tab := setTab w.tab fd none }.add [.refuse fd c, .close fd (w.tab fd)]) := by
  obtain ⟨fd0, h0⟩ := Option.isSome_iff_exists.1 hs
  obtain ⟨-, c0, hc0⟩ := h.reg fd0 _ (h.conn fd0 h0)
  have hcur : current w.log = some (fd0, c0) := (h.cur fd0 c0).2 ⟨h0, hc0⟩
  have hne : fd0 ≠ fd := by rintro rfl; exact h.connFd_ne h0
  have hcc : c0 ≠ c := by
    rintro rfl
    exact hne (h.inj _ _ _ hc0 h.here)
  have hc1 : current (w.log ++ [.refuse fd c]) = some (fd0, c0) := by rw [current_snoc]; exact hcur
  have hc2 : current (w.log ++ [.refuse fd c] ++ [.close fd (w.tab fd)]) = some (fd0, c0) := by
    rw [current_snoc, hc1]
    simp [curStep, hne]
  have happ : w.log ++ [Act.refuse fd c, .close fd (w.tab fd)] = w.log ++ [.refuse fd c] ++ [.close fd (w.tab fd)] := by
    simp
  refine ⟨h.unique, ?_, h.conn, ?_, ?_, h.msg, ?_, ?_, ?_, ?_⟩
  · intro fd' g hg
    have := h.reg fd' g hg
    have hn : fd' ≠ fd := by rintro rfl; exact h.free g hg
    cases g <;> simp only [RegOk, World.add, setTab, hn, if_false] at this ⊢
    · exact this
    · exact this
    · obtain ⟨h1, h2, c, h3, h4⟩ := this
      exact ⟨h1, h2, c, h3, List.mem_append_left _ h4⟩
    · exact this
  · intro fd' c' hc
    simp only [World.add, setTab] at hc ⊢
    split at hc
    · simp at hc
    · exact h.ids _ _ hc
  · intro a b c ha hb
    simp only [World.add, setTab] at ha hb
    split at ha
    · simp at ha
    · split at hb
      · simp at hb
      · exact h.inj _ _ _ ha hb
  · intro fd' c'
    simp only [World.add]
    rw [happ, hc2, ← hcur, h.cur]
    simp only [setTab]
    constructor
    · rintro ⟨h1, h2⟩
      have : fd' ≠ fd := by rintro rfl; exact h.connFd_ne h1
      simp [h1, h2, this]
    · rintro ⟨h1, h2⟩
      have : fd' ≠ fd := by rintro rfl; exact h.connFd_ne h1
      simp [this] at h2
      exact ⟨h1, h2⟩
  · simp only [World.add]
    rw [happ]
    refine fine_snoc (fine_snoc h.fine ?_) ?_
    · exact ⟨⟨fd0, c0, hcur, hcc⟩, h.last⟩
    · exact ⟨c, h.here⟩
  · intro fd' c' hc
    simp only [World.add, setTab] at hc ⊢
    split at hc
    · simp at hc
    · rename_i hn
      rcases h.kept fd' c' hn hc with h1 | h1
      · exact Or.inl h1
      · exact Or.inr (List.mem_append_left _ h1)
  · intro s fd' c' hm
    exact h.acc s fd' c' (by simpa [World.add] using hm)

/-- Registering a handler for the descriptor. -/
def addReg (R : Nat → Handler → Prop) (fd : Nat) (h : Handler) : Nat → Handler → Prop :=
  fun fd' h' => R fd' h' ∨ (fd' = fd ∧ h' = h)

/-- Removing the handler of the descriptor. -/
def dropReg (R : Nat → Handler → Prop) (fd : Nat) : Nat → Handler → Prop := fun fd' h' => R fd' h' ∧ fd' ≠ fd

theorem addReg_unique {R : Nat → Handler → Prop} (hu : ∀ fd h g, R fd h → R fd g → h = g) {fd : Nat} {h : Handler}
    (hf : ∀ h, ¬ R fd h) : ∀ fd' x y, addReg R fd h fd' x → addReg R fd h fd' y → x = y := by
  rintro fd' x y (h1 | ⟨rfl, rfl⟩) (h2 | ⟨e, rfl⟩)
  · exact hu _ _ _ h1 h2
  · subst e; exact absurd h1 (hf _)
  · exact absurd h2 (hf _)
  · rfl

theorem Inv'.connect {R : Nat → Handler → Prop} {w : World} {fd c : Nat} (h : Inv' R w fd c) (hs : w.connFd = none)
    (file : Option Nat) (hfile : file = none ∨ file = some fd) :
    Inv (addReg R fd .stream)
      ({ w with msgOut := file, msgStream := file, connFd := some fd }.add [.connect fd c]) := by
  refine ⟨addReg_unique h.unique h.free, ?_, ?_, h.ids, h.inj, ?_, ?_, ?_, ?_, ?_⟩
  · rintro fd' g (hg | ⟨rfl, rfl⟩)
    · have := h.reg fd' g hg
      have hn : fd' ≠ fd := by rintro rfl; exact h.free g hg
      cases g <;> simp only [RegOk, World.add] at this ⊢
      · exact this
      · exact this
      · obtain ⟨h1, h2, c, h3, h4⟩ := this
        exact ⟨h1, by simpa using Ne.symm hn, c, h3, List.mem_append_left _ h4⟩
      · simp [hs] at this
    · exact ⟨rfl, c, h.here⟩
  · intro fd' he
    simp only [World.add] at he
    injection he with he
    exact Or.inr ⟨he.symm, rfl⟩
  · intro fd' he
    simp only [World.add] at he ⊢
    injection he with he
    subst he
    exact ⟨trivial, hfile⟩
  · intro fd' c'
    simp only [World.add]
    rw [current_snoc]
    simp only [curStep, Option.some.injEq, Prod.mk.injEq]
    constructor
    · rintro ⟨rfl, rfl⟩; exact ⟨rfl, h.here⟩
    · rintro ⟨rfl, h2⟩
      rw [h.here] at h2
      simp at h2
      exact ⟨rfl, h2⟩
  · refine fine_snoc h.fine ⟨?_, h.last⟩
    rw [Option.eq_none_iff_forall_ne_some]
    rintro ⟨a, b⟩ hab
    have := (h.cur a b).1 hab
    simp [hs] at this
  · intro fd' c' hc
    simp only [World.add] at hc ⊢
    by_cases hn : fd' = fd
    · exact Or.inl ⟨.stream, Or.inr ⟨hn, rfl⟩⟩
    · rcases h.kept fd' c' hn hc with ⟨g, hg⟩ | h1
      · exact Or.inl ⟨g, Or.inl hg⟩
      · exact Or.inr (List.mem_append_left _ h1)
  · intro s fd' c' hm
    exact h.acc s fd' c' (by simpa [World.add] using hm)

theorem Inv'.watch {R : Nat → Handler → Prop} {w : World} {fd c : Nat} (h : Inv' R w fd c) :
    Inv (addReg R fd (.statusClient fd)) (w.add [.watch fd c]) := by
  refine ⟨addReg_unique h.unique h.free, ?_, ?_, h.ids, h.inj, h.msg, ?_, fine_snoc h.fine h.last, ?_, ?_⟩
  · rintro fd' g (hg | ⟨rfl, rfl⟩)
    · have := h.reg fd' g hg
      cases g <;> simp only [RegOk, World.add] at this ⊢
      · exact this
      · exact this
      · obtain ⟨h1, h2, c, h3, h4⟩ := this
        exact ⟨h1, h2, c, h3, List.mem_append_left _ h4⟩
      · exact this
    · exact ⟨rfl, h.connFd_ne, c, h.here, by simp [World.add]⟩
  · intro fd' he
    exact Or.inl (h.conn fd' he)
  · intro fd' c'
    simp only [World.add]
    rw [current_snoc]
    exact h.cur fd' c'
  · intro fd' c' hc
    simp only [World.add] at hc ⊢
    by_cases hn : fd' = fd
    · exact Or.inl ⟨_, Or.inr ⟨hn, rfl⟩⟩
    · rcases h.kept fd' c' hn hc with ⟨g, hg⟩ | h1
      · exact Or.inl ⟨g, Or.inl hg⟩
      · exact Or.inr (List.mem_append_left _ h1)
  · intro s fd' c' hm
    exact h.acc s fd' c' (by simpa [World.add] using hm)

/-- Closing the descriptor of a client and removing its handler. -/
theorem Inv.close {R : Nat → Handler → Prop} {w : World} (h : Inv R w) {fd c : Nat} (hc : w.tab fd = some (.client c)) :
    Inv (dropReg R fd) ({ w with tab := setTab w.tab fd none, connFd := if w.connFd = some fd then none else w.connFd }.add
      [.close fd (w.tab fd)]) := by
  refine ⟨fun a x y hx hy => h.unique a x y hx.1 hy.1, ?_, ?_, ?_, ?_, ?_, ?_, fine_snoc h.fine ⟨c, hc⟩, ?_, ?_⟩
  · rintro fd' g ⟨hg, hn⟩
    have := h.reg fd' g hg
    cases g <;> simp only [RegOk, World.add, setTab, hn, if_false] at this ⊢
    · exact this
    · exact this
    · obtain ⟨h1, h2, c, h3, h4⟩ := this
      refine ⟨h1, ?_, c, h3, List.mem_append_left _ h4⟩
      split
      · simp
      · exact h2
    · refine ⟨?_, this.2⟩
      rw [this.1]
      simp [hn]
  · intro fd' he
    simp only [World.add] at he
    split at he
    · simp at he
    · rename_i hne
      exact ⟨h.conn _ he, by rintro rfl; exact hne he⟩
  · intro fd' c' hc
    simp only [World.add, setTab] at hc ⊢
    split at hc
    · simp at hc
    · exact h.ids _ _ hc
  · intro a b c ha hb
    simp only [World.add, setTab] at ha hb
    split at ha
    · simp at ha
    · split at hb
      · simp at hb
      · exact h.inj _ _ _ ha hb
  · intro fd' he
    simp only [World.add] at he ⊢
    split at he
    · simp at he
    · exact h.msg _ he
  · intro fd' c'
    simp only [World.add]
    rw [current_snoc]
    simp only [curStep, setTab]
    by_cases hcf : w.connFd = some fd
    · have := (h.cur fd c).2 ⟨hcf, hc⟩
      simp [this, hcf]
    · simp only [hcf, if_false]
      have : ¬ (current w.log).map (·.1) = some fd := by
        intro e
        rcases hcur : current w.log with _ | ⟨a, b⟩
        · simp [hcur] at e
        · simp [hcur] at e
          subst e
          exact hcf ((h.cur _ _).1 hcur).1
      rw [if_neg this, h.cur]
      constructor
      · rintro ⟨h1, h2⟩
        have : fd' ≠ fd := by rintro rfl; exact hcf h1
        simp [h1, h2, this]
      · rintro ⟨h1, h2⟩
        have : fd' ≠ fd := by rintro rfl; exact hcf h1
        simp [this] at h2
        exact ⟨h1, h2⟩
  · intro fd' c' hc
    simp only [World.add, setTab] at hc ⊢
    split at hc
    · simp at hc
    · rename_i hn
      rcases h.kept fd' c' hc with ⟨g, hg⟩ | h1
      · exact Or.inl ⟨g, hg, hn⟩
      · exact Or.inr (List.mem_append_left _ h1)
  · intro s fd' c' hm
    exact h.acc s fd' c' (by simpa [World.add] using hm)

theorem add_add (w : World) (a b : List Act) : (w.add a).add b = w.add (a ++ b) := by
  simp [World.add]

theorem Inv.buf {R : Nat → Handler → Prop} {w : World} (h : Inv R w) (b : Buf) (p : Bool) :
    Inv R { w with buf := b, processing := p } :=
  ⟨h.unique, h.reg, h.conn, h.ids, h.inj, h.msg, h.cur, h.fine, h.kept, h.acc⟩

/-- What the streamer's model yields for data. -/
theorem step_readable {s s' : Streamer} {r : Option (List Byte)} {outs : List LineBuf.Out} (hc : s.connected = true)
    (h : s.step (.readable r) = some (s', outs)) :
    (r.getD [] ≠ [] ∧ s'.connected = true ∧ s'.processing = true ∧ ∃ ls : List (List Byte), outs = ls.map .parse) ∨
    (r.getD [] = [] ∧ s'.connected = false ∧ s'.processing = false ∧
      ∃ ls : List (List Byte), outs = ls.map .parse ++ [.finished, .close]) := by
  simp only [Streamer.step, hc, Bool.not_true, Bool.false_eq_true, if_false] at h
  rcases hu : LineBuf.update s.buf r with _ | b
  · simp [hu] at h
  simp only [hu, Option.bind_eq_bind, Option.bind_some] at h
  split at h
  · rename_i hl
    rcases hi : LineBuf.incompleteLine b with _ | ⟨b2, line⟩
    · simp [hi] at h
    simp [hi] at h
    obtain ⟨rfl, rfl⟩ := h
    refine Or.inr ⟨List.length_eq_zero_iff.1 hl, rfl, rfl, ?_⟩
    cases line with
    | none => exact ⟨[], rfl⟩
    | some p => exact ⟨[_], rfl⟩
  · rename_i hl
    rcases hd : LineBuf.drain (b.stop - b.start + 1) b with _ | ⟨b2, ls⟩
    · simp [hd] at h
    simp [hd] at h
    obtain ⟨rfl, rfl⟩ := h
    exact Or.inl ⟨fun e => hl (by simp [e]), rfl, rfl, ls, rfl⟩

theorem Inv.notes {R : Nat → Handler → Prop} : ∀ (l : List Act) {w : World}, Inv R w →
    (∀ e ∈ l, ∀ cur, curStep cur e = cur) → (∀ e ∈ l, ∀ s fd c, e ≠ .accept s fd c) → (∀ e ∈ l, ∀ log, current log = current w.log → ActOk log e) →
    Inv R (w.add l)
  | [], w, h, _, _, _ => by simpa [World.add] using h
  | e :: l, w, h, h1, hna, h2 => by
    have he : (w.add [e]).add l = w.add (e :: l) := by simp [World.add]
    rw [← he]
    have hc : current (w.add [e]).log = current w.log := by
      simp only [World.add]
      rw [current_snoc, h1 e (by simp)]
    refine Inv.notes l (h.note e (h1 e (by simp)) (hna e (by simp)) (h2 e (by simp) _ rfl))
      (fun x hx => h1 x (by simp [hx])) (fun x hx => hna x (by simp [hx])) ?_
    intro x hx log hlog
    exact h2 x (by simp [hx]) log (hlog.trans hc)

theorem Inv.target {R : Nat → Handler → Prop} {w : World} (h : Inv R w) {fd c : Nat} (hc : w.connFd = some fd)
    (ht : w.tab fd = some (.client c)) : ToClient c (w.target w.msgOut) ∧ w.target w.msgStream = w.target w.msgOut := by
  obtain ⟨h1, h2⟩ := h.msg fd hc
  refine ⟨?_, by rw [h1]⟩
  rcases h2 with h2 | h2
  · exact Or.inl (by simp [World.target, h2])
  · exact Or.inr (by simp [World.target, h2, ht])

/-- What a call of a handler does to the registrations and the invariant. -/
def Effect (R : Nat → Handler → Prop) (fd : Nat) (keep : Bool) (regs : List (Reg Handler)) (w' : World) : Prop :=
  (keep = true ∧ regs = [] ∧ Inv R w') ∨
  (keep = true ∧ ∃ fd' g, regs = [⟨.read, fd', g⟩] ∧ (∀ h, ¬ R fd' h) ∧ Inv (addReg R fd' g) w') ∨
  (keep = false ∧ regs = [] ∧ Inv (dropReg R fd) w')

theorem accepted_free {w : World} {a : Answer} {fd : Nat} (h : w.accepted a = some fd) :
    a.accept = some fd ∧ w.tab fd = none := by
  unfold World.accepted at h
  rcases ha : a.accept with _ | fd'
  · simp [ha] at h
  · simp [ha] at h
    obtain ⟨h1, h2⟩ := h
    exact ⟨by rw [h2], by rw [← h2]; exact h1⟩

theorem gcodeListen_effect {R : Nat → Handler → Prop} {w : World} (h : Inv R w) (fd socket : Nat) :
    ∃ w', (gcodeListen socket w).2.2 = some w' ∧
      Effect R fd (gcodeListen socket w).1 (gcodeListen socket w).2.1 w' := by
  unfold gcodeListen
  simp only
  rcases ha : w.tick.accepted w.answer with _ | nfd
  · exact ⟨_, rfl, Or.inl ⟨rfl, rfl, h.tick.note _ (fun _ => rfl) (by simp) trivial⟩⟩
  simp only
  have hf := (accepted_free ha).2
  have h' := h.tick.accept socket nfd hf
  split
  · exact ⟨_, rfl, Or.inl ⟨rfl, rfl, h'.abandon⟩⟩
  split
  · exact ⟨_, rfl, Or.inl ⟨rfl, rfl, h'.abandon⟩⟩
  split
  · rename_i hs
    exact ⟨_, rfl, Or.inl ⟨rfl, rfl, h'.refuse hs⟩⟩
  · rename_i hs
    simp only [connectStream, hs, if_false, Bool.false_eq_true]
    refine ⟨_, rfl, Or.inr (Or.inl ⟨rfl, nfd, .stream, rfl, h'.free, ?_⟩)⟩
    refine h'.connect (by simpa using hs) _ ?_
    split <;> simp

theorem statusListen_effect {R : Nat → Handler → Prop} {w : World} (h : Inv R w) (fd socket : Nat) :
    ∃ w', (statusListen socket w).2.2 = some w' ∧
      Effect R fd (statusListen socket w).1 (statusListen socket w).2.1 w' := by
  unfold statusListen
  simp only
  rcases ha : w.tick.accepted w.answer with _ | nfd
  · exact ⟨_, rfl, Or.inl ⟨rfl, rfl, h.tick.note _ (fun _ => rfl) (by simp) trivial⟩⟩
  simp only
  have hf := (accepted_free ha).2
  have h' := h.tick.accept socket nfd hf
  refine ⟨_, rfl, Or.inr (Or.inl ⟨rfl, nfd, _, rfl, h'.free, ?_⟩)⟩
  have := h'.watch
  rw [add_add] at this
  exact this

theorem statusClient_effect {R : Nat → Handler → Prop} {w : World} (h : Inv R w) (fd : Nat)
    (hr : R fd (.statusClient fd)) :
    ∃ w', (statusClient fd w).2.2 = some w' ∧ Effect R fd (statusClient fd w).1 (statusClient fd w).2.1 w' := by
  obtain ⟨-, hcf, c, hc, hw⟩ := h.reg fd _ hr
  have hq : ∀ q, ActOk w.tick.log (.query fd (w.tick.tab fd) q) := by
    intro q
    refine ⟨c, hc, hw, ?_⟩
    intro fd' hcur
    obtain ⟨h1, h2⟩ := (h.cur fd' c).1 hcur
    have := h.inj _ _ _ h2 hc
    subst this
    exact hcf h1
  unfold statusClient
  simp only
  rcases hd : (w.answer.read.getD []).head? with _ | q
  · refine ⟨_, rfl, Or.inr (Or.inr ⟨rfl, rfl, ?_⟩)⟩
    have h1 := h.tick.note (.query fd (w.tick.tab fd) none) (fun _ => rfl) (by simp) (hq none)
    have h2 := h1.close (fd := fd) (c := c) hc
    have hcf' : (w.tick.add [Act.query fd (w.tick.tab fd) none]).connFd ≠ some fd := hcf
    rw [if_neg hcf'] at h2
    have e : ∀ (x y : World), x = y → Inv (dropReg R fd) x → Inv (dropReg R fd) y := by rintro x y rfl hx; exact hx
    refine e _ _ ?_ h2
    simp [World.add]
  · refine ⟨_, rfl, Or.inl ⟨rfl, rfl, ?_⟩⟩
    have h1 := h.tick.note (.query fd (w.tick.tab fd) (some q)) (fun _ => rfl) (by simp) (hq (some q))
    split
    · have h2 := h1.note (.reply fd (w.tick.tab fd) q) (fun _ => rfl) (by simp) (by simp [ActOk, World.add])
      rw [add_add] at h2
      exact h2
    · exact h1

theorem timeout_effect {R : Nat → Handler → Prop} {w : World} (h : Inv R w) (fd : Nat) :
    ∃ w', (timeout w).2.2 = some w' ∧ Effect R fd (timeout w).1 (timeout w).2.1 w' := by
  refine ⟨_, rfl, Or.inl ⟨rfl, rfl, ?_⟩⟩
  refine (h.buf w.buf false).note _ (fun _ => rfl) (by simp) ?_
  intro fd' c hcur
  obtain ⟨h1, h2⟩ := (h.cur fd' c).1 hcur
  exact (h.target h1 h2).1

theorem readData_effect {R : Nat → Handler → Prop} {w w' : World} (h : Inv R w) (fd : Nat) (hr : R fd .stream)
    (hw : (readData w).2.2 = some w') : Effect R fd (readData w).1 (readData w).2.1 w' := by
  obtain ⟨hcf, c, hc⟩ := h.reg fd _ hr
  unfold readData at hw ⊢
  simp only [hcf] at hw ⊢
  rcases hst : w.tick.streamer.step (.readable w.answer.read) with _ | ⟨s, outs⟩
  · simp [hst] at hw
  simp only [hst] at hw ⊢
  have hsc : w.tick.streamer.connected = true := by simp [World.streamer, World.tick, hcf]
  have hcur : current w.log = some (fd, c) := (h.cur fd c).2 ⟨hcf, hc⟩
  obtain ⟨ht1, ht2⟩ := h.target hcf hc
  have h0 : Inv R { w.tick with buf := s.buf, processing := s.processing } := h.tick.buf _ _
  have h1 : ∀ ls : List (List Byte), Inv R ({ w.tick with buf := s.buf, processing := s.processing }.add
      (.read fd (w.tick.tab fd) w.answer.read :: (ls.map LineBuf.Out.parse).map (outAct w.tick fd))) := by
    intro ls
    refine h0.notes _ ?_ ?_ ?_
    · intro e he cur
      rcases List.mem_cons.1 he with rfl | he
      · rfl
      · simp only [List.mem_map] at he
        obtain ⟨-, ⟨l, -, rfl⟩, rfl⟩ := he
        rfl
    · intro e he
      rcases List.mem_cons.1 he with rfl | he
      · simp
      · simp only [List.mem_map] at he
        obtain ⟨-, ⟨l, -, rfl⟩, rfl⟩ := he
        simp [outAct]
    · intro e he log hlog
      rw [show current ({ w.tick with buf := s.buf, processing := s.processing } : World).log = current w.log from rfl, hcur]
        at hlog
      rcases List.mem_cons.1 he with rfl | he
      · exact ⟨c, hlog, hc⟩
      · simp only [List.mem_map] at he
        obtain ⟨-, ⟨l, -, rfl⟩, rfl⟩ := he
        refine ⟨fd, c, hlog, ?_, ht1, ht2⟩
        show ToClient c (w.target w.msgStream)
        rw [ht2]; exact ht1
  rcases step_readable hsc hst with ⟨-, hs, -, ls, rfl⟩ | ⟨-, hs, -, ls, rfl⟩
  · simp only [hs, if_true] at hw ⊢
    injection hw with hw
    subst hw
    exact Or.inl ⟨rfl, rfl, h1 ls⟩
  · simp only [hs, Bool.false_eq_true, if_false] at hw ⊢
    injection hw with hw
    subst hw
    refine Or.inr (Or.inr ⟨rfl, rfl, ?_⟩)
    have hcur1 : current ({ w.tick with buf := s.buf, processing := s.processing }.add
      (.read fd (w.tick.tab fd) w.answer.read :: (ls.map LineBuf.Out.parse).map (outAct w.tick fd))).log = some (fd, c) :=
      ((h1 ls).cur fd c).2 ⟨hcf, hc⟩
    have h2 := (h1 ls).note (.finish (w.tick.target w.tick.msgOut)) (fun _ => rfl) (by simp) ⟨fd, c, hcur1, ht1⟩
    have h3 := h2.close (fd := fd) (c := c) hc
    rw [if_pos (by exact hcf)] at h3
    have e : ∀ (x y : World), x = y → Inv (dropReg R fd) x → Inv (dropReg R fd) y := by rintro x y rfl hx; exact hx
    refine e _ _ ?_ h3
    simp [World.add, outAct]

/-- The handlers keep the invariant. -/
theorem handle_effect {R : Nat → Handler → Prop} {w w' : World} (h : Inv R w) (fd : Nat) (g : Handler)
    (hr : R fd g ∨ g = .timeout) (hw : (handle g w).2.2 = some w') :
    Effect R fd (handle g w).1 (handle g w).2.1 w' := by
  have use : ∀ {x : Result}, (∃ w', x.2.2 = some w' ∧ Effect R fd x.1 x.2.1 w') → x.2.2 = some w' →
      Effect R fd x.1 x.2.1 w' := by
    rintro x ⟨w2, h1, h2⟩ h3
    rw [h1] at h3
    injection h3 with h3
    subst h3; exact h2
  cases g with
  | gcodeListen s => exact use (gcodeListen_effect h fd s) hw
  | statusListen s => exact use (statusListen_effect h fd s) hw
  | statusClient f =>
    rcases hr with hr | hr
    · have : f = fd := (h.reg fd _ hr).1
      subst this
      exact use (statusClient_effect h f hr) hw
    · simp at hr
  | stream =>
    rcases hr with hr | hr
    · exact readData_effect h fd hr hw
    · simp at hr
  | timeout => exact use (timeout_effect h fd) hw

/-- The handlers registered for reading. -/
def regs (m : Mux Handler) : Nat → Handler → Prop := fun fd h => (fd, h) ∈ m.maps .read

/-- The invariant of multiplexer and world, with a further property of them. -/
structure MInv (m : Mux Handler) (w : World) : Prop where
  sorted : Sorted (m.maps .read)
  write : m.maps .write = []
  idle : ∀ h ∈ m.idle, h = .timeout
  inv : Inv (regs m) w

theorem Inv.congr {R R' : Nat → Handler → Prop} {w : World} (h : Inv R w) (e : ∀ fd g, R fd g ↔ R' fd g) : Inv R' w := by
  have : R = R' := by funext fd g; exact propext (e fd g)
  subst this; exact h

theorem handle_write (g : Handler) (w : World) : ∀ r ∈ (handle g w).2.1, r.kind = .read := by
  cases g
  · simp only [handle, gcodeListen]
    split
    · simp
    · split
      · simp
      split
      · simp
      split
      · simp
      · simp only [connectStream]
        split <;> simp
  · simp only [handle, statusListen]
    split <;> simp
  · simp only [handle, statusClient]
    split <;> simp
  · simp only [handle, readData]
    split
    · simp
    · split
      · simp
      · split <;> simp
  · simp [handle, timeout]

theorem MInv.of_effect {m : Mux Handler} {w w' : World} (h : MInv m w) {fd : Nat} {keep : Bool} {rs : List (Reg Handler)}
    (he : Effect (regs m) fd keep rs w') :
    MInv (if keep then (m.registerAll rs).1 else (m.registerAll rs).1.set .read (erase fd ((m.registerAll rs).1.maps .read))) w' := by
  rcases he with ⟨rfl, rfl, hi⟩ | ⟨rfl, nfd, g, rfl, hf, hi⟩ | ⟨rfl, rfl, hi⟩
  · exact ⟨h.sorted, h.write, h.idle, hi⟩
  · simp only [if_true]
    refine ⟨sorted_registerAll_one m nfd g h.sorted, ?_, ?_, ?_⟩
    · rw [write_registerAll_one, h.write]
    · rw [registerAll_idle]; exact h.idle
    · refine hi.congr ?_
      intro a b
      simp only [regs]
      rw [mem_registerAll_one m nfd g h.sorted hf]
      simp [addReg, regs]
  · simp only [Bool.false_eq_true, if_false, Mux.registerAll]
    refine ⟨?_, ?_, h.idle, ?_⟩
    · simp only [Mux.set, if_true]
      exact List.Pairwise.filter _ h.sorted
    · simp [Mux.set, h.write]
    · refine hi.congr ?_
      intro a b
      simp [regs, dropReg, Mux.set, erase]

/-- The invariant, as long as nothing undefined happened. -/
def Ok (m : Mux Handler) : Option World → Prop
  | none => True
  | some w => MInv m w

theorem ok_after (m : Mux Handler) (w : Option World) (k : Kind) (fd : Nat) (h : Handler) (hp : Ok m w)
    (hm : (fd, h) ∈ m.maps k) : Ok (after call k fd h m w).1 (after call k fd h m w).2 := by
  cases w with
  | none => trivial
  | some w =>
    have hp : MInv m w := hp
    cases k with
    | write => rw [hp.write] at hm; simp at hm
    | read =>
      rcases hw : (handle h w).2.2 with _ | w'
      · simp [after, call, hw, Ok]
      · have := hp.of_effect (handle_effect hp.inv fd h (Or.inl hm) hw)
        simp only [after, call, hw, Ok]
        exact this

theorem ok_idle (m : Mux Handler) (w : Option World) (l : List Handler) (hp : Ok m w) (hl : ∀ h ∈ l, h ∈ m.idle) :
    Ok { (callIdle call l m w).2.1 with idle := (callIdle call l m w).1 } (callIdle call l m w).2.2.1 := by
  cases w with
  | none =>
    have : ∀ (l : List Handler) (m : Mux Handler), (callIdle call l m none).2.2.1 = none := by
      intro l
      induction l with
      | nil => intro m; rfl
      | cons h l ih => intro m; simp only [callIdle]; exact ih _
    rw [this]; trivial
  | some w =>
    have hp : MInv m w := hp
    have hsub := callIdle_sub call l m (some w)
    have hinv := callIdle_induct call (fun m w => Ok m w) l (by
      intro m w h hok hh
      cases w with
      | none => trivial
      | some w =>
        have hok : MInv m w := hok
        have ht := hp.idle h (hl h hh)
        subst ht
        rcases hw : (handle .timeout w).2.2 with _ | w'
        · simp [afterIdle, call, hw, Ok]
        · have he := handle_effect hok.inv 0 .timeout (Or.inr rfl) hw
          have hk : (handle .timeout w).1 = true := rfl
          have := hok.of_effect he
          rw [hk] at this
          simpa [afterIdle, call, hw, Ok] using this) m (some w) hp
    rcases hw : (callIdle call l m (some w)).2.2.1 with _ | w'
    · trivial
    · rw [hw] at hinv
      have hinv : MInv _ w' := hinv
      exact ⟨hinv.sorted, hinv.write, fun h hh => hp.idle h (hl h (hsub h hh)), hinv.inv⟩

theorem ok_cycle (m : Mux Handler) (w : Option World) (sel : Sel) (h : Ok m w) :
    Ok (cycle call m w sel).2.1 (cycle call m w sel).2.2.1 :=
  cycle_induct call Ok (fun k m w fd h hp hm => ok_after m w k fd h hp hm) (fun m w l hp hl => ok_idle m w l hp hl) m w sel h

/-- The circumstances before the loop: the listening sockets are open and different, there are no connections
yet. -/
structure Start (gcode : Nat) (status : Option Nat) (tab : Nat → Option Obj) : Prop where
  one : tab gcode = some .socket
  two : ∀ s, status = some s → s ≠ gcode ∧ tab s = some .socket
  fresh : ∀ fd c, tab fd ≠ some (.client c)

theorem start_mem (gcode : Nat) (status : Option Nat) (hs : ∀ s, status = some s → s ≠ gcode) (p : Nat × Handler) :
    p ∈ (startMux gcode status).maps .read ↔
      p = (gcode, .gcodeListen gcode) ∨ ∃ s, status = some s ∧ p = (s, .statusListen s) := by
  cases status with
  | none => simp [startMux, Mux.registerAll, Mux.register, Mux.set, FdMux.insert]
  | some s =>
    have := hs s rfl
    simp only [startMux, Mux.registerAll, Mux.register, Mux.set, FdMux.insert, if_true]
    split
    · simp; tauto
    · simp

theorem start_sorted (gcode : Nat) (status : Option Nat) : Sorted ((startMux gcode status).maps .read) := by
  cases status with
  | none => simp [startMux, Mux.registerAll, Mux.register, Mux.set, FdMux.insert, Sorted]
  | some s =>
    simp only [startMux, Mux.registerAll, Mux.register, Mux.set, FdMux.insert, if_true]
    split
    · simp [Sorted]; assumption
    · split
      · simp [Sorted]
      · simp [Sorted]; omega

theorem start_ok {gcode : Nat} {status : Option Nat} {tab : Nat → Option Obj} (h : Start gcode status tab)
    (buf : Buf) (answers : Nat → Answer) : Ok (startMux gcode status) (some (startWorld tab buf answers)) := by
  have hmem := start_mem gcode status fun s hs => (h.two s hs).1
  refine ⟨start_sorted _ _, ?_, ?_, ?_⟩
  · cases status <;> simp [startMux, Mux.registerAll, Mux.register, Mux.set]
  · intro g hg
    rw [show (startMux gcode status).idle = [Handler.timeout] from registerAll_idle _ _] at hg
    simpa using hg
  · refine ⟨?_, ?_, ?_, ?_, ?_, ?_, ?_, ?_, ?_, ?_⟩
    · intro fd x y hx hy
      exact sorted_unique (start_sorted _ _) hx hy
    · intro fd x hx
      rcases (hmem _).1 hx with e | ⟨s, hs, e⟩
      · injection e with e1 e2; subst e1 e2; exact ⟨rfl, h.one⟩
      · injection e with e1 e2; subst e1 e2; exact ⟨rfl, (h.two _ hs).2⟩
    · intro fd hc; simp [startWorld] at hc
    · intro fd c hc; exact absurd hc (h.fresh fd c)
    · intro fd fd' c hc; exact absurd hc (h.fresh fd c)
    · intro fd hc; simp [startWorld] at hc
    · intro fd c; simp [startWorld, current]
    · intro a e b hab; simp [startWorld] at hab
    · intro fd c hc; exact absurd hc (h.fresh fd c)
    · intro s fd c hm; simp [startWorld] at hm

theorem serve_ok {gcode : Nat} {status : Option Nat} {tab : Nat → Option Obj} (h : Start gcode status tab)
    (buf : Buf) (answers : Nat → Answer) (sels : List Sel) :
    Ok (serve gcode status tab buf answers sels).1 (serve gcode status tab buf answers sels).2.1 :=
  loop_induct call Ok ok_cycle sels _ _ (start_ok h buf answers)

end BeagleG.Server
