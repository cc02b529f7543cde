import Verif.FdMux.Props
/-!
# Signals and the event loop (C107)

`/repo/src/common/fd-mux.cc` lines 33-79 and 157-170: the handlers of signals, and what they do to `Loop`. The cycles themselves are those of
`FdMux.Model`.

Simplifications: the handlers are installed in one step, without a signal in between. What a signal does without a handler, and that a caught
one interrupts `select`, is POSIX and not in the repository. A handler of SIGSEGV, SIGBUS or SIGFPE returns to the instruction that failed;
here these signals are sent by somebody else.
-/
namespace BeagleG.FdMux

variable {H σ : Type}

/-- The signals of `arm_signal_handler`, fd-mux.cc 56-71. -/
inductive Sig where
  | term | int | segv | bus | fpe | pipe
  deriving DecidableEq, Repr

/-- `SIG_DFL`, `receive_signal` or `ignore_signal`, fd-mux.cc 39-47. -/
inductive Disp where
  | default | exit | ignore
  deriving DecidableEq, Repr

/-- What is printed: the message of `receive_signal` (line 40; with the NUL behind it, because of `sizeof`), `perror` (139), "Exiting loop() after
last file descriptor is gone." (133), "Caught SIGPIPE. Ignored." (163). fd-mux.cc. -/
inductive Out where
  | caught | failed | gone | ignored
  deriving DecidableEq, Repr

/-- The variables at fd-mux.cc 33-37 and what the system knows of the process. `got`: the signals delivered, for the specification. -/
structure Proc where
  disp : Sig → Disp
  /-- `s_caught_exit_trigger_signal` -/
  exit : Bool
  /-- `s_caught_ignored_signal` -/
  ignored : Bool
  killed : Bool
  out : List Out
  got : List Sig

/-- A signal is delivered: `receive_signal` and `ignore_signal`, fd-mux.cc 39-47; the default action of all six is to end the process. -/
def Proc.deliver (p : Proc) (s : Sig) : Proc :=
  match p.disp s with
  | .default => { p with killed := true, got := p.got ++ [s] }
  | .exit => { p with out := if p.exit then p.out else p.out ++ [.caught], exit := true, got := p.got ++ [s] }
  | .ignore => { p with ignored := true, got := p.got ++ [s] }

/-- Several signals, fd-mux.cc 39-47. -/
def Proc.deliverAll (p : Proc) (l : List Sig) : Proc := l.foldl Proc.deliver p

/-- `arm_signal_handler`, fd-mux.cc 49-71. -/
def Proc.arm (p : Proc) : Proc :=
  { p with exit := false, ignored := false, disp := fun s => if s = .pipe then .ignore else .exit }

/-- `disarm_signal_handler`, fd-mux.cc 73-79. SIGPIPE is not among the signals there. -/
def Proc.disarm (p : Proc) : Proc := { p with disp := fun s => if s = .pipe then p.disp s else .default }

/-- A round of `Loop`, fd-mux.cc 161-166: the signals that arrive while `select` waits, what it returns, and the signals that arrive from
then on until the `select` of the next round waits. -/
structure Round where
  waiting : List Sig
  sel : Sel
  working : List Sig

/-- Where a call of `Loop` is: the result, if it has returned (fd-mux.cc 157-170). -/
structure Run (H σ : Type) where
  mux : Mux H
  world : σ
  proc : Proc
  log : List (Ev H)
  ret : Option Bool

/-- What `SingleCycle` prints, fd-mux.cc 128-141. -/
def cycleOut (m : Mux H) (sel : Sel) (exit : Bool) : List Out :=
  if (m.maps .read).isEmpty && (m.maps .write).isEmpty then [.gone]
  else match sel with
    | .error => if exit then [] else [.failed]
    | .ready .. => []

/-- The process after a cycle: without a descriptor `select` is not called. fd-mux.cc 128-141. -/
def afterCycle (m : Mux H) (p : Proc) (r : Round) : Proc :=
  let p := if (m.maps .read).isEmpty && (m.maps .write).isEmpty then p else p.deliverAll r.waiting
  { p with out := p.out ++ cycleOut m r.sel p.exit }.deliverAll r.working

/-- The body of the loop, fd-mux.cc 162-165. -/
def Proc.notice (p : Proc) : Proc :=
  if p.ignored then { p with out := p.out ++ [.ignored], ignored := false } else p

/-- The loop in `Loop` and what follows it, fd-mux.cc 161-169. -/
def rounds (call : CallFun H σ) (m : Mux H) (w : σ) (p : Proc) : List Round → Run H σ
  | [] => ⟨m, w, p, [], none⟩
  | r :: rs =>
    let c := cycle call m w r.sel
    let p := afterCycle m p r
    if c.1 && !p.exit then
      let x := rounds call c.2.1 c.2.2.1 p.notice rs
      { x with log := c.2.2.2 ++ x.log }
    else ⟨c.2.1, c.2.2.1, p.disarm, c.2.2.2, some (!p.exit)⟩

/-- `Loop`, fd-mux.cc 157-170. -/
def signalLoop (call : CallFun H σ) (m : Mux H) (w : σ) (p : Proc) (rs : List Round) : Run H σ :=
  rounds call m w p.arm rs

/-- A caught signal interrupts `select` (POSIX; `sa_flags` is 0, fd-mux.cc 57, and `select` is never started again). -/
def Round.Posix (r : Round) : Prop := r.waiting ≠ [] → r.sel = .error

/-! ### Delivery -/

/-- The handlers of `arm_signal_handler` are installed, and nothing else has happened to the process. -/
structure Armed (p : Proc) : Prop where
  disp : ∀ s, p.disp s = if s = .pipe then .ignore else .exit
  alive : p.killed = false

theorem Armed.deliver {p : Proc} (h : Armed p) (s : Sig) : Armed (p.deliver s) ∧
    (p.deliver s).exit = (p.exit || decide (s ≠ .pipe)) ∧ (p.deliver s).ignored = (p.ignored || decide (s = .pipe)) ∧
    (p.deliver s).got = p.got ++ [s] ∧
    (p.deliver s).out = if p.exit = false ∧ s ≠ .pipe then p.out ++ [.caught] else p.out := by
  unfold Proc.deliver
  rw [h.disp s]
  by_cases hs : s = .pipe
  · subst hs
    exact ⟨⟨h.disp, h.alive⟩, by simp, by simp, rfl, by simp⟩
  · rw [if_neg hs]
    refine ⟨⟨h.disp, h.alive⟩, by simp [hs], by simp [hs], rfl, ?_⟩
    cases hx : p.exit <;> simp [hs]

/-- The signals that shall end the loop. -/
def exits (l : List Sig) : Bool := l.any fun s => decide (s ≠ .pipe)

theorem Armed.deliverAll : ∀ (l : List Sig) {p : Proc}, Armed p → Armed (p.deliverAll l) ∧
    (p.deliverAll l).exit = (p.exit || exits l) ∧ (p.deliverAll l).got = p.got ++ l ∧
    (p.deliverAll l).out = if p.exit = false ∧ exits l = true then p.out ++ [.caught] else p.out
  | [], p, h => ⟨h, by simp [exits, Proc.deliverAll], by simp [Proc.deliverAll], by simp [exits, Proc.deliverAll]⟩
  | s :: l, p, h => by
    obtain ⟨h1, h2, -, h4, h5⟩ := h.deliver s
    obtain ⟨g1, g2, g3, g4⟩ := Armed.deliverAll l h1
    have e : p.deliverAll (s :: l) = (p.deliver s).deliverAll l := rfl
    have ee : exits (s :: l) = (decide (s ≠ .pipe) || exits l) := rfl
    rw [e, ee]
    refine ⟨g1, by rw [g2, h2, Bool.or_assoc], by rw [g3, h4, List.append_assoc]; rfl, ?_⟩
    rw [g4, h5, h2]
    cases p.exit <;> by_cases hs : s = .pipe <;> cases exits l <;> simp [hs]

theorem Armed.notice {p : Proc} (h : Armed p) : Armed p.notice ∧ p.notice.exit = p.exit ∧ p.notice.got = p.got ∧
    p.notice.out.count .caught = p.out.count .caught := by
  unfold Proc.notice
  split
  · exact ⟨⟨h.disp, h.alive⟩, rfl, rfl, by simp⟩
  · exact ⟨h, rfl, rfl, rfl⟩

/-- The signals that arrive in a round that begins with these descriptors. -/
def Round.arrive (r : Round) (m : Mux H) : List Sig :=
  (if (m.maps .read).isEmpty && (m.maps .write).isEmpty then [] else r.waiting) ++ r.working

theorem exits_append (a b : List Sig) : exits (a ++ b) = (exits a || exits b) := List.any_append

theorem caught_cycleOut (m : Mux H) (sel : Sel) (x : Bool) : (cycleOut m sel x).count .caught = 0 := by
  unfold cycleOut
  split
  · rfl
  · cases sel <;> cases x <;> rfl

theorem Armed.afterCycle {p : Proc} (h : Armed p) (m : Mux H) (r : Round) : Armed (afterCycle m p r) ∧
    (afterCycle m p r).exit = (p.exit || exits (r.arrive m)) ∧ (afterCycle m p r).got = p.got ++ r.arrive m ∧
    (afterCycle m p r).out.count .caught =
      p.out.count .caught + if p.exit = false ∧ exits (r.arrive m) = true then 1 else 0 := by
  have key : ∀ l : List Sig, ∀ q : Proc, q = p.deliverAll l →
      let x := ({ q with out := q.out ++ cycleOut m r.sel q.exit } : Proc).deliverAll r.working
      Armed x ∧ x.exit = (p.exit || exits (l ++ r.working)) ∧ x.got = p.got ++ (l ++ r.working) ∧
        x.out.count .caught = p.out.count .caught + if p.exit = false ∧ exits (l ++ r.working) = true then 1 else 0 := by
    rintro l q rfl
    obtain ⟨h1, h2, h3, h4⟩ := h.deliverAll l
    have h1' : Armed ({ p.deliverAll l with out := (p.deliverAll l).out ++ cycleOut m r.sel (p.deliverAll l).exit } : Proc) :=
      ⟨h1.disp, h1.alive⟩
    obtain ⟨g1, g2, g3, g4⟩ := h1'.deliverAll r.working
    refine ⟨g1, ?_, ?_, ?_⟩
    · rw [g2, exits_append, ← Bool.or_assoc]; exact congrArg (· || _) h2
    · rw [g3]; dsimp only; rw [h3, List.append_assoc]
    · rw [g4]
      dsimp only
      have hx := fun x => caught_cycleOut m r.sel x
      rw [exits_append, h2, h4]
      clear g1 g2 g3 g4 h1 h1' h2 h3 h4
      cases p.exit <;> cases exits l <;> cases exits r.working <;> simp [hx]
  unfold FdMux.afterCycle Round.arrive
  by_cases hm : ((m.maps .read).isEmpty && (m.maps .write).isEmpty) = true
  · rw [if_pos hm, if_pos hm]
    exact key [] p rfl
  · rw [if_neg hm, if_neg hm]
    exact key r.waiting _ rfl

/-! ### The properties -/

/-- What is true at every moment of `Loop`, and when it returns. -/
theorem rounds_spec (call : CallFun H σ) : ∀ (rs : List Round) (m : Mux H) (w : σ) (p : Proc), Armed p → p.exit = false →
    let x := rounds call m w p rs
    x.proc.killed = false ∧
    (∃ new, x.proc.got = p.got ++ new ∧ (∀ b, x.ret = some b → b = !exits new) ∧ (x.ret = none → exits new = false) ∧
      x.proc.out.count .caught = p.out.count .caught + if exits new = true then 1 else 0) ∧
    ∀ s, x.proc.disp s = if s = .pipe then .ignore else if x.ret = none then .exit else .default
  | [], m, w, p, h, hx => by
    refine ⟨h.alive, ⟨[], by simp [rounds], by simp [rounds], by simp [exits], by simp [rounds, exits]⟩, fun s => ?_⟩
    simp only [rounds, if_true]
    exact h.disp s
  | r :: rs, m, w, p, h, hx => by
    obtain ⟨h1, h2, h3, h4⟩ := h.afterCycle m r
    rw [hx, Bool.false_or] at h2
    simp only [hx, true_and] at h4
    by_cases hc : ((cycle call m w r.sel).1 && !(afterCycle m p r).exit) = true
    · have hx' : (afterCycle m p r).exit = false := by simp at hc; exact hc.2
      obtain ⟨n1, n2, n3, n4⟩ := h1.notice
      obtain ⟨i1, ⟨new, i2, i3, i4, i5⟩, i6⟩ := rounds_spec call rs (cycle call m w r.sel).2.1 (cycle call m w r.sel).2.2.1
        (afterCycle m p r).notice n1 (n2.trans hx')
      have e0 : exits (r.arrive m) = false := by rw [← h2, hx']
      simp only [rounds, hc, if_true]
      refine ⟨i1, ⟨r.arrive m ++ new, ?_, ?_, ?_, ?_⟩, i6⟩
      · rw [i2, n3, h3, List.append_assoc]
      · intro b hb; rw [exits_append, e0, Bool.false_or]; exact i3 b hb
      · intro hb; rw [exits_append, e0, Bool.false_or]; exact i4 hb
      · rw [i5, n4, h4, exits_append, e0]; simp
    · have hc' : ((cycle call m w r.sel).1 && !(afterCycle m p r).exit) = false := by simpa using hc
      simp only [rounds, hc', Bool.false_eq_true, if_false]
      refine ⟨h1.alive, ⟨r.arrive m, h3, ?_, ?_, h4⟩, fun s => ?_⟩
      · intro b hb; cases hb; rw [h2]
      · intro hb; cases hb
      · simp only [Proc.disarm, h1.disp]
        by_cases hs : s = .pipe <;> simp [hs]

theorem armed_arm {p : Proc} (h : p.killed = false) : Armed p.arm := ⟨fun _ => rfl, h⟩

/-- **C107** While `Loop` runs no signal kills the process. It returns false exactly if one of the signals SIGTERM, SIGINT, SIGSEGV, SIGBUS, SIGFPE
was caught, and it has not returned as long as none was and there is something to wait for (`C107_true_partial`). That one was caught is
printed once, however many there are. -/
theorem C107_returns (call : CallFun H σ) (m : Mux H) (w : σ) {p : Proc} (hp : p.killed = false) (rs : List Round) :
    let x := signalLoop call m w p rs
    x.proc.killed = false ∧ ∃ new, x.proc.got = p.got ++ new ∧ (x.ret = some false ↔ ∃ s ∈ new, s ≠ .pipe) ∧
      x.proc.out.count .caught = p.out.count .caught + if x.ret = some false then 1 else 0 := by
  obtain ⟨h1, ⟨new, h2, h3, h4, h5⟩, -⟩ := rounds_spec call rs m w p.arm (armed_arm hp) rfl
  have key : (signalLoop call m w p rs).ret = some false ↔ exits new = true := by
    cases hr : (signalLoop call m w p rs).ret with
    | none => simp [h4 hr]
    | some b => rw [h3 b hr]; simp
  refine ⟨h1, new, h2, key.trans (by simp [exits]), ?_⟩
  refine h5.trans ?_
  have : (if exits new = true then 1 else 0) = (if (signalLoop call m w p rs).ret = some false then 1 else 0) := by
    simp only [key]
  rw [← this]; rfl

/-- **C107** Whom the signals reach: in the loop the handlers; behind it they kill the process again, but SIGPIPE is still ignored. -/
theorem C107_handlers (call : CallFun H σ) (m : Mux H) (w : σ) {p : Proc} (hp : p.killed = false) (rs : List Round) (s : Sig) :
    (signalLoop call m w p rs).proc.disp s =
      if s = .pipe then .ignore else if (signalLoop call m w p rs).ret = none then .exit else .default :=
  (rounds_spec call rs m w p.arm (armed_arm hp) rfl).2.2 s

/-- The cycles of `Loop` are those of the loop without signals, but maybe fewer. -/
theorem rounds_loop (call : CallFun H σ) : ∀ (rs : List Round) (m : Mux H) (w : σ) (p : Proc),
    ∃ n ≤ rs.length, let x := rounds call m w p rs
      loop call m w ((rs.take n).map Round.sel) = (x.mux, x.world, x.log) ∧ (x.ret = none → n = rs.length)
  | [], m, w, p => ⟨0, Nat.le_refl _, rfl, fun _ => rfl⟩
  | r :: rs, m, w, p => by
    by_cases hc : ((cycle call m w r.sel).1 && !(afterCycle m p r).exit) = true
    · obtain ⟨n, hn, i1, i2⟩ := rounds_loop call rs (cycle call m w r.sel).2.1 (cycle call m w r.sel).2.2.1 (afterCycle m p r).notice
      have hc1 : (cycle call m w r.sel).1 = true := by simp at hc; exact hc.1
      refine ⟨n + 1, Nat.succ_le_succ hn, ?_⟩
      simp only [rounds, hc, if_true]
      simp only [List.take_succ_cons, List.map_cons, loop, hc1, if_true]
      exact ⟨by rw [i1], fun h => by rw [i2 h]; rfl⟩
    · have hc' : ((cycle call m w r.sel).1 && !(afterCycle m p r).exit) = false := by simpa using hc
      refine ⟨1, Nat.succ_le_succ (Nat.zero_le _), ?_⟩
      simp only [rounds, hc', Bool.false_eq_true, if_false, List.take_succ_cons, List.take_zero, List.map_cons, List.map_nil, loop]
      refine ⟨?_, fun h => by cases h⟩
      split <;> simp

/-- **C107** Signals do not change which handlers are called: what is called is what the loop without signals calls in its first rounds, so that C05
holds with signals, too. -/
theorem C107_same (call : CallFun H σ) (m : Mux H) (w : σ) (p : Proc) (rs : List Round) :
    ∃ n ≤ rs.length, let x := signalLoop call m w p rs
      loop call m w ((rs.take n).map Round.sel) = (x.mux, x.world, x.log) ∧ (x.ret = none → n = rs.length) :=
  rounds_loop call rs m w p.arm

/-- The rounds of which all come to an end without one that ends the loop. -/
theorem rounds_append (call : CallFun H σ) : ∀ (a b : List Round) (m : Mux H) (w : σ) (p : Proc),
    rounds call m w p (a ++ b) =
      let x := rounds call m w p a
      if x.ret = none then let y := rounds call x.mux x.world x.proc b; { y with log := x.log ++ y.log } else x
  | [], b, m, w, p => by simp [rounds]
  | r :: a, b, m, w, p => by
    have ih := rounds_append call a b (cycle call m w r.sel).2.1 (cycle call m w r.sel).2.2.1 (afterCycle m p r).notice
    by_cases hc : ((cycle call m w r.sel).1 && !(afterCycle m p r).exit) = true
    · simp only [List.cons_append, rounds, hc, if_true, ih]
      split <;> simp
    · have hc' : ((cycle call m w r.sel).1 && !(afterCycle m p r).exit) = false := by simpa using hc
      simp [rounds, hc']

/-- **C107** A signal that shall end the loop ends it in the round in which it arrives: whatever could come after, no further cycle is begun. If it
interrupts `select`, no handler is called in this round either. -/
theorem C107_prompt (call : CallFun H σ) (m : Mux H) (w : σ) {p : Proc} (hp : p.killed = false) (a b : List Round) (r : Round)
    (hr : r.Posix) (hn : (signalLoop call m w p a).ret = none) :
    let x := signalLoop call m w p a
    (exits (r.arrive x.mux) = true → (signalLoop call m w p (a ++ r :: b)).ret = some false ∧
      signalLoop call m w p (a ++ r :: b) = signalLoop call m w p (a ++ [r])) ∧
    (r.waiting ≠ [] → (signalLoop call m w p (a ++ r :: b)).log = x.log) := by
  intro x
  obtain ⟨-, ⟨new, -, -, h4, -⟩, h6⟩ := rounds_spec call a m w p.arm (armed_arm hp) rfl
  have hx : Armed x.proc := ⟨fun s => by
    have := h6 s
    rw [show (rounds call m w p.arm a).ret = none from hn, if_pos rfl] at this
    exact this, (rounds_spec call a m w p.arm (armed_arm hp) rfl).1⟩
  have app : ∀ c, signalLoop call m w p (a ++ c) =
      let y := rounds call x.mux x.world x.proc c; { y with log := x.log ++ y.log } := by
    intro c
    exact (rounds_append call a c m w p.arm).trans (if_pos hn)
  obtain ⟨-, e1, -, -⟩ := hx.afterCycle x.mux r
  constructor
  · intro he
    rw [he, Bool.or_true] at e1
    rw [app, app]
    simp [rounds, e1]
  · intro hw
    rw [app]
    have hs := C05_ends call x.mux x.world r.sel (.inr (hr hw))
    simp [rounds, hs]

/-- **C107** (as far as it holds) `Loop` returns true only if no descriptor is registered any more, or if `select` has failed. -/
theorem C107_true_partial (call : CallFun H σ) (m : Mux H) (w : σ) (p : Proc) (rs : List Round)
    (h : (signalLoop call m w p rs).ret = some true) :
    let x := signalLoop call m w p rs
    (x.mux.maps .read = [] ∧ x.mux.maps .write = []) ∨ ∃ r ∈ rs, r.sel = .error := by
  have key : ∀ (rs : List Round) (m : Mux H) (w : σ) (p : Proc), (rounds call m w p rs).ret = some true →
      let x := rounds call m w p rs
      (x.mux.maps .read = [] ∧ x.mux.maps .write = []) ∨ ∃ r ∈ rs, r.sel = .error := by
    intro rs
    induction rs with
    | nil => intro m w p h; cases h
    | cons r rs ih =>
      intro m w p h
      by_cases hc : ((cycle call m w r.sel).1 && !(afterCycle m p r).exit) = true
      · simp only [rounds, hc, if_true] at h ⊢
        rcases ih _ _ _ h with h' | ⟨r', hr, he⟩
        · exact .inl h'
        · exact .inr ⟨r', List.mem_cons_of_mem _ hr, he⟩
      · have hc' : ((cycle call m w r.sel).1 && !(afterCycle m p r).exit) = false := by simpa using hc
        simp only [rounds, hc', Bool.false_eq_true, if_false] at h ⊢
        have hx : (afterCycle m p r).exit = false := by simpa using h
        rw [hx] at hc'
        have h1 : (cycle call m w r.sel).1 = false := by simpa using hc'
        by_cases hm : ((m.maps .read).isEmpty && (m.maps .write).isEmpty) = true
        · left
          simp [cycle, hm]
          simpa using hm
        · right
          refine ⟨r, List.mem_cons_self, ?_⟩
          cases hs : r.sel with
          | error => rfl
          | ready n a b =>
            rw [hs] at h1
            simp only [cycle, hm, Bool.false_eq_true, if_false] at h1
            split at h1 <;> cases h1
  exact key rs m w p.arm h

/-- **C107** (as far as it holds) A SIGPIPE that arrives while handlers run, for instance because they write to a connection that is closed, changes
nothing: the same handlers are called as without it, and the loop goes on. -/
theorem C107_pipe_partial (call : CallFun H σ) (m : Mux H) (w : σ) {p : Proc} (hp : p.killed = false) (rs : List Round)
    (h : ∀ r ∈ rs, r.waiting = [] ∧ ∀ s ∈ r.working, s = .pipe) :
    let x := signalLoop call m w p rs
    let y := signalLoop call m w p (rs.map fun r => { r with working := [] })
    x.ret = y.ret ∧ x.mux = y.mux ∧ x.world = y.world ∧ x.log = y.log := by
  have key : ∀ (rs : List Round) (m : Mux H) (w : σ) (p q : Proc), Armed p → Armed q → p.exit = false → q.exit = false →
      (∀ r ∈ rs, r.waiting = [] ∧ ∀ s ∈ r.working, s = .pipe) →
      let x := rounds call m w p rs
      let y := rounds call m w q (rs.map fun r => { r with working := [] })
      x.ret = y.ret ∧ x.mux = y.mux ∧ x.world = y.world ∧ x.log = y.log := by
    intro rs
    induction rs with
    | nil => intro m w p q _ _ _ _ _; exact ⟨rfl, rfl, rfl, rfl⟩
    | cons r rs ih =>
      intro m w p q hp hq hx hy h
      obtain ⟨h1, h2⟩ := h r List.mem_cons_self
      obtain ⟨a1, a2, -, -⟩ := hp.afterCycle m r
      obtain ⟨b1, b2, -, -⟩ := hq.afterCycle m { r with working := [] }
      have ha : exits (r.arrive m) = false := by
        unfold Round.arrive exits
        rw [h1]
        simp
        exact h2
      have hb : exits (({ r with working := [] } : Round).arrive m) = false := by
        unfold Round.arrive exits
        dsimp only
        rw [h1]
        simp
      rw [hx, ha] at a2
      rw [hy, hb] at b2
      obtain ⟨a3, a4, -, -⟩ := a1.notice
      obtain ⟨b3, b4, -, -⟩ := b1.notice
      simp only [List.map_cons, rounds, a2, b2, Bool.or_false, Bool.not_false, Bool.and_true]
      by_cases hc : (cycle call m w r.sel).1 = true
      · simp only [hc, if_true]
        obtain ⟨i1, i2, i3, i4⟩ := ih (cycle call m w r.sel).2.1 (cycle call m w r.sel).2.2.1 _ _ a3 b3 (a4.trans a2) (b4.trans b2)
          fun r' hr' => h r' (List.mem_cons_of_mem _ hr')
        exact ⟨i1, i2, i3, by rw [i4]⟩
      · simp [hc]
  exact key rs m w _ _ (armed_arm hp) (armed_arm hp) rfl rfl h

/-- The code ignores SIGPIPE "completely", but one that arrives while `select` waits ends the loop: it returns true, as if all descriptors were
gone, whatever is registered. -/
theorem C107_pipe_ends (call : CallFun H σ) (m : Mux H) (hm : ¬ (m.maps .read = [] ∧ m.maps .write = [])) (w : σ) (p : Proc)
    (r : Round) (hr : r.Posix) (hw : r.waiting = [.pipe]) (hn : r.working = []) (rs : List Round) :
    let x := signalLoop call m w p (r :: rs)
    x.ret = some true ∧ x.mux = m ∧ x.log = [] ∧ x.proc.out = p.out ++ [.failed] := by
  have hs : r.sel = .error := hr (by rw [hw]; simp)
  have hb : ((m.maps .read).isEmpty && (m.maps .write).isEmpty) = false := by
    by_contra hc
    simp at hc
    exact hm hc
  simp [signalLoop, rounds, hs, afterCycle, hb, hw, hn, cycle, cycleOut, Proc.deliverAll, Proc.deliver, Proc.arm, Proc.disarm]

/-- Non-vacuity of `C107_pipe_ends` and `C107_true_partial`: descriptor 3 is registered. -/
example : ∃ (m : Mux Unit) (r : Round), r.Posix ∧ m.maps .read = [(3, ())] ∧
    (signalLoop (fun _ (_ : Unit) => (true, [], ())) m () ⟨fun _ => .default, false, false, false, [], []⟩ [r]).ret = some true := by
  refine ⟨⟨fun k => if k = .read then [(3, ())] else [], []⟩, ⟨[.pipe], .error, []⟩, fun _ => rfl, rfl, ?_⟩
  exact (C107_pipe_ends _ _ (by simp) _ _ _ (fun _ => rfl) rfl rfl []).1

/-- Non-vacuity of `C107_returns`, `C107_prompt` and `C107_pipe_partial`: descriptor 3 is registered and an idle handler that counts. SIGPIPE arrives
in the first round, SIGINT and SIGTERM in the second; the third is not begun. -/
example :
    let quiet : Sel := .ready 0 (fun _ => false) fun _ => false
    let x := signalLoop (H := Nat) (fun _ (n : Nat) => (true, [], n + 1)) ⟨fun k => if k = .read then [(3, 30)] else [], [99]⟩ 0
      ⟨fun _ => .default, false, false, false, [], []⟩ [⟨[], quiet, [.pipe]⟩, ⟨[], quiet, [.int, .term]⟩, ⟨[], quiet, []⟩]
    x.ret = some false ∧ x.world = 2 ∧ x.proc.out = [.ignored, .caught] ∧ x.proc.got = [.pipe, .int, .term] := by
  decide

/-- Before the loop the signals would kill the process. -/
example : (Proc.deliver ⟨fun _ => .default, false, false, false, [], []⟩ .term).killed = true := rfl

end BeagleG.FdMux
