/-!
# Model of `/repo/src/common/fd-mux.{h,cc}`

Handlers are opaque; calling one is a function of the state of the world, which yields the return value,
registrations made inside the handler, and the next state. A descriptor is a natural number below
`FD_SETSIZE` (`FD_SET` of other numbers is undefined). Idle handlers are registered before the loop runs,
as the program does. Signals are in `FdMux.Signals`.
-/
namespace BeagleG.FdMux

/-- Which of the two maps, fd-mux.h 73-74. -/
inductive Kind where
  | read | write
  deriving DecidableEq, Repr

/-- `FDMultiplexer`, fd-mux.h 72-75; a `std::map` is a list sorted by key. -/
structure Mux (H : Type) where
  maps : Kind → List (Nat × H)
  idle : List H

/-- A registration: `RunOnReadable` or `RunOnWritable` with these arguments. fd-mux.cc 81-87. -/
structure Reg (H : Type) where
  kind : Kind
  fd : Nat
  handler : H

/-- What happens, for the specification. Recorded at fd-mux.cc 81-103, 143-149. -/
inductive Ev (H : Type) where
  | reg (k : Kind) (fd : Nat) (h : H) (ok : Bool)
  | call (k : Kind) (fd : Nat) (h : H) (keep : Bool)
  | idle (h : H) (keep : Bool)

/-- `std::map::insert`: inserts unless the key is present. fd-mux.cc 82, 86. -/
def insert {H : Type} (fd : Nat) (h : H) : List (Nat × H) → List (Nat × H) × Bool
  | [] => ([(fd, h)], true)
  | (k, g) :: l =>
    if fd < k then ((fd, h) :: (k, g) :: l, true)
    else if fd = k then ((k, g) :: l, false)
    else ((k, g) :: (insert fd h l).1, (insert fd h l).2)

/-- `handlers->erase(it)`. fd-mux.cc 101. -/
def erase {H : Type} (fd : Nat) (l : List (Nat × H)) : List (Nat × H) := l.filter (·.1 ≠ fd)

/-- One of the two handler maps is replaced (`read_handlers_`, `write_handlers_`, fd-mux.h). fd-mux.h 73-74. -/
def Mux.set {H : Type} (m : Mux H) (k : Kind) (l : List (Nat × H)) : Mux H :=
  { m with maps := fun k' => if k' = k then l else m.maps k' }

/-- `RunOnReadable`, `RunOnWritable`, lines 81-87. -/
def Mux.register {H : Type} (m : Mux H) (r : Reg H) : Mux H × Bool :=
  (m.set r.kind (insert r.fd r.handler (m.maps r.kind)).1, (insert r.fd r.handler (m.maps r.kind)).2)

/-- Several registrations, with a log. fd-mux.cc 81-87, called from within a handler (99, 145). -/
def Mux.registerAll {H : Type} (m : Mux H) : List (Reg H) → Mux H × List (Ev H)
  | [] => (m, [])
  | r :: rs =>
    let (m1, ok) := m.register r
    let (m2, log) := m1.registerAll rs
    (m2, .reg r.kind r.fd r.handler ok :: log)

/-- Calling a handler. fd-mux.h 37, called at fd-mux.cc 99, 145. -/
abbrev CallFun (H σ : Type) := H → σ → Bool × List (Reg H) × σ

/-- The elements of a map from a key on: what the iterator still sees. fd-mux.cc 95, 101. -/
def from_ {H : Type} (pos : Nat) (l : List (Nat × H)) : List (Nat × H) := l.filter (pos ≤ ·.1)

/-- `CallHandlers`, lines 93-103. `pos` stands for the iterator: it points to the first element whose key
is at least `pos`. Returns also the remaining `*available_fds`. -/
def callHandlers {H σ : Type} (call : CallFun H σ) (k : Kind) (set : Nat → Bool) (avail : Nat) (m : Mux H)
    (pos : Nat) (w : σ) : Nat × Mux H × σ × List (Ev H) :=
  if avail = 0 then (0, m, w, [])
  else
    match hh : (from_ pos (m.maps k)).head? with
    | none => (avail, m, w, [])
    | some (fd, h) =>
      if hs : set fd = true then
        let keep := (call h w).1
        let (m1, regLog) := m.registerAll (call h w).2.1
        let m2 := if keep then m1 else m1.set k (erase fd (m1.maps k))
        let r := callHandlers call k set (avail - 1) m2 (fd + 1) (call h w).2.2
        (r.1, r.2.1, r.2.2.1, regLog ++ .call k fd h keep :: r.2.2.2)
      else callHandlers call k set avail m (fd + 1) w
termination_by (avail, (from_ pos (m.maps k)).length)
decreasing_by
  · exact Prod.Lex.left _ _ (by omega)
  · refine Prod.Lex.right _ ?_
    have hmem : (fd, h) ∈ from_ pos (m.maps k) := List.mem_of_head? hh
    have hsub : from_ (fd + 1) (m.maps k) = (from_ pos (m.maps k)).filter (fd + 1 ≤ ·.1) := by
      have hp : pos ≤ fd := by
        have := List.mem_filter.1 hmem
        simpa using this.2
      unfold from_
      rw [List.filter_filter]
      apply List.filter_congr
      intro x _
      simp; omega
    rw [hsub]
    exact List.length_filter_lt_length_iff_exists.2 ⟨(fd, h), hmem, by simp⟩

/-- The idle handlers, lines 143-146. -/
def callIdle {H σ : Type} (call : CallFun H σ) : List H → Mux H → σ → List H × Mux H × σ × List (Ev H)
  | [], m, w => ([], m, w, [])
  | h :: hs, m, w =>
    let keep := (call h w).1
    let (m1, regLog) := m.registerAll (call h w).2.1
    let r := callIdle call hs m1 (call h w).2.2
    (if keep then h :: r.1 else r.1, r.2.1, r.2.2.1, regLog ++ .idle h keep :: r.2.2.2)

/-- The result of `select`. fd-mux.cc 137. -/
inductive Sel where
  | error
  | ready (n : Nat) (readable writable : Nat → Bool)

/-- `SingleCycle`, lines 105-155. The first component is the return value. -/
def cycle {H σ : Type} (call : CallFun H σ) (m : Mux H) (w : σ) (sel : Sel) : Bool × Mux H × σ × List (Ev H) :=
  if (m.maps .read).isEmpty && (m.maps .write).isEmpty then (false, m, w, [])
  else
    match sel with
    | .error => (false, m, w, [])
    | .ready n readable writable =>
      if n = 0 then
        let r := callIdle call m.idle m w
        (true, { r.2.1 with idle := r.1 }, r.2.2.1, r.2.2.2)
      else
        let r1 := callHandlers call .read readable n m 0 w
        let r2 := callHandlers call .write writable r1.1 r1.2.1 0 r1.2.2.1
        (true, r2.2.1, r2.2.2.1, r1.2.2.2 ++ r2.2.2.2)

/-- `Loop`, lines 157-170, with the results of `select` given; it ends when a cycle returns false. -/
def loop {H σ : Type} (call : CallFun H σ) (m : Mux H) (w : σ) : List Sel → Mux H × σ × List (Ev H)
  | [] => (m, w, [])
  | sel :: sels =>
    let r := cycle call m w sel
    if r.1 then
      let r' := loop call r.2.1 r.2.2.1 sels
      (r'.1, r'.2.1, r.2.2.2 ++ r'.2.2)
    else (r.2.1, r.2.2.1, r.2.2.2)

end BeagleG.FdMux
