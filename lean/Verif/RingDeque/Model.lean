/-!
# Model of `RingDeque` (`/repo/src/common/container.h:84-137`)

The ring is a buffer of `CAPACITY` slots and two `unsigned` cursors.  All cursor
arithmetic is performed modulo `2^32` (C++ `unsigned`); the template argument is
an `int`, hence below `2^31`.

A failed `assert` is modelled as the outcome `none`.  A slot that was never
written holds `none` ("intentionally not initializing memory", line 88).

Simplification: `append()` returns a pointer through which the caller fills the
element; the model takes the element as an argument.  Writing through the
pointer returned by `operator[]` is the separate operation `assign`.
-/
namespace BeagleG.RingDeque

/-- C++ `unsigned` wrap-around. The type of `write_pos_` and `read_pos_`, container.h 134-135. -/
def u32 (n : Nat) : Nat := n % 2 ^ 32

/-- `container.h:134-136`: the data members. -/
structure Ring (α : Type) where
  writePos : Nat
  readPos : Nat
  buffer : Nat → Option α

/-- `container.h:93-96` and the member initialisers in 134-135. -/
def Ring.init (α : Type) : Ring α := ⟨0, 0, fun _ => none⟩

variable {α : Type}

/-- `container.h:98`: `(write_pos_ + CAPACITY - read_pos_) % CAPACITY`. The
subtraction is done in `unsigned` arithmetic, i.e. by adding `2^32 - read_pos_`
and dropping the carry. -/
def Ring.size (cap : Nat) (s : Ring α) : Nat :=
  u32 (u32 (s.writePos + cap) + (2 ^ 32 - s.readPos)) % cap

/-- `container.h:99`. -/
def Ring.empty (s : Ring α) : Bool := s.writePos == s.readPos

/-- `container.h:100`. -/
def capacity (cap : Nat) : Nat := cap - 1

/-- `container.h:104-109`; `none` is the failed assertion of line 105. -/
def Ring.append (cap : Nat) (s : Ring α) (x : α) : Option (Ring α) :=
  if s.size cap < capacity cap then
    some { s with
      buffer := fun i => if i = s.writePos then some x else s.buffer i
      writePos := u32 (s.writePos + 1) % cap }
  else none

/-- Address computed by `container.h:112-115`; `none` is the failed assertion. -/
def Ring.slot (cap : Nat) (s : Ring α) (pos : Nat) : Option Nat :=
  if s.size cap > pos then some (u32 (s.readPos + pos) % cap) else none

/-- Reading through `operator[]`, `container.h:112-115`. The outer `Option` is
the assertion, the inner one an uninitialised slot. -/
def Ring.get (cap : Nat) (s : Ring α) (pos : Nat) : Option (Option α) :=
  (s.slot cap pos).map s.buffer

/-- Writing through the pointer returned by `operator[]`, `container.h:112-115`. -/
def Ring.assign (cap : Nat) (s : Ring α) (pos : Nat) (x : α) : Option (Ring α) :=
  (s.slot cap pos).map fun k =>
    { s with buffer := fun i => if i = k then some x else s.buffer i }

/-- `container.h:118-121`. -/
def Ring.back (cap : Nat) (s : Ring α) : Option (Option α) :=
  if s.empty then none
  else some (s.buffer (u32 (u32 (s.writePos + cap) + (2 ^ 32 - 1)) % cap))

/-- `container.h:123-126`. -/
def Ring.popFront (cap : Nat) (s : Ring α) : Option (Ring α) :=
  if s.empty then none else some { s with readPos := u32 (s.readPos + 1) % cap }

/-- `container.h:128-131`. -/
def Ring.popBack (cap : Nat) (s : Ring α) : Option (Ring α) :=
  if s.empty then none
  else some { s with writePos := u32 (u32 (s.writePos + cap) + (2 ^ 32 - 1)) % cap }

/-- The mutating calls a client can make. container.h 102-131. -/
inductive Op (α : Type) where
  | append (x : α)
  | assign (pos : Nat) (x : α)
  | popFront
  | popBack

/-- One client call on the ring. container.h 102-131. -/
def Ring.step (cap : Nat) (s : Ring α) : Op α → Option (Ring α)
  | .append x => s.append cap x
  | .assign pos x => s.assign cap pos x
  | .popFront => s.popFront cap
  | .popBack => s.popBack cap

/-- A sequence of client calls; `none` once an assertion failed. container.h 102-131, called in turn. -/
def Ring.run (cap : Nat) (s : Ring α) : List (Op α) → Option (Ring α)
  | [] => some s
  | op :: ops => (s.step cap op).bind fun s' => s'.run cap ops

end BeagleG.RingDeque
