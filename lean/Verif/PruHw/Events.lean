import Verif.PruHw.Model

/-!
# C71: no event is lost

`WaitEvent` in `/repo/src/uio-genirq-interface.cc` 200-221 and `/repo/src/uio-pruss-interface.cc` 80-84, between the loops
in `/repo/src/pru-motion-queue.cc` 133-139 and 155-160 that call it until the state of a slot has changed, and the firmware,
which first writes the state and then raises the event (`/repo/src/motor-interface-pru.p` 285-293).

The host waits for one fact, `done`. Every action of `Step` is one step of one of the parties, in any order.

Simplifications: the interrupt controller is a latch (`latched`), the kernel driver a mask (`masked`: it masks the interrupt
when it fires) and a counter of which only matters whether the host has read it since it changed (`fresh`). The loops test
the state again after any return of `WaitEvent`, so its value does not matter. For `libprussdrv`, which is not in the
repository: `prussdrv_pru_wait_event` is the `read`, `prussdrv_pru_clear_event` clears the latch and unmasks.
-/
namespace BeagleG.PruHw.Events

/-- Where the host is. pru-motion-queue.cc 133-139, 155-160; uio-genirq-interface.cc 200-221. -/
inductive Pc where
  /-- about to test the state of the slot -/
  | check
  /-- genirq: about to unmask -/
  | arm
  /-- in `read` -/
  | wait
  /-- uio_pruss: about to clear the latch -/
  | clear
  /-- uio_pruss: about to unmask -/
  | unmask
  /-- the loop has ended -/
  | out
deriving DecidableEq, Repr

/-- Host, driver and firmware, as far as one wait is concerned.
uio-genirq-interface.cc 200-221; uio-pruss-interface.cc 80-84. -/
structure Sys where
  /-- the state of the slot has changed -/
  done : Bool
  /-- the firmware has changed it and not yet raised the event -/
  owes : Bool
  latched : Bool
  masked : Bool
  fresh : Bool
  pc : Pc
deriving DecidableEq, Repr

/-- Which driver. uio-genirq-interface.cc 200-221; uio-pruss-interface.cc 80-84. -/
inductive Driver where
  | genirq | pruss
deriving DecidableEq, Repr

/-- A step of one of the parts.
uio-genirq-interface.cc 200-221; uio-pruss-interface.cc 80-84; the kernel; motor-interface-pru.p. -/
inductive Action where
  /-- the firmware writes the state of the slot (.p 285) -/
  | finish
  /-- and raises the event (.p 293) -/
  | raise
  /-- the event of another slot -/
  | other
  /-- the interrupt fires -/
  | irq
  /-- the next step of the host -/
  | host
  /-- a system call of `WaitEvent` fails (lines 206-210, 215-219) -/
  | fail
  /-- `read` is interrupted and called again (lines 211-214) -/
  | eintr
deriving DecidableEq, Repr

/-- One step; `none` if it is not possible.
uio-genirq-interface.cc 200-221; uio-pruss-interface.cc 80-84; the kernel; motor-interface-pru.p. -/
def step (d : Driver) (s : Sys) : Action → Option Sys
  | .finish => if s.done then none else some { s with done := true, owes := true }
  | .raise => if s.owes then some { s with owes := false, latched := true } else none
  | .other => some { s with latched := true }
  | .irq =>
    if s.latched && !s.masked then
      match d with
      -- the event is acknowledged when it is delivered
      | .genirq => some { s with latched := false, masked := true, fresh := true }
      -- it stays until it is cleared
      | .pruss => some { s with masked := true, fresh := true }
    else none
  | .host =>
    match s.pc with
    | .check => some { s with pc := if s.done then .out else match d with | .genirq => .arm | .pruss => .wait }
    | .arm => some { s with masked := false, pc := .wait }
    | .wait =>
      if s.fresh then some { s with fresh := false, pc := match d with | .genirq => .check | .pruss => .clear }
      else none
    | .clear => some { s with latched := false, pc := .unmask }
    | .unmask => some { s with masked := false, pc := .check }
    | .out => none
  | .fail =>
    match d, s.pc with
    | .genirq, .arm => some { s with pc := .check }
    | .genirq, .wait => some { s with pc := .check }
    | _, _ => none
  | .eintr => if s.pc = .wait then some s else none

/-- Any sequence of steps. Specification: any interleaving. -/
def run (d : Driver) : List Action → Sys → Option Sys
  | [], s => some s
  | a :: r, s => (step d s a).bind (run d r)

/-- The host begins to wait; whatever happened before may have left an event anywhere. `masked` without an unread count can only be
left by the genirq driver (the interrupt fired and the count was read). pru-motion-queue.cc 133, 155. -/
def Start (d : Driver) (s : Sys) : Prop :=
  s.pc = .check ∧ s.owes = false ∧ s.done = false ∧ (d = .pruss → s.masked = true → s.fresh = true)

/-- A state reached from the beginning of a wait. Specification; no code of its own. -/
def Reachable (d : Driver) (s : Sys) : Prop := ∃ s0 as, Start d s0 ∧ run d as s0 = some s

/-- Holds in all reachable states. Invariant; no code of its own. -/
structure Inv (d : Driver) (s : Sys) : Prop where
  owes : s.owes = true → s.done = true
  -- an event that concerns the host cannot be gone while the host is about to sleep
  kept : s.done = true → s.owes = false → s.pc = .arm ∨ s.pc = .wait → s.latched = true ∨ s.fresh = true
  -- an interrupt that is masked was delivered
  open_ : s.pc = .wait → s.masked = true → s.fresh = true
  pruss : d = .pruss → s.pc ≠ .clear → s.pc ≠ .unmask → s.masked = true → s.fresh = true
  own : (d = .genirq → s.pc ≠ .clear ∧ s.pc ≠ .unmask) ∧ (d = .pruss → s.pc ≠ .arm)

theorem inv_start {d : Driver} {s : Sys} (h : Start d s) : Inv d s := by
  obtain ⟨h1, h2, h3, h4⟩ := h
  refine ⟨?_, ?_, ?_, ?_, ?_⟩
  · rw [h2]; intro x; cases x
  · rw [h3]; intro x; cases x
  · rw [h1]; intro x; cases x
  · intro hd _ _ hm; exact h4 hd hm
  · rw [h1]; exact ⟨fun _ => ⟨by decide, by decide⟩, fun _ => by decide⟩

theorem inv_step {d : Driver} {s t : Sys} (a : Action) (h : Inv d s) (hs : step d s a = some t) : Inv d t := by
  obtain ⟨i1, i2, i3, i4, i5⟩ := h
  obtain ⟨dn, ow, la, ma, fr, pc⟩ := s
  cases a with
  | finish =>
    simp only [step] at hs
    split at hs
    · simp at hs
    · simp only [Option.some.injEq] at hs
      subst hs
      exact ⟨fun _ => rfl, fun _ h => by simp at h, i3, i4, i5⟩
  | raise =>
    simp only [step] at hs
    split at hs
    · simp only [Option.some.injEq] at hs
      subst hs
      exact ⟨fun h => by simp at h, fun _ _ _ => Or.inl rfl, i3, i4, i5⟩
    · simp at hs
  | other =>
    simp only [step, Option.some.injEq] at hs
    subst hs
    exact ⟨i1, fun _ _ _ => Or.inl rfl, i3, i4, i5⟩
  | irq =>
    simp only [step] at hs
    split at hs
    · cases d <;> simp only [Option.some.injEq] at hs <;> subst hs <;>
        exact ⟨i1, fun _ _ _ => Or.inr rfl, fun _ _ => rfl, fun _ _ _ _ => rfl, i5⟩
    · simp at hs
  | host =>
    cases pc with
    | out => simp [step] at hs
    | check => cases d <;> cases dn <;> simp_all [step] <;> subst hs <;> constructor <;> simp_all
    | arm => cases d <;> simp_all [step] <;> subst hs <;> constructor <;> simp_all
    | wait => cases fr <;> cases d <;> simp_all [step] <;> subst hs <;> constructor <;> simp_all
    | clear => cases d <;> simp_all [step] <;> subst hs <;> constructor <;> simp_all
    | unmask => cases d <;> simp_all [step] <;> subst hs <;> constructor <;> simp_all
  | fail =>
    cases d <;> cases pc <;> simp_all [step] <;> subst hs <;> constructor <;> simp_all
  | eintr =>
    simp only [step] at hs
    split at hs
    · simp only [Option.some.injEq] at hs
      subst hs
      exact ⟨i1, i2, i3, i4, i5⟩
    · simp at hs

theorem inv_run {d : Driver} (as : List Action) {s t : Sys} (h : Inv d s) (hr : run d as s = some t) : Inv d t := by
  induction as generalizing s with
  | nil =>
    simp only [run, Option.some.injEq] at hr
    exact hr ▸ h
  | cons a r ih =>
    simp only [run, Option.bind_eq_some_iff] at hr
    obtain ⟨u, hu, hr⟩ := hr
    exact ih (inv_step a h hu) hr

theorem inv_reachable {d : Driver} {s : Sys} (h : Reachable d s) : Inv d s := by
  obtain ⟨s0, as, h0, hr⟩ := h
  exact inv_run as (inv_start h0) hr

/-- C71. A host that sleeps although its slot is done and the event was raised will be woken: the count has changed, or the interrupt
is about to fire. -/
theorem C71_no_lost_event (d : Driver) (s : Sys) (hr : Reachable d s) (hd : s.done = true) (ho : s.owes = false)
    (hp : s.pc = .wait) : (step d s .host).isSome = true ∨ (step d s .irq).isSome = true := by
  have h := inv_reachable hr
  cases hf : s.fresh with
  | true => left; simp [step, hp, hf]
  | false =>
    right
    have hl : s.latched = true := by
      rcases h.kept hd ho (Or.inr hp) with hl | hl
      · exact hl
      · rw [hf] at hl; cases hl
    have hm : s.masked = false := by
      cases hm : s.masked with
      | false => rfl
      | true =>
        have := h.open_ hp hm
        rw [hf] at this
        cases this
    cases d <;> simp [step, hl, hm]

/-- How far the host is from the end of its loop, once its slot is done. Termination measure; no code of its own. -/
def rank (s : Sys) : Nat :=
  match s.pc with
  | .out => 0
  | .check => 1
  | .unmask => 2
  | .clear => 3
  | .wait => if s.fresh then 4 else 5
  | .arm => 6

/-- C71. Once the slot is done and the event raised, no step of anybody takes the host away from the end of its loop; every step of
the host, also one that fails, and every interrupt that it sleeps for brings it closer, and one of them is always possible.
So it leaves the loop after at most six of them. -/
theorem C71_progress (d : Driver) (s : Sys) (hr : Reachable d s) (hd : s.done = true) (ho : s.owes = false) :
    (∀ a t, step d s a = some t → t.done = true ∧ t.owes = false ∧ rank t ≤ rank s) ∧
    (∀ t, step d s .host = some t → rank t < rank s) ∧
    (∀ t, step d s .fail = some t → rank t < rank s) ∧
    (s.pc = .wait → s.fresh = false → ∀ t, step d s .irq = some t → rank t < rank s) ∧
    (s.pc = .out ∨ (step d s .host).isSome = true ∨ (s.pc = .wait ∧ s.fresh = false ∧ (step d s .irq).isSome = true)) ∧
    rank s ≤ 6 ∧ (rank s = 0 ↔ s.pc = .out) := by
  have hl := C71_no_lost_event d s hr hd ho
  obtain ⟨i1, i2, i3, i4, i5⟩ := inv_reachable hr
  clear hr
  obtain ⟨dn, ow, la, ma, fr, pc⟩ := s
  simp only at hd ho
  subst hd ho
  refine ⟨?_, ?_, ?_, ?_, ?_, ?_, ?_⟩
  · intro a t ht
    cases d <;> cases a <;> cases pc <;> cases la <;> cases ma <;> cases fr <;>
      simp_all [step] <;> (try subst ht) <;> simp_all [rank]
  · intro t ht
    cases d <;> cases pc <;> cases fr <;> simp_all [step] <;> (try subst ht) <;> simp_all [rank]
  · intro t ht
    cases d <;> cases pc <;> cases fr <;> simp_all [step] <;> (try subst ht) <;> simp_all [rank]
  · intro hp hf t ht
    cases d <;> cases la <;> cases ma <;> simp_all [step] <;> (try subst ht) <;> simp_all [rank]
  · cases pc <;> cases fr <;> simp_all [step]
  · cases pc <;> cases fr <;> simp [rank]
  · cases pc <;> cases fr <;> simp [rank]

/-- C71. The loop does not end before the slot is done. -/
theorem C71_not_early (d : Driver) (s t : Sys) (a : Action) (h : step d s a = some t) (hp : s.pc ≠ .out) (ht : t.pc = .out) :
    t.done = true := by
  obtain ⟨dn, ow, la, ma, fr, pc⟩ := s
  cases a with
  | host =>
    cases pc with
    | check => cases dn <;> cases d <;> simp [step] at h <;> subst h <;> simp_all
    | wait => cases fr <;> cases d <;> simp [step] at h <;> subst h <;> simp_all
    | out => simp at hp
    | _ => simp only [step, Option.some.injEq] at h; subst h; simp at ht
  | fail => cases d <;> cases pc <;> simp [step] at h <;> subst h <;> simp_all
  | irq =>
    simp only [step] at h
    split at h
    · cases d <;> simp only [Option.some.injEq] at h <;> subst h <;> exact absurd ht hp
    · simp at h
  | other =>
    simp only [step, Option.some.injEq] at h
    subst h
    exact absurd ht hp
  | _ =>
    simp only [step] at h
    split at h <;> simp only [Option.some.injEq, reduceCtorEq] at h
    subst h
    exact absurd ht hp

/-- The sequence occurs in which the event falls between the test and the sleep, with both drivers. -/
example : run .genirq [.host, .finish, .raise, .host, .irq, .host, .host] ⟨false, false, false, true, false, .check⟩
    = some ⟨true, false, false, true, false, .out⟩ := by decide

example : run .pruss [.host, .finish, .raise, .irq, .host, .host, .other, .host, .host] ⟨false, false, false, false, false, .check⟩
    = some ⟨true, false, true, false, false, .out⟩ := by decide

/-! ### What the order is for -/

/-- The firmware with the two steps exchanged: the event before the state.
A wrong order, for comparison with motor-interface-pru.p. -/
def early (d : Driver) (s : Sys) : Action → Option Sys
  | .finish => if s.done || s.owes then none else some { s with owes := true, latched := true }
  | .raise => if s.owes then some { s with owes := false, done := true } else none
  | a => step d s a

/-- Actions in turn, with the exchanged steps. A wrong order, for comparison with motor-interface-pru.p. -/
def runEarly (d : Driver) : List Action → Sys → Option Sys
  | [], s => some s
  | a :: r, s => (early d s a).bind (runEarly d r)

/-- C71. Were the event raised before the state is written, the host could sleep with its slot done and nothing to wake it: the
order in the firmware (.p 285-293) is needed, with both drivers. -/
theorem C71_order_needed :
    (∃ as s, runEarly .genirq as ⟨false, false, false, true, false, .check⟩ = some s ∧
      s.pc = .wait ∧ s.done = true ∧ s.owes = false ∧ step .genirq s .host = none ∧ step .genirq s .irq = none) ∧
    (∃ as s, runEarly .pruss as ⟨false, false, false, false, false, .check⟩ = some s ∧
      s.pc = .wait ∧ s.done = true ∧ s.owes = false ∧ step .pruss s .host = none ∧ step .pruss s .irq = none) :=
  ⟨⟨[.host, .finish, .host, .irq, .host, .host, .host, .raise], ⟨true, false, false, false, false, .wait⟩, by decide⟩,
   ⟨[.host, .finish, .irq, .host, .host, .host, .host, .raise], ⟨true, false, false, false, false, .wait⟩, by decide⟩⟩

end BeagleG.PruHw.Events
