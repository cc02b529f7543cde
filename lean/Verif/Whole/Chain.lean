import Verif.EndToEnd.Props
import Verif.Machine.EstopProps
import Verif.Machine.SyncProps
/-!
# The machine control on the motor operations of the program

`Machine` has the motors behind an abstract `SegmentQueue`, with the laws its theorems need as hypotheses. In the
program it is `MotionQueueMotorOperations` (motion-queue-motor-operations.cc) on `PRUMotionQueue`, see
machine-control.cc 330-345. Here the two are put together.

Simplifications: as in `MotorOps` and `EndToEnd.Model`. How far the firmware is at a call of the host (`pend`) and what it
has written to the auxiliary outputs until then (`outputs`) are arbitrary functions of the number of the call, except that
after `WaitQueueEmpty` nothing is pending (C25). The queue takes every segment: there is no abort by the firmware (C26).
-/
namespace BeagleG.Whole

open _root_.BeagleG.StepGen (Motor MotionSegment)
open _root_.BeagleG.EndToEnd (motorBackend openQueue Makes)
open _root_.BeagleG.Machine (Queue QAct)
open _root_.BeagleG.Hardware (Hw Cape enableMotors)

/-- Where the motors are after all segments handed over, as the latest entry of the shadow queue says
(motion-queue-motor-operations.cc 91-103). -/
def front (s : MotorOps.State (List MotionSegment)) : Option (Motor → Int) :=
  s.shadow.head?.map fun h m => (h.pos m).position

/-- Each entry of a list one or several times, in the same order. Specification; no code of its own. -/
inductive Repeats : List Nat → List Nat → Prop
  | nil : Repeats [] []
  | cons {a : Nat} {l l' : List Nat} (n : Nat) : 1 ≤ n → Repeats l l' → Repeats (a :: l) (List.replicate n a ++ l')

theorem Repeats.append {a b x y : List Nat} (h : Repeats a x) (h' : Repeats b y) : Repeats (a ++ b) (x ++ y) := by
  induction h with
  | nil => exact h'
  | cons n h1 _ ih =>
    rw [List.cons_append, List.append_assoc]
    exact .cons n h1 ih

theorem Repeats.one {a : Nat} {l : List MotionSegment} (hne : l ≠ []) (h : ∀ x ∈ l, x.aux = a) :
    Repeats [a] (l.map (·.aux)) := by
  have e : l.map (·.aux) = List.replicate l.length a := by
    rw [List.eq_replicate_iff]
    exact ⟨by simp, fun b hb => by obtain ⟨x, hx, rfl⟩ := List.mem_map.1 hb; exact h x hx⟩
  rw [e, ← List.append_nil (List.replicate _ _)]
  exact .cons _ (List.length_pos_iff.2 hne) .nil

/-- State of the motor operations, and what is handed over to the queue. motion-queue-motor-operations.cc 105-112. -/
structure Motors where
  /-- `none`: some count did not fit an `int` (undefined behaviour) -/
  real : Option (MotorOps.State (List MotionSegment))
  /-- the sum of all steps asked for (not in the code) -/
  place : Motor → Int
  good : ∀ s, real = some s → front s = some place
  /-- the auxiliary bits of all commands (not in the code) -/
  bits : List Nat
  marked : ∀ s, real = some s → Repeats bits (s.backend.map (·.aux))
  /-- number of calls -/
  time : Nat
  /-- nothing was enqueued after the last wait -/
  drained : Bool

/-- What the queue answers to `GetPendingElements`. motion-queue-motor-operations.cc 214, 250, 329. -/
def Motors.pending (pend : Nat → List MotionSegment → Nat × Nat) (b : Motors) : List MotionSegment → Nat × Nat :=
  if b.drained then fun _ => (0, 0) else pend b.time

/-- The hardware below. motion-queue.h 97-130. -/
def Motors.queue (pend : Nat → List MotionSegment → Nat × Nat) (b : Motors) : MotorOps.Backend (List MotionSegment) :=
  openQueue (b.pending pend)

theorem front_shadow {s : MotorOps.State (List MotionSegment)} {p : Motor → Int} (h : front s = some p) :
    ∃ last rest, s.shadow = last :: rest ∧ ∀ m, (last.pos m).position = p m := by
  unfold front at h
  cases hs : s.shadow with
  | nil => rw [hs] at h; cases h
  | cons last rest =>
    rw [hs] at h
    injection h with h
    exact ⟨last, rest, rfl, fun m => congrFun h m⟩

theorem front_some {s : MotorOps.State (List MotionSegment)} {last rest} (h : s.shadow = last :: rest) :
    front s = some fun m => (last.pos m).position := by
  unfold front
  rw [h]
  rfl

/-- Shrinking the shadow queue keeps its latest entry. -/
theorem front_shrink (B : MotorOps.Backend (List MotionSegment)) {s : MotorOps.State (List MotionSegment)}
    {last rest} (h : s.shadow = last :: rest) : ∃ rest', (MotorOps.shrink B s).shadow = last :: rest' := by
  unfold MotorOps.shrink MotorOps.resize
  dsimp only
  generalize hn : (if (B.pending s.backend).1 > 0 then (B.pending s.backend).1 else 1) = n
  obtain ⟨k, rfl⟩ : ∃ k, n = k + 1 := ⟨n - 1, by have : 1 ≤ n := by { rw [← hn]; split <;> omega }; omega⟩
  rw [h, List.take_succ_cons]
  exact ⟨_, rfl⟩

theorem splitLoop_front (B : MotorOps.Backend (List MotionSegment)) (hB : ∀ b h, (B.enqueue b h).2 = true)
    (flip : Motor → Bool) (aux : Nat) (timing : Nat → MotorOps.Timing) (hires : Motor → Int) :
    ∀ (n d : Nat) (acc prev : Motor → Int) (s : MotorOps.State (List MotionSegment)) (ret : Bool)
      (last : MotorOps.HistorySegment) (rest : List MotorOps.HistorySegment), s.shadow = last :: rest →
      (∀ i, prev i = acc i / 2 ^ 32) → ∃ s' ret' last' rest',
        MotorOps.splitLoop B flip aux timing hires n d acc prev s ret = some (s', ret') ∧ s'.shadow = last' :: rest' ∧
        ∀ i, (last'.pos i).position = (last.pos i).position + ((acc i + hires i * n) / 2 ^ 32 - prev i)
  | 0, d, acc, prev, s, ret, last, rest, hs, hp => by
    refine ⟨s, ret, last, rest, rfl, hs, fun i => ?_⟩
    rw [hp i]
    simp
  | n + 1, d, acc, prev, s, ret, last, rest, hs, hp => by
    unfold MotorOps.splitLoop
    dsimp only
    unfold MotorOps.enqueueInternal
    rw [hs]
    dsimp only
    rw [hB]
    dsimp only
    generalize hst : MotorOps.State.mk _ _ = st
    obtain ⟨s', ret', last', rest', h1, h2, h3⟩ := splitLoop_front B hB flip aux timing hires n (d + 1)
      (fun i => acc i + hires i) (fun i => (acc i + hires i) / 2 ^ 32) st true _ _ (by rw [← hst]) (fun _ => rfl)
    refine ⟨s', ret', last', rest', h1, h2, fun i => ?_⟩
    rw [h3 i]
    dsimp only [MotorOps.nextHistory]
    have e : hires i * ((n + 1 : Nat) : Int) = hires i + hires i * n := by push_cast; ring
    rw [e]
    have e2 : acc i + (hires i + hires i * (n : Int)) = acc i + hires i + hires i * n := by ring
    rw [e2]
    ring

/-- `Enqueue` moves the latest entry by the steps asked for. -/
theorem enqueue_front (B : MotorOps.Backend (List MotionSegment)) (hB : ∀ b h, (B.enqueue b h).2 = true)
    (flip : Motor → Bool) (timing : Nat → MotorOps.Timing) {s : MotorOps.State (List MotionSegment)}
    {seg : MotorOps.LinearSegment} (hr : ∀ i, (seg.steps i).natAbs < 2 ^ 31) {p : Motor → Int} (h : front s = some p)
    {s' : MotorOps.State (List MotionSegment)} {ret : Bool}
    (he : MotorOps.enqueue B flip timing s seg = some (s', ret)) : front s' = some fun m => p m + seg.steps m := by
  obtain ⟨last, rest, h1, h2⟩ := front_shadow h
  have fin : ∀ (t : MotorOps.State (List MotionSegment)) last' rest', t.shadow = last' :: rest' →
      (∀ m, (last'.pos m).position = p m + seg.steps m) →
      front (MotorOps.shrink B t) = some fun m => p m + seg.steps m := by
    intro t last' rest' k1 k2
    obtain ⟨r, k3⟩ := front_shrink B k1
    rw [front_some k3]
    congr 1
    funext m
    exact k2 m
  unfold MotorOps.enqueue at he
  dsimp only at he
  rw [Option.map_eq_some_iff] at he
  obtain ⟨⟨t, ret'⟩, h3, h4⟩ := he
  cases h4
  split at h3
  · rename_i hD
    rw [h1] at h3
    injection h3 with h3
    injection h3 with h3
    subst h3
    refine fin _ _ _ rfl fun m => ?_
    have := MotorOps.le_defining seg.steps m
    have : seg.steps m = 0 := by omega
    rw [this]
    show (last.pos m).position = _
    rw [h2 m]
    omega
  · split at h3
    · rename_i hD hbig
      have hD2 : MotorOps.definingAxisSteps seg.steps < 2 ^ 31 := by
        obtain ⟨i, hi⟩ := MotorOps.defining_attained seg.steps
        rw [← hi]; exact hr i
      obtain ⟨n0, n1, -, -⟩ := MotorOps.divisions_bounds _ hbig hD2
      obtain ⟨s', ret', last', rest', k1, k2, k3⟩ := splitLoop_front B hB flip seg.aux timing
        (fun i => MotorOps.hiresStepsPerDiv (seg.steps i) (MotorOps.divisions (MotorOps.definingAxisSteps seg.steps)))
        (MotorOps.divisions (MotorOps.definingAxisSteps seg.steps)) 0 (fun _ => 0) (fun _ => 0) s false last rest h1
        (fun _ => by simp)
      rw [h3] at k1
      cases k1
      refine fin _ _ _ k2 fun m => ?_
      rw [k3 m, h2 m]
      obtain ⟨e, e0, e1, he⟩ := MotorOps.hires_total (seg.steps m)
        (MotorOps.divisions (MotorOps.definingAxisSteps seg.steps)) n0
      rw [he]
      generalize MotorOps.divisions (MotorOps.definingAxisSteps seg.steps) = n at *
      omega
    · unfold MotorOps.enqueueInternal at h3
      rw [h1] at h3
      injection h3 with h3
      injection h3 with h3
      subst h3
      refine fin _ _ _ rfl fun m => ?_
      show (last.pos m).position + seg.steps m = _
      rw [h2 m]

/-- What becomes of the segments: those of the command are handed over behind those that were before. -/
theorem enqueue_makes (flip : Motor → Bool) (pending : List MotionSegment → Nat × Nat) (timing : Nat → MotorOps.Timing)
    {s s' : MotorOps.State (List MotionSegment)} {seg : MotorOps.LinearSegment} {ret : Bool}
    (hr : ∀ i, (seg.steps i).natAbs < 2 ^ 31) (hs : s.shadow ≠ [])
    (he : MotorOps.enqueue (openQueue pending) flip timing s seg = some (s', ret)) :
    ret = true ∧ ∃ parts new, s'.backend = s.backend ++ new ∧ List.Forall₂ (Makes flip) parts new ∧
      (∀ m, (parts.map fun p => p m).sum = seg.steps m) ∧ new ≠ [] ∧ ∀ h ∈ new, h.aux = seg.aux := by
  by_cases hz : ∀ i, seg.steps i = 0
  · obtain ⟨t, h, k1, k2, k3, k4, k5⟩ := MotorOps.C19_zero_steps (fun _ => true) pending flip timing s seg hs hz rfl
    rw [openQueue, k1] at he
    cases he
    refine ⟨rfl, [fun _ => 0], [h], k2, .cons (.inr ⟨fun _ => rfl, k3, k4⟩) .nil, fun m => by simp [hz m], by simp, ?_⟩
    intro x hx
    rw [List.mem_singleton.1 hx]
    exact k5
  · have hne : ∃ i, seg.steps i ≠ 0 := by
      by_contra hc
      exact hz fun i => by by_contra h; exact hc ⟨i, h⟩
    obtain ⟨ps, segs, t, k, ret', k1, k2, k3, k4, k5, k6, k7⟩ :=
      MotorOps.C19_no_step_lost (fun _ => true) pending flip timing s seg hs hr hne
    have hret : ret' = true := by
      cases ret' with
      | true => rfl
      | false => exact absurd (k7 rfl).2 (by simp)
    subst hret
    rw [openQueue, k1] at he
    cases he
    refine ⟨rfl, ps, segs, by rw [k4, k6 rfl, List.take_length], k2.imp fun _ _ h => .inl h, k3, ?_, k5⟩
    rintro rfl
    cases k2
    obtain ⟨i, hi⟩ := hne
    have := k3 i
    simp at this
    omega

variable {F : Type} (c : Cape) (flip : Motor → Bool) (timing : Planner.Command F → Nat → MotorOps.Timing)
  (pend : Nat → List MotionSegment → Nat × Nat) (outputs : Nat → List (Fin 16 × Bool))

/-- What the firmware has written until the call (motor-interface-pru.p 214-216). -/
def written (x : Hw F × Motors) : Hw F := ((outputs x.2.time).map fun o => QAct.aux o.1 o.2).foldl (QAct.apply c) x.1

/-- `Enqueue` on the state. motion-queue-motor-operations.cc 263-333. -/
def Motors.enqueue (b : Motors) (cmd : Planner.Command F) : Motors × Bool :=
  let r := (motorBackend (openQueue (pend b.time)) flip timing).enqueue b.real cmd
  ({ real := r.1
     place := fun m => b.place m + cmd.steps m
     good := by
       intro s hs
       show front s = _
       change ((motorBackend (openQueue (pend b.time)) flip timing).enqueue b.real cmd).1 = some s at hs
       unfold motorBackend at hs
       dsimp only at hs
       split at hs
       · cases hs
       · rename_i t ht
         split at hs
         · rename_i hr
           split at hs
           · cases hs
           · rename_i t' ret he
             cases hs
             exact enqueue_front _ (fun _ _ => rfl) flip (timing cmd) (seg := ⟨cmd.steps, cmd.auxBits⟩) hr
               (b.good t ht) he
         · cases hs
     bits := b.bits ++ [cmd.auxBits]
     marked := by
       intro s hs
       change ((motorBackend (openQueue (pend b.time)) flip timing).enqueue b.real cmd).1 = some s at hs
       unfold motorBackend at hs
       dsimp only at hs
       split at hs
       · cases hs
       · rename_i t ht
         split at hs
         · rename_i hr
           split at hs
           · cases hs
           · rename_i t' ret he
             cases hs
             obtain ⟨last, rest, h1, -⟩ := front_shadow (b.good t ht)
             obtain ⟨-, parts, new, k1, -, -, k4, k5⟩ :=
               enqueue_makes flip _ (timing cmd) (seg := ⟨cmd.steps, cmd.auxBits⟩) hr (by rw [h1]; simp) he
             rw [k1, List.map_append]
             exact (b.marked t ht).append (.one k4 k5)
         · cases hs
     time := b.time + 1
     drained := false }, r.2)

/-- `WaitQueueEmpty` on the state. motion-queue-motor-operations.cc 340-342. -/
def Motors.wait (b : Motors) : Motors where
  real := b.real.map (MotorOps.waitQueueEmpty (b.queue pend))
  place := b.place
  good := by
    intro s hs
    rw [Option.map_eq_some_iff] at hs
    obtain ⟨t, ht, rfl⟩ := hs
    exact b.good t ht
  bits := b.bits
  marked := by
    intro s hs
    rw [Option.map_eq_some_iff] at hs
    obtain ⟨t, ht, rfl⟩ := hs
    exact b.marked t ht
  time := b.time + 1
  drained := true

/-- `MotorEnable` on the state; the hardware mapping is not part of it. motion-queue-motor-operations.cc 335-338. -/
def Motors.enable (b : Motors) (on : Bool) : Motors where
  real := b.real.map fun s => MotorOps.motorEnable (b.queue pend) s on
  place := b.place
  good := by
    intro s hs
    rw [Option.map_eq_some_iff] at hs
    obtain ⟨t, ht, rfl⟩ := hs
    exact b.good t ht
  bits := b.bits
  marked := by
    intro s hs
    rw [Option.map_eq_some_iff] at hs
    obtain ⟨t, ht, rfl⟩ := hs
    exact b.marked t ht
  time := b.time + 1
  drained := true

/-- `SetExternalPosition` on the state. motion-queue-motor-operations.cc 237-253. -/
def Motors.external (b : Motors) (m : Motor) (p : Int) : Motors where
  real := b.real.bind fun s => MotorOps.setExternalPosition (b.queue pend) s m p
  place := fun k => if k = m then p else b.place k
  good := by
    intro s hs
    cases hb : b.real with
    | none => rw [hb] at hs; cases hs
    | some t =>
      rw [hb] at hs
      change MotorOps.setExternalPosition _ t m p = some s at hs
      obtain ⟨last, rest, h1, h2⟩ := front_shadow (b.good t hb)
      unfold MotorOps.setExternalPosition at hs
      rw [h1] at hs
      injection hs with hs
      subst hs
      obtain ⟨r, k3⟩ := front_shrink (b.queue pend) (s := { t with shadow := ⟨fun i =>
        if i = m then ⟨p, (last.pos i).fraction, if p < 0 then -1 else 1⟩ else last.pos i, last.aux⟩ :: last :: rest }) rfl
      rw [front_some k3]
      congr 1
      funext k
      by_cases hk : k = m
      · simp [hk]
      · simp [hk, h2 k]
  bits := b.bits
  marked := by
    intro s hs
    cases hb : b.real with
    | none => rw [hb] at hs; cases hs
    | some t =>
      rw [hb] at hs
      change MotorOps.setExternalPosition _ t m p = some s at hs
      unfold MotorOps.setExternalPosition at hs
      split at hs
      · cases hs
      · injection hs with hs
        subst hs
        exact b.marked t hb
  time := b.time + 1
  drained := b.drained

/-- `GetPhysicalStatus` on the state. motion-queue-motor-operations.cc 211-235. -/
def Motors.position (b : Motors) : Option (Motor → Int) :=
  match b.real with
  | none => some b.place
  | some s => (MotorOps.getPhysicalStatus (b.queue pend) s).2.map Prod.fst

/-- `MotionQueueMotorOperations` as the machine control sees it, with the hardware mapping it acts on. The motors are
switched on before segments with steps (line 207). -/
def chain : Queue F Motors where
  enqueue x cmd :=
    let h := written c outputs x
    ((if ∀ m, cmd.steps m = 0 then h else enableMotors c h true, (x.2.enqueue flip timing pend cmd).1),
      (x.2.enqueue flip timing pend cmd).2)
  waitQueueEmpty x := (written c outputs x, x.2.wait pend)
  setExternalPosition x m p := (written c outputs x, x.2.external pend m p)
  motorEnable x on := (enableMotors c (written c outputs x) on, x.2.enable pend on)
  position x := x.2.position pend

/-- A new `MotionQueueMotorOperations`, lines 105-112. -/
def Motors.start : Motors where
  real := some (MotorOps.State.init [])
  place := fun _ => 0
  good := by
    intro s hs
    cases hs
    rfl
  bits := []
  marked := by
    intro s hs
    cases hs
    exact .nil
  time := 0
  drained := true

end BeagleG.Whole
