import Verif.MotorOps.Model
/-!
# C56: motors are switched on before they are moved, and only switched after the queue is empty

`MotionQueueMotorOperations` on a backend that records every call.
-/
namespace BeagleG.MotorOps

open StepGen (Motor MotionSegment)

/-- Calls to the hardware backend. -/
inductive HwCall where
  | enqueue (s : MotionSegment)
  | enable (on : Bool)
  | wait

/-- A backend that records the calls; whether a segment is accepted and what is reported as pending
is arbitrary. -/
def recording (accept : List HwCall → Bool) (pending : List HwCall → Nat × Nat) :
    Backend (List HwCall) where
  enqueue b s := (b ++ [.enqueue s], accept b)
  pending := pending
  motorEnable b on := b ++ [.enable on]
  waitQueueEmpty b := b ++ [.wait]

/-- A segment without loops moves nothing. -/
def HwCall.moves : HwCall → Prop
  | .enqueue s => s.loopsAccel ≠ 0 ∨ s.loopsTravel ≠ 0 ∨ s.loopsDecel ≠ 0
  | _ => False

/-- Specification: every segment that moves comes directly after switching the motors on. -/
def EnabledFirst (l : List HwCall) : Prop :=
  ∀ before c after, l = before ++ c :: after → c.moves → ∃ b, before = b ++ [.enable true]

theorem EnabledFirst.nil : EnabledFirst [] := by
  intro b c a h
  cases b <;> cases h

theorem EnabledFirst.append {l k : List HwCall} (h : EnabledFirst l) (h' : EnabledFirst k) :
    EnabledFirst (l ++ k) := by
  intro b c a e hm
  rw [List.append_eq_append_iff] at e
  rcases e with ⟨m, e1, e2⟩ | ⟨m, e1, e2⟩
  · obtain ⟨b', hb⟩ := h' m c a e2 hm
    exact ⟨l ++ b', by rw [e1, hb, List.append_assoc]⟩
  · cases m with
    | nil =>
      rw [List.nil_append] at e2
      obtain ⟨b', hb⟩ := h' [] c a (by rw [List.nil_append]; exact e2.symm) hm
      cases b' <;> cases hb
    | cons x m =>
      rw [List.cons_append] at e2
      injection e2 with e3 e4
      subst e3
      exact h b c m e1 hm

theorem EnabledFirst.pair (s : MotionSegment) : EnabledFirst [.enable true, .enqueue s] := by
  intro b c a e hm
  rcases b with _ | ⟨x, b⟩
  · injection e with e1 e2
    subst e1
    exact absurd hm (by simp [HwCall.moves])
  · injection e with e1 e2
    subst e1
    rcases b with _ | ⟨y, b⟩
    · exact ⟨[], rfl⟩
    · injection e2 with e3 e4
      cases b <;> cases e4

theorem EnabledFirst.one {c : HwCall} (hc : ¬ c.moves) : EnabledFirst [c] := by
  intro b c' a e hm
  rcases b with _ | ⟨x, b⟩
  · injection e with e1 e2
    subst e1
    exact absurd hm hc
  · injection e with e1 e2
    cases b <;> cases e2

section
variable (accept : List HwCall → Bool) (pending : List HwCall → Nat × Nat) (flip : Motor → Bool)

theorem enqueueInternal_calls {s s' : State (List HwCall)} {seg : LinearSegment} {D : Nat} {t : Timing}
    {r : Bool} (h : enqueueInternal (recording accept pending) flip s seg D t = some (s', r)) :
    ∃ new, s'.backend = s.backend ++ new ∧ EnabledFirst new := by
  unfold enqueueInternal at h
  cases hs : s.shadow with
  | nil => rw [hs] at h; simp at h
  | cons last rest =>
    rw [hs] at h
    simp only [Option.some.injEq, Prod.mk.injEq] at h
    obtain ⟨h1, -⟩ := h
    refine ⟨[.enable true, .enqueue (buildSegment flip seg D t)], ?_, EnabledFirst.pair _⟩
    rw [← h1]
    simp [recording]

theorem splitLoop_calls (aux : Nat) (timing : Nat → Timing) (hires : Motor → Int) :
    ∀ (n d : Nat) (acc prev : Motor → Int) (s s' : State (List HwCall)) (ret r : Bool),
      splitLoop (recording accept pending) flip aux timing hires n d acc prev s ret = some (s', r) →
      ∃ new, s'.backend = s.backend ++ new ∧ EnabledFirst new := by
  intro n
  induction n with
  | zero =>
    intro d acc prev s s' ret r h
    simp only [splitLoop, Option.some.injEq, Prod.mk.injEq] at h
    exact ⟨[], by rw [← h.1, List.append_nil], EnabledFirst.nil⟩
  | succ n ih =>
    intro d acc prev s s' ret r h
    simp only [splitLoop] at h
    split at h
    · simp at h
    · rename_i s1 he
      simp only [Option.some.injEq, Prod.mk.injEq] at h
      obtain ⟨new, e, hn⟩ := enqueueInternal_calls accept pending flip he
      exact ⟨new, by rw [← h.1, e], hn⟩
    · rename_i s1 he
      obtain ⟨new, e, hn⟩ := enqueueInternal_calls accept pending flip he
      obtain ⟨new', e', hn'⟩ := ih _ _ _ _ _ _ _ h
      exact ⟨new ++ new', by rw [e', e, List.append_assoc], hn.append hn'⟩

/-- **C56.** Whatever `Enqueue` sends to the hardware, each segment that moves a motor is sent directly
after enabling the motors. -/
theorem C56_enabled_before_move (timing : Nat → Timing) (s s' : State (List HwCall))
    (seg : LinearSegment) (r : Bool)
    (h : enqueue (recording accept pending) flip timing s seg = some (s', r)) :
    ∃ new, s'.backend = s.backend ++ new ∧ EnabledFirst new := by
  unfold enqueue at h
  simp only at h
  rw [Option.map_eq_some_iff] at h
  obtain ⟨p, hp, e⟩ := h
  have hb : s'.backend = p.1.backend := by
    have := congrArg (fun q => q.1.backend) e
    simp only [shrink] at this
    exact this.symm
  rw [hb]
  by_cases h0 : definingAxisSteps seg.steps = 0
  · rw [if_pos h0] at hp
    cases hs : s.shadow with
    | nil => rw [hs] at hp; simp at hp
    | cons last rest =>
      rw [hs] at hp
      simp only [Option.some.injEq] at hp
      refine ⟨_, by rw [← hp]; rfl, EnabledFirst.one ?_⟩
      simp [HwCall.moves]
  · rw [if_neg h0] at hp
    by_cases h1 : definingAxisSteps seg.steps > maxStepsPerSegment
    · rw [if_pos h1] at hp
      exact splitLoop_calls accept pending flip _ _ _ _ _ _ _ _ _ _ _ hp
    · rw [if_neg h1] at hp
      exact enqueueInternal_calls accept pending flip hp

/-- **C56.** The motors are switched on or off by `MotorEnable` only after waiting for the queue to be
empty. -/
theorem C56_enable_after_wait (s : State (List HwCall)) (on : Bool) :
    (motorEnable (recording accept pending) s on).backend = s.backend ++ [.wait, .enable on] ∧
    (motorEnable (recording accept pending) s on).shadow = s.shadow := by
  constructor
  · simp [motorEnable, recording]
  · rfl

end

/-- A move of three steps. -/
example : ((enqueue (recording (fun _ => true) (fun _ => (1, 0))) (fun _ => false)
    (fun _ => ⟨.travel, 0, 0, 1000⟩) (State.init []) ⟨fun i => if i = 0 then 3 else 0, 0⟩).map
      fun p => p.1.backend.length) = some 2 := by
  decide

end BeagleG.MotorOps
