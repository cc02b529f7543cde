import Verif.MotorOps.Lemmas
/-!
# C19, C21: no step is lost on the way to the hardware
-/
namespace BeagleG.MotorOps

open StepGen (Motor MotionSegment Encodes NoEarlyStop noEstop pulses)

/-- **C21, parts.** No part of a long move turns a motor against the sign of the requested steps. -/
theorem C21_parts_keep_sign (steps : Int) (D d : Nat) (hD : 32767 < D) (hD2 : D < 2 ^ 31)
    (hd : d < divisions D) :
    (0 ≤ steps → 0 ≤ part steps (divisions D) d) ∧
    (steps ≤ 0 → part steps (divisions D) d ≤ 0) := by
  obtain ⟨n0, n1, n2, n3⟩ := divisions_bounds D hD hD2
  obtain ⟨H, hp, h1, h2⟩ := part_mem steps (divisions D) d n0 n1
  generalize divisions D = n at *
  constructor
  · intro h
    have : 0 ≤ H := by
      by_contra hc
      have : (H + 1) * n ≤ 0 * (n : Int) := by
        apply mul_le_mul_of_nonneg_right (by omega); omega
      omega
    omega
  · intro h
    rcases Int.lt_or_eq_of_le h with h | h
    · have : H < 0 := by
        by_contra hc
        have : 0 * (n : Int) ≤ H * n := by
          apply mul_le_mul_of_nonneg_right (by omega); omega
        omega
      omega
    · subst h
      unfold part hiresStepsPerDiv
      simp only [Int.zero_mul, Int.zero_tdiv]
      omega

/-- C19 and C21 together. -/
theorem no_step_lost_signed (ok : Nat → Bool) (pending : List MotionSegment → Nat × Nat)
    (flip : Motor → Bool) (timing : Nat → Timing) (s : State (List MotionSegment))
    (seg : LinearSegment) (hs : s.shadow ≠ []) (hrange : ∀ i, (seg.steps i).natAbs < 2 ^ 31)
    (hne : ∃ i, seg.steps i ≠ 0) :
    ∃ (parts : List (Motor → Int)) (segs : List MotionSegment) (s' : State (List MotionSegment))
      (k : Nat) (ret : Bool),
      enqueue (limited ok pending) flip timing s seg = some (s', ret) ∧
      List.Forall₂ (Realises flip) parts segs ∧
      (∀ i, (parts.map (fun p => p i)).sum = seg.steps i) ∧
      s'.backend = s.backend ++ segs.take k ∧
      (∀ h ∈ segs, h.aux = seg.aux) ∧
      (ret = true → k = segs.length) ∧
      (ret = false → k < segs.length ∧ ok (s.backend.length + k) = false) ∧
      (∀ p ∈ parts, ∀ i, (0 ≤ seg.steps i → 0 ≤ p i) ∧ (seg.steps i ≤ 0 → p i ≤ 0)) := by
  have hD0 : 0 < definingAxisSteps seg.steps := by
    obtain ⟨i, hi⟩ := hne
    have := le_defining seg.steps i
    omega
  have hD2 : definingAxisSteps seg.steps < 2 ^ 31 := by
    obtain ⟨i, hi⟩ := defining_attained seg.steps
    rw [← hi]; exact hrange i
  by_cases hbig : definingAxisSteps seg.steps > maxStepsPerSegment
  · have hbig' : 32767 < definingAxisSteps seg.steps := hbig
    obtain ⟨n0, n1, -, -⟩ := divisions_bounds _ hbig' hD2
    obtain ⟨k, hk, s', -, h1, h2, h3, h4⟩ := splitLoop_limited ok pending flip timing seg
      (definingAxisSteps seg.steps) (divisions (definingAxisSteps seg.steps)) 0 s false hs
    have hz : (fun i => hiresStepsPerDiv (seg.steps i)
        (divisions (definingAxisSteps seg.steps)) * ((0 : Nat) : Int)) = fun _ => 0 := by
      funext i; simp
    have hz2 : (fun i => hiresStepsPerDiv (seg.steps i)
        (divisions (definingAxisSteps seg.steps)) * ((0 : Nat) : Int) / 2 ^ 32) = fun _ => 0 := by
      funext i; simp
    rw [hz, hz2, if_neg (by omega)] at h1
    refine ⟨(List.range (divisions (definingAxisSteps seg.steps))).map
        (fun d => (partSegment seg (definingAxisSteps seg.steps) d).steps),
      (List.range (divisions (definingAxisSteps seg.steps))).map
        (fun d => partBuilt flip timing seg (definingAxisSteps seg.steps) d),
      shrink (limited ok pending) s', k, decide (k = divisions (definingAxisSteps seg.steps)),
      ?_, ?_, ?_, ?_, ?_, ?_, ?_, ?_⟩
    · unfold enqueue
      simp only [if_neg (show definingAxisSteps seg.steps ≠ 0 by omega), hbig, if_true, h1,
        Option.map_some]
    · rw [List.forall₂_map_left_iff, List.forall₂_map_right_iff, List.forall₂_same]
      intro d _
      obtain ⟨a, b⟩ := partSegment_defining seg d hbig' hD2
      exact buildSegment_realises flip (partSegment seg _ d) (timing d) a b
    · intro i
      rw [List.map_map]
      exact part_sum (seg.steps i) _ n0 n1
    · show s'.backend = _
      rw [h2, ← List.map_take, List.take_range, Nat.min_eq_left hk]
      simp
    · intro h hh
      rw [List.mem_map] at hh
      obtain ⟨d, -, rfl⟩ := hh
      rfl
    · intro h; simpa using h
    · intro h
      have hne : k ≠ divisions (definingAxisSteps seg.steps) := by simpa using h
      exact ⟨by simp; omega, h4 (by omega)⟩
    · intro p hp i
      rw [List.mem_map] at hp
      obtain ⟨d, hd, rfl⟩ := hp
      exact C21_parts_keep_sign (seg.steps i) _ d hbig' hD2 (List.mem_range.1 hd)
  · have hsmall : definingAxisSteps seg.steps ≤ 32767 := by
      have : maxStepsPerSegment = 32767 := by decide
      omega
    obtain ⟨last, rest, hsh⟩ : ∃ last rest, s.shadow = last :: rest := by
      cases h : s.shadow with
      | nil => exact absurd h hs
      | cons a b => exact ⟨a, b, rfl⟩
    refine ⟨[seg.steps], [buildSegment flip seg (definingAxisSteps seg.steps) (timing 0)], ?_⟩
    have hr := buildSegment_realises flip seg (timing 0) hD0 hsmall
    cases hok : ok s.backend.length with
    | true =>
      refine ⟨shrink (limited ok pending) ⟨s.backend ++ [buildSegment flip seg
          (definingAxisSteps seg.steps) (timing 0)],
        nextHistory last seg (definingAxisSteps seg.steps) :: last :: rest⟩, 1, true, ?_,
        .cons hr .nil, by simp, by simp [shrink], by simp [buildSegment], by simp, by simp, by simp⟩
      unfold enqueue enqueueInternal
      simp [if_neg (show definingAxisSteps seg.steps ≠ 0 by omega), hbig, hsh, limited, hok]
    | false =>
      refine ⟨shrink (limited ok pending) ⟨s.backend,
        nextHistory last seg (definingAxisSteps seg.steps) :: last :: rest⟩, 0, false, ?_,
        .cons hr .nil, by simp, by simp [shrink], by simp [buildSegment], by simp, by simp [hok], by simp⟩
      unfold enqueue enqueueInternal
      simp [if_neg (show definingAxisSteps seg.steps ≠ 0 by omega), hbig, hsh, limited, hok]

/-- **C19.** Whatever the number of steps requested per motor (any `int` but `INT_MIN`,
not all zero), whatever the timing: against a backend that takes segments according to
`ok`, `Enqueue` hands over a sequence of hardware segments, every one of which realises
some move `p` with 1..32767 steps on its longest axis (`Realises`, hence its loop counts fit
16 bit). If it reports success the moves add up, per motor, to exactly the request. If it
reports failure, the refusing answer was the backend's and what was handed over is a proper
prefix of that sequence. -/
theorem C19_no_step_lost (ok : Nat → Bool) (pending : List MotionSegment → Nat × Nat)
    (flip : Motor → Bool) (timing : Nat → Timing) (s : State (List MotionSegment))
    (seg : LinearSegment) (hs : s.shadow ≠ []) (hrange : ∀ i, (seg.steps i).natAbs < 2 ^ 31)
    (hne : ∃ i, seg.steps i ≠ 0) :
    ∃ (parts : List (Motor → Int)) (segs : List MotionSegment) (s' : State (List MotionSegment))
      (k : Nat) (ret : Bool),
      enqueue (limited ok pending) flip timing s seg = some (s', ret) ∧
      List.Forall₂ (Realises flip) parts segs ∧
      (∀ i, (parts.map (fun p => p i)).sum = seg.steps i) ∧
      s'.backend = s.backend ++ segs.take k ∧
      (∀ h ∈ segs, h.aux = seg.aux) ∧
      (ret = true → k = segs.length) ∧
      (ret = false → k < segs.length ∧ ok (s.backend.length + k) = false) := by
  obtain ⟨parts, segs, s', k, ret, h1, h2, h3, h4, h5, h6, h7, -⟩ :=
    no_step_lost_signed ok pending flip timing s seg hs hrange hne
  exact ⟨parts, segs, s', k, ret, h1, h2, h3, h4, h5, h6, h7⟩

/-- **C19, no move.** A request without steps hands over exactly one segment that makes no
loops and carries the aux bits. -/
theorem C19_zero_steps (ok : Nat → Bool) (pending : List MotionSegment → Nat × Nat)
    (flip : Motor → Bool) (timing : Nat → Timing) (s : State (List MotionSegment))
    (seg : LinearSegment) (hs : s.shadow ≠ []) (h0 : ∀ i, seg.steps i = 0)
    (hok : ok s.backend.length = true) :
    ∃ s' h, enqueue (limited ok pending) flip timing s seg = some (s', true) ∧
      s'.backend = s.backend ++ [h] ∧ h.loops = 0 ∧ (∀ i, h.fractions i = 0) ∧
      h.aux = seg.aux := by
  have hD : definingAxisSteps seg.steps = 0 := by
    obtain ⟨i, hi⟩ := defining_attained seg.steps
    rw [← hi, h0 i]; rfl
  obtain ⟨last, rest, hsh⟩ : ∃ last rest, s.shadow = last :: rest := by
    cases h : s.shadow with
    | nil => exact absurd h hs
    | cons a b => exact ⟨a, b, rfl⟩
  unfold enqueue
  simp only [hD, hsh, limited, hok, if_true, Option.map_some, shrink]
  exact ⟨_, _, rfl, rfl, rfl, fun _ => rfl, rfl⟩

/-- **C19, arithmetic range.** The 64 bit accumulators of the split never overflow: for every
division reached, the accumulated value lies strictly inside the `int64_t` range. -/
theorem C19_accumulator_in_range (steps : Int) (D d : Nat) (hD : 32767 < D) (hD2 : D < 2 ^ 31)
    (hs : steps.natAbs ≤ D) (hd : d ≤ divisions D) :
    (hiresStepsPerDiv steps (divisions D) * d).natAbs < 2 ^ 63 ∧
    (steps * 2 ^ 32).natAbs < 2 ^ 63 := by
  obtain ⟨n0, n1, n2, n3⟩ := divisions_bounds D hD hD2
  obtain ⟨e, e0, e1, he⟩ := hires_total steps (divisions D) n0
  have hn : divisions D ≤ 65539 := by
    unfold divisions maxStepsPerSegment loopsPerStep; omega
  constructor
  · generalize divisions D = n at *
    generalize hiresStepsPerDiv steps n = h at *
    have h1 : (h * d).natAbs ≤ (h * n).natAbs := by
      rw [Int.natAbs_mul, Int.natAbs_mul]
      apply Nat.mul_le_mul_left
      simpa using hd
    rw [he] at h1
    omega
  · omega

/-- Non-vacuity: a move that needs three divisions, with a fresh history. -/
example : (State.init ([] : List MotionSegment)).shadow ≠ [] ∧
    divisions (definingAxisSteps (fun i => if i = 0 then -70000 else if i = 1 then 5 else 0)) = 3 ∧
    (List.range 3).map (part (-70000) 3) = [-23334, -23333, -23333] ∧
    (List.range 3).map (part 5 3) = [1, 2, 2] := by decide +kernel

/-! ## C21: directions -/

/-- Axis movement seen by an observer of the pins who knows which motors are mirrored: each
pulse counts backwards if the direction line, mirrored for a mirrored motor, is asserted. -/
def axisSteps (flip : Motor → Bool) (s : MotionSegment) (prev : Bool) (i : Motor) : Int :=
  if s.dirPin i != flip i then -(pulses s noEstop prev i : Int) else pulses s noEstop prev i

/-- **C21.** A segment that realises a move turns every motor by exactly the signed number
of steps of the move: magnitude from the pulses, sign from the direction line. -/
theorem C21_direction_and_distance (flip : Motor → Bool) (p : Motor → Int) (s : MotionSegment)
    (h : Realises flip p s) (hn : NoEarlyStop s) (prev : Bool) (i : Motor) :
    axisSteps flip s prev i = p i := by
  obtain ⟨D, -, henc⟩ := h.enc
  obtain ⟨-, -, hp, -⟩ := StepGen.C20_exact_pulses s D _ henc hn prev i
  unfold axisSteps
  rw [hp, h.dir i]
  by_cases h0 : p i < 0
  · have : ((decide (p i < 0) != flip i) != flip i) = true := by simp [h0]
    rw [if_pos this]; omega
  · have : ((decide (p i < 0) != flip i) != flip i) = false := by simp [h0]
    rw [this]; simp; omega

theorem mem_right {α β : Type} {R : α → β → Prop} {l : List α} {l' : List β} (h : List.Forall₂ R l l') {b : β}
    (hb : b ∈ l') : ∃ a ∈ l, R a b := by
  induction h with
  | nil => cases hb
  | cons hr _ ih =>
    rcases List.mem_cons.1 hb with rfl | hm
    · exact ⟨_, List.mem_cons_self, hr⟩
    · obtain ⟨a, ha, h⟩ := ih hm
      exact ⟨a, List.mem_cons_of_mem _ ha, h⟩

/-- **C21, direction line.** Whatever `Enqueue` hands over for a move: the direction line of each motor that turns in a
segment is asserted exactly if the requested steps are negative, mirrored if the motor is mirrored. -/
theorem C21_direction (ok : Nat → Bool) (pending : List MotionSegment → Nat × Nat)
    (flip : Motor → Bool) (timing : Nat → Timing) (s s' : State (List MotionSegment)) (ret : Bool)
    (seg : LinearSegment) (hs : s.shadow ≠ []) (hrange : ∀ i, (seg.steps i).natAbs < 2 ^ 31)
    (h : enqueue (limited ok pending) flip timing s seg = some (s', ret)) :
    ∃ new, s'.backend = s.backend ++ new ∧
      ∀ m ∈ new, ∀ i, m.fractions i ≠ 0 → m.dirPin i = (decide (seg.steps i < 0) != flip i) := by
  by_cases hne : ∃ i, seg.steps i ≠ 0
  · obtain ⟨parts, segs, s1, k, r, h1, h2, -, h4, -, -, -, h8⟩ :=
      no_step_lost_signed ok pending flip timing s seg hs hrange hne
    rw [h] at h1
    cases h1
    refine ⟨_, h4, fun m hm i hi => ?_⟩
    obtain ⟨p, hp, hr⟩ := mem_right h2 (List.mem_of_mem_take hm)
    rw [hr.dir i]
    obtain ⟨D, -, e⟩ := hr.enc
    have hz : p i ≠ 0 := by
      intro h0
      apply hi
      rw [e.frac i, h0]
      simp
    obtain ⟨a, b⟩ := h8 p hp i
    have : p i < 0 ↔ seg.steps i < 0 := by
      constructor
      · intro h; by_contra hc; have := a (by omega); omega
      · intro h; have := b (by omega); omega
    simp only [this]
  · have h0 : ∀ i, seg.steps i = 0 := by
      intro i
      by_contra hc
      exact hne ⟨i, hc⟩
    have hD : definingAxisSteps seg.steps = 0 := by
      obtain ⟨i, hi⟩ := defining_attained seg.steps
      rw [← hi, h0 i]; rfl
    obtain ⟨last, rest, hsh⟩ : ∃ last rest, s.shadow = last :: rest := by
      cases h : s.shadow with
      | nil => exact absurd h hs
      | cons a b => exact ⟨a, b, rfl⟩
    unfold enqueue at h
    simp only [hD, if_true, hsh, Option.map_some, Option.some.injEq, Prod.mk.injEq] at h
    obtain ⟨rfl, -⟩ := h
    cases hok : ok s.backend.length
    · exact ⟨[], by simp [limited, shrink, hok], by simp⟩
    · refine ⟨[_], by simp only [limited, shrink, hok, if_true]; rfl, ?_⟩
      intro m hm i hi
      rw [List.mem_singleton] at hm
      subst hm
      exact absurd rfl hi

example : Realises (fun i => i = 1) (fun i => if i = 0 then 3 else if i = 1 then 2 else 0)
    StepGen.sampleSegment :=
  ⟨⟨3, ⟨0, rfl⟩, ⟨by decide, by decide, by decide, by decide, by decide⟩⟩, by decide⟩

end BeagleG.MotorOps
