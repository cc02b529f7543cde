import Verif.MotorOps.Spec
import Verif.StepGen.Props
import Mathlib.Tactic.Linarith
import Mathlib.Tactic.Ring
import Mathlib.Data.List.Forall2
/-!
# Helper lemmas for C19, C21, C27
-/
namespace BeagleG.MotorOps

open StepGen (Motor MotionSegment Encodes)

/-! ## Defining axis and direction bits -/

theorem foldl_max_ge (f : Motor → Nat) (l : List Motor) (a : Nat) :
    a ≤ l.foldl (fun acc i => max (f i) acc) a ∧
    (∀ i ∈ l, f i ≤ l.foldl (fun acc i => max (f i) acc) a) := by
  induction l generalizing a with
  | nil => simp
  | cons x l ih =>
    simp only [List.foldl_cons, List.mem_cons, forall_eq_or_imp]
    obtain ⟨h1, h2⟩ := ih (max (f x) a)
    exact ⟨by omega, by omega, h2⟩

theorem foldl_max_mem (f : Motor → Nat) (l : List Motor) (a : Nat) :
    l.foldl (fun acc i => max (f i) acc) a = a ∨
    ∃ i ∈ l, l.foldl (fun acc i => max (f i) acc) a = f i := by
  induction l generalizing a with
  | nil => simp
  | cons x l ih =>
    simp only [List.foldl_cons, List.mem_cons, exists_eq_or_imp]
    rcases ih (max (f x) a) with h | ⟨i, hi, h⟩
    · rw [h]
      rcases Nat.le_total (f x) a with h' | h'
      · left; omega
      · right; left; omega
    · right; right; exact ⟨i, hi, h⟩

theorem le_defining (steps : Motor → Int) (i : Motor) :
    (steps i).natAbs ≤ definingAxisSteps steps :=
  (foldl_max_ge (fun i => (steps i).natAbs) (List.finRange 8) 0).2 i (List.mem_finRange i)

theorem defining_attained (steps : Motor → Int) :
    ∃ i, (steps i).natAbs = definingAxisSteps steps := by
  rcases foldl_max_mem (fun i => (steps i).natAbs) (List.finRange 8) 0 with h | ⟨i, _, h⟩
  · refine ⟨0, ?_⟩
    have := le_defining steps 0
    have h' : definingAxisSteps steps = 0 := h
    omega
  · exact ⟨i, h.symm⟩

theorem testBit_foldl_or (c : Motor → Bool) (l : List Motor) (a : Nat) (j : Nat) :
    (l.foldl (fun acc i => if c i then acc ||| (1 <<< i.val) else acc) a).testBit j =
      (a.testBit j || l.any fun i => c i && decide (i.val = j)) := by
  induction l generalizing a with
  | nil => simp
  | cons x l ih =>
    simp only [List.foldl_cons, List.any_cons]
    rw [ih]
    by_cases hc : c x = true
    · simp only [hc, if_true, Nat.testBit_or, Nat.testBit_shiftLeft, Bool.true_and]
      have : (decide (j ≥ x.val) && (1 : Nat).testBit (j - x.val)) = decide (x.val = j) := by
        rw [Bool.eq_iff_iff]
        simp [Nat.testBit_one_eq_true_iff_self_eq_zero]
        omega
      rw [this, Bool.or_assoc]
    · simp [hc]

theorem directionBits_testBit (flip : Motor → Bool) (steps : Motor → Int) (i : Motor) :
    (directionBits flip steps).testBit i.val = dirBit flip steps i := by
  unfold directionBits
  rw [testBit_foldl_or, Bool.eq_iff_iff]
  simp only [Nat.zero_testBit, Bool.false_or, List.any_eq_true, Bool.and_eq_true,
    decide_eq_true_eq]
  constructor
  · rintro ⟨k, _, h1, h2⟩
    rwa [← Fin.ext h2]
  · intro h
    exact ⟨i, List.mem_finRange i, h, rfl⟩

theorem directionBits_lt (flip : Motor → Bool) (steps : Motor → Int) :
    directionBits flip steps < 2 ^ 8 := by
  apply Nat.lt_pow_two_of_testBit
  intro j hj
  unfold directionBits
  rw [testBit_foldl_or]
  simp only [Nat.zero_testBit, Bool.false_or, List.any_eq_false, Bool.and_eq_true,
    decide_eq_true_eq, not_and]
  intro k _ _
  have := k.isLt
  omega

theorem dirBit_eq (flip : Motor → Bool) (steps : Motor → Int) (i : Motor) :
    dirBit flip steps i = (decide (steps i < 0) != flip i) := by
  unfold dirBit
  by_cases h : steps i < 0 <;> cases flip i <;> simp [h]

/-! ## One segment -/

theorem buildSegment_loops (flip : Motor → Bool) (seg : LinearSegment) (D : Nat) (t : Timing)
    (hD : D ≤ 32767) : (buildSegment flip seg D t).loops = 2 * D := by
  have h : loopsPerStep * D % 2 ^ 16 = 2 * D := by
    unfold loopsPerStep; omega
  obtain ⟨ph, a, b, c⟩ := t
  cases ph <;> simp only [buildSegment, MotionSegment.loops, h] <;> omega

theorem buildSegment_realises (flip : Motor → Bool) (seg : LinearSegment) (t : Timing)
    (h0 : 0 < definingAxisSteps seg.steps) (h1 : definingAxisSteps seg.steps ≤ 32767) :
    Realises flip seg.steps (buildSegment flip seg (definingAxisSteps seg.steps) t) := by
  refine ⟨⟨_, defining_attained seg.steps, ⟨h0, h1, buildSegment_loops _ _ _ _ h1,
    le_defining seg.steps, ?_⟩⟩, ?_⟩
  · intro i
    have hle := le_defining seg.steps i
    have := StepGen.frac_bounds _ _ h0 hle _ rfl
    show (seg.steps i).natAbs * maxFraction / definingAxisSteps seg.steps % 2 ^ 32 = _
    have e : maxFraction = 2 ^ 31 - 1 := by decide
    rw [e, Nat.mod_eq_of_lt]
    omega
  · intro i
    show (directionBits flip seg.steps).testBit i.val = _
    rw [directionBits_testBit, dirBit_eq]

/-! ## Splitting -/

/-- The number of steps of one motor in the `d`-th part. -/
def part (steps : Int) (n d : Nat) : Int :=
  (hiresStepsPerDiv steps n * (d + 1)) / 2 ^ 32 - (hiresStepsPerDiv steps n * d) / 2 ^ 32

/-- `n` times the increment exceeds the wanted total by a little, never by a step. -/
theorem hires_total (s : Int) (n : Nat) (hn : 0 < n) :
    ∃ e : Int, 0 < e ∧ e < 2 * n ∧ hiresStepsPerDiv s n * n = s * 2 ^ 32 + e := by
  unfold hiresStepsPerDiv
  have h1 := Int.tdiv_mul_add_tmod (s * 2 ^ 32) n
  have h2 : ((s * 2 ^ 32).tmod n).natAbs < n := by
    have := Int.natAbs_tmod (s * 2 ^ 32) n
    rw [this]
    exact Nat.mod_lt _ (by simpa using hn)
  refine ⟨n - (s * 2 ^ 32).tmod n, by omega, by omega, ?_⟩
  rw [Int.add_mul]
  omega

theorem part_mem (s : Int) (n d : Nat) (hn : 0 < n) (hn2 : n < 2 ^ 31) :
    ∃ H : Int, (part s n d = H ∨ part s n d = H + 1) ∧ H * n ≤ s ∧ s < (H + 1) * n := by
  obtain ⟨e, e0, e1, he⟩ := hires_total s n hn
  refine ⟨hiresStepsPerDiv s n / 2 ^ 32, ?_, ?_, ?_⟩
  · unfold part
    have hx : hiresStepsPerDiv s n * (d + 1) = hiresStepsPerDiv s n * d + hiresStepsPerDiv s n := by
      ring
    rw [hx]
    generalize hiresStepsPerDiv s n * d = x
    generalize hiresStepsPerDiv s n = h
    omega
  · generalize hiresStepsPerDiv s n = h at *
    have h1 : h / 2 ^ 32 * 2 ^ 32 ≤ h := by omega
    have h2 : h / 2 ^ 32 * 2 ^ 32 * n ≤ h * n := by
      apply mul_le_mul_of_nonneg_right h1; omega
    have h3 : h / 2 ^ 32 * 2 ^ 32 * n = (h / 2 ^ 32 * n) * 2 ^ 32 := by ring
    rw [h3, he] at h2
    generalize h / 2 ^ 32 * n = y at *
    omega
  · generalize hiresStepsPerDiv s n = h at *
    have h1 : h ≤ h / 2 ^ 32 * 2 ^ 32 + 2 ^ 32 := by omega
    have h2 : h * n ≤ (h / 2 ^ 32 * 2 ^ 32 + 2 ^ 32) * n := by
      apply mul_le_mul_of_nonneg_right h1; omega
    have h3 : (h / 2 ^ 32 * 2 ^ 32 + 2 ^ 32) * n = ((h / 2 ^ 32 + 1) * n) * 2 ^ 32 := by ring
    rw [h3, he] at h2
    generalize (h / 2 ^ 32 + 1) * n = y at *
    omega

theorem divisions_bounds (D : Nat) (hD : 32767 < D) (hD2 : D < 2 ^ 31) :
    0 < divisions D ∧ divisions D < 2 ^ 31 ∧ divisions D < D ∧ D < 32767 * divisions D := by
  unfold divisions maxStepsPerSegment loopsPerStep
  omega

theorem part_bound (s : Int) (D d : Nat) (hD : 32767 < D) (hD2 : D < 2 ^ 31)
    (hs : s.natAbs ≤ D) : (part s (divisions D) d).natAbs ≤ 32767 := by
  obtain ⟨n0, n1, n2, n3⟩ := divisions_bounds D hD hD2
  obtain ⟨H, hp, h1, h2⟩ := part_mem s (divisions D) d n0 n1
  generalize divisions D = n at *
  have hH : H < 32767 := by
    by_contra hc
    have : 32767 * (n : Int) ≤ H * n := by
      apply mul_le_mul_of_nonneg_right (by omega); omega
    omega
  have hH2 : -32767 < H + 1 := by
    by_contra hc
    have : (H + 1) * n ≤ -32767 * (n : Int) := by
      apply mul_le_mul_of_nonneg_right (by omega); omega
    omega
  omega

theorem part_pos (s : Int) (D d : Nat) (hD : 32767 < D) (hD2 : D < 2 ^ 31)
    (hs : s.natAbs = D) : 0 < (part s (divisions D) d).natAbs := by
  obtain ⟨n0, n1, n2, n3⟩ := divisions_bounds D hD hD2
  obtain ⟨H, hp, h1, h2⟩ := part_mem s (divisions D) d n0 n1
  generalize divisions D = n at *
  rcases Int.natAbs_eq s with h | h
  · have : 0 < H := by
      by_contra hc
      have : (H + 1) * n ≤ 1 * (n : Int) := by
        apply mul_le_mul_of_nonneg_right (by omega); omega
      omega
    omega
  · have : H + 1 < 0 := by
      by_contra hc
      have : -1 * (n : Int) ≤ H * n := by
        apply mul_le_mul_of_nonneg_right (by omega); omega
      omega
    omega

/-- The parts telescope. -/
theorem part_sum_prefix (s : Int) (n k : Nat) :
    ((List.range k).map (fun d => part s n d)).sum = (hiresStepsPerDiv s n * k) / 2 ^ 32 := by
  induction k with
  | zero => simp
  | succ k ih =>
    rw [List.range_succ, List.map_append, List.sum_append, ih]
    simp [part]

theorem part_sum (s : Int) (n : Nat) (hn : 0 < n) (hn2 : n < 2 ^ 31) :
    ((List.range n).map (fun d => part s n d)).sum = s := by
  rw [part_sum_prefix]
  obtain ⟨e, e0, e1, he⟩ := hires_total s n hn
  rw [he]; omega

/-- The move of the `d`-th part. -/
def partSegment (seg : LinearSegment) (D d : Nat) : LinearSegment :=
  ⟨fun i => part (seg.steps i) (divisions D) d, seg.aux⟩

theorem partSegment_defining (seg : LinearSegment) (d : Nat)
    (hD : 32767 < definingAxisSteps seg.steps) (hD2 : definingAxisSteps seg.steps < 2 ^ 31) :
    0 < definingAxisSteps (partSegment seg (definingAxisSteps seg.steps) d).steps ∧
    definingAxisSteps (partSegment seg (definingAxisSteps seg.steps) d).steps ≤ 32767 := by
  constructor
  · obtain ⟨i, hi⟩ := defining_attained seg.steps
    have := part_pos (seg.steps i) _ d hD hD2 hi
    have h := le_defining (partSegment seg (definingAxisSteps seg.steps) d).steps i
    exact Nat.lt_of_lt_of_le this h
  · obtain ⟨i, hi⟩ := defining_attained (partSegment seg (definingAxisSteps seg.steps) d).steps
    rw [← hi]
    exact part_bound (seg.steps i) _ d hD hD2 (le_defining seg.steps i)

/-- The hardware segment of the `d`-th part. -/
def partBuilt (flip : Motor → Bool) (timing : Nat → Timing) (seg : LinearSegment) (D d : Nat) :
    MotionSegment :=
  buildSegment flip (partSegment seg D d) (definingAxisSteps (partSegment seg D d).steps)
    (timing d)

/-- The loop, run against a backend that accepts according to `ok`. -/
theorem splitLoop_limited (ok : Nat → Bool) (pending : List MotionSegment → Nat × Nat)
    (flip : Motor → Bool) (timing : Nat → Timing) (seg : LinearSegment) (D : Nat) :
    ∀ (n d : Nat) (s : State (List MotionSegment)) (ret : Bool), s.shadow ≠ [] →
      ∃ k ≤ n, ∃ s', s'.shadow ≠ [] ∧
        splitLoop (limited ok pending) flip seg.aux timing
          (fun i => hiresStepsPerDiv (seg.steps i) (divisions D)) n d
          (fun i => hiresStepsPerDiv (seg.steps i) (divisions D) * d)
          (fun i => hiresStepsPerDiv (seg.steps i) (divisions D) * d / 2 ^ 32) s ret =
          some (s', if n = 0 then ret else decide (k = n)) ∧
        s'.backend = s.backend ++ (List.range k).map (fun j => partBuilt flip timing seg D (d + j)) ∧
        (∀ j < k, ok (s.backend.length + j) = true) ∧
        (k < n → ok (s.backend.length + k) = false) := by
  intro n
  induction n with
  | zero =>
    intro d s ret hs
    exact ⟨0, by omega, s, hs, by simp [splitLoop], by simp, by simp, by simp⟩
  | succ n ih =>
    intro d s ret hs
    obtain ⟨last, rest, hsh⟩ : ∃ last rest, s.shadow = last :: rest := by
      cases h : s.shadow with
      | nil => exact absurd h hs
      | cons a b => exact ⟨a, b, rfl⟩
    have hmul : ∀ i, hiresStepsPerDiv (seg.steps i) (divisions D) * d +
        hiresStepsPerDiv (seg.steps i) (divisions D) =
        hiresStepsPerDiv (seg.steps i) (divisions D) * ((d + 1 : Nat) : Int) := by
      intro i; push_cast; ring
    have hout : (⟨fun i => hiresStepsPerDiv (seg.steps i) (divisions D) * ((d + 1 : Nat) : Int) / 2 ^ 32 -
        hiresStepsPerDiv (seg.steps i) (divisions D) * d / 2 ^ 32, seg.aux⟩ : LinearSegment) =
        partSegment seg D d := by
      unfold partSegment part
      simp
    have hst : (fun i => hiresStepsPerDiv (seg.steps i) (divisions D) * ((d + 1 : Nat) : Int) / 2 ^ 32 -
        hiresStepsPerDiv (seg.steps i) (divisions D) * d / 2 ^ 32) =
        (partSegment seg D d).steps := by rw [← hout]
    rw [splitLoop]
    simp only [hmul, hst]
    unfold enqueueInternal
    simp only [hsh]
    cases hok : ok s.backend.length with
    | false =>
      refine ⟨0, by omega, ⟨s.backend, nextHistory last (partSegment seg D d)
        (definingAxisSteps (partSegment seg D d).steps) :: last :: rest⟩, by simp, ?_, by simp,
        by simp, fun _ => by simpa using hok⟩
      simp [limited, hok]
      rfl
    | true =>
      simp only [limited, hok, if_true]
      obtain ⟨k, hk, s', h0, h1, h2, h3, h4⟩ := ih (d + 1)
        ⟨s.backend ++ [partBuilt flip timing seg D d],
          nextHistory last (partSegment seg D d) (definingAxisSteps (partSegment seg D d).steps)
            :: last :: rest⟩ true (by simp)
      refine ⟨k + 1, by omega, s', h0, ?_, ?_, ?_, ?_⟩
      · have e : (if n + 1 = 0 then ret else decide (k + 1 = n + 1)) =
            (if n = 0 then true else decide (k = n)) := by
          by_cases hn : n = 0
          · subst hn; simp; omega
          · simp [hn]
        rw [e]
        exact h1
      · rw [h2, List.range_succ_eq_map]
        simp [Function.comp_def, Nat.add_comm, Nat.add_left_comm]
      · intro j hj
        cases j with
        | zero => simpa using hok
        | succ j =>
          have := h3 j (by omega)
          simp only [List.length_append, List.length_singleton] at this
          rwa [Nat.add_right_comm, Nat.add_assoc] at this
      · intro hlt
        have := h4 (by omega)
        simp only [List.length_append, List.length_singleton] at this
        rwa [Nat.add_right_comm, Nat.add_assoc] at this

end BeagleG.MotorOps
