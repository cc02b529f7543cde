import Verif.MotorOps.StatusLemmas
import Mathlib.Tactic.Linarith
/-!
# C27: the reported motor position

Setting: `MotionQueueMotorOperations` on top of a backend that accepts every element and that,
when asked, reports how many elements are outstanding and how many loops are left of the oldest
(`tracker`). Between two calls the hardware may progress arbitrarily, as long as the number of
outstanding elements does not grow on its own.
-/
namespace BeagleG.MotorOps

open StepGen (Motor MotionSegment)

/-- With `r` of `D` steps of the longest axis left, a motor that makes `δ` steps in the segment
has `⌈r·δ/D⌉` steps left: the fixed point computation is exact. -/
theorem remainingSteps_exact (δ D loops : Nat) (h0 : 0 < D) (hD : D ≤ 32767) (hδ : δ ≤ D)
    (hl : loops ≤ 2 * D) :
    remainingSteps loops (δ * maxFraction / D) = (loops / 2 * δ + (D - 1)) / D := by
  have e : maxFraction = 2147483647 := by decide
  have e2 : loopsPerStep = 2 := rfl
  unfold remainingSteps
  rw [e, e2]
  generalize hr : loops / 2 = r
  have hrD : r ≤ D := by omega
  obtain ⟨d, rfl⟩ : ∃ d, D = d + 1 := ⟨D - 1, by omega⟩
  generalize hf : δ * 2147483647 / (d + 1) = f
  have f1 : (d + 1) * f ≤ δ * 2147483647 := by rw [← hf]; exact Nat.mul_div_le _ _
  have f2 : δ * 2147483647 < (d + 1) * (f + 1) := by
    rw [← hf]; exact Nat.lt_mul_div_succ _ (by omega)
  simp only [Nat.add_sub_cancel, Nat.reduceSub]
  generalize hq : (r * δ + d) / (d + 1) = q
  have q1 : (d + 1) * q ≤ r * δ + d := by rw [← hq]; exact Nat.mul_div_le _ _
  have q2 : r * δ + d < (d + 1) * (q + 1) := by
    rw [← hq]; exact Nat.lt_mul_div_succ _ (by omega)
  -- r f = ⌈..⌉
  apply Nat.div_eq_of_lt_le
  · -- q * M ≤ r f + M - 1
    -- (d+1) q ≤ r δ + d ; multiply by M
    have a1 : (d + 1) * (q * 2147483647) ≤ r * (δ * 2147483647) + d * 2147483647 := by
      have := Nat.mul_le_mul_right 2147483647 q1
      calc (d + 1) * (q * 2147483647) = (d + 1) * q * 2147483647 := by ring
        _ ≤ _ := this
        _ = _ := by ring
    have a2 : r * (δ * 2147483647) ≤ r * ((d + 1) * (f + 1)) := Nat.mul_le_mul_left r (by omega)
    have a3 : r * ((d + 1) * (f + 1)) = (d + 1) * (r * f) + (d + 1) * r := by ring
    have a4 : (d + 1) * r ≤ 32767 * 32767 :=
      Nat.mul_le_mul hD (by omega)
    by_contra hcon
    have a5 : r * f + 2147483647 ≤ q * 2147483647 := by omega
    have a6 := Nat.mul_le_mul_left (d + 1) a5
    have a7 : (d + 1) * (r * f + 2147483647) = (d + 1) * (r * f) + d * 2147483647 + 2147483647 := by
      ring
    omega
  · -- r f + M - 1 < (q + 1) * M
    have a1 : (d + 1) * (r * f) ≤ r * δ * 2147483647 := by
      calc (d + 1) * (r * f) = r * ((d + 1) * f) := by ring
        _ ≤ r * (δ * 2147483647) := Nat.mul_le_mul_left r f1
        _ = _ := by ring
    by_contra hcon
    have h9 : (q + 1) * 2147483647 = q * 2147483647 + 2147483647 := Nat.succ_mul q 2147483647
    rw [h9] at hcon
    have a3 : q * 2147483647 + 1 ≤ r * f := by omega
    have a4 := Nat.mul_le_mul_left (d + 1) a3
    have a5 : r * δ ≤ (d + 1) * q := by
      have : (d + 1) * (q + 1) = (d + 1) * q + (d + 1) := by ring
      omega
    have a6 := Nat.mul_le_mul_right 2147483647 a5
    have a7 : (d + 1) * (q * 2147483647 + 1) = (d + 1) * q * 2147483647 + (d + 1) := by ring
    omega

/-- The reading: where a motor is, `loops` loops before the end of item `it`, that ends at `stop`:
`⌈loops/2 · |steps| / D⌉` steps before its end. -/
def onTheWay (it : Item) (stop : Int) (loops : Nat) (i : Motor) : Int :=
  stop - (it.steps i).sign * (((loops / 2 * (it.steps i).natAbs + (it.D - 1)) / it.D : Nat) : Int)

/-- **C27.** Whatever moves were enqueued and positions declared, interleaved with hardware progress
and status requests: there is a break-down of the requested moves into hardware elements such that

* with nothing outstanding and no loops left, the report is exactly the commanded position;
* otherwise, with `n` elements outstanding and `loops` loops left of the oldest of them (`it`), the
  report is `⌈loops/2·|steps|/D⌉` steps before the end of `it` (and the end of `it` with no loops
  left, also if `it` only sets aux bits);
* the aux bits are those of the element being executed. -/
theorem C27_position_report (flip : Motor → Bool) (as : List Act) (s : State Pend)
    (hrange : ∀ seg, some seg ∈ requests as → ∀ i, (seg.steps i).natAbs < 2 ^ 31)
    (hrun : runActs flip ⟨⟨0, 0⟩, [HistorySegment.default]⟩ as = some s) :
    ∃ groups, List.Forall₂ Piece (requests as) groups ∧
      ∃ pos aux, (getPhysicalStatus tracker s).2 = some (pos, aux) ∧
        -- everything executed
        (s.backend.count = 0 → s.backend.loops = 0 → pos = expected (fun _ => 0) as) ∧
        -- the oldest outstanding element (or the last one executed)
        ∀ before it after, groups.flatten = before ++ it :: after →
          after.length = max s.backend.count 1 - 1 →
          aux = it.aux ∧
          (s.backend.loops = 0 → ∀ i, pos i = posAfter (before ++ [it]) i) ∧
          (0 < it.D → s.backend.loops ≤ 2 * it.D →
            ∀ i, pos i = onTheWay it (posAfter (before ++ [it]) i) s.backend.loops i) := by
  have h0 : StatusInv (⟨⟨0, 0⟩, [HistorySegment.default]⟩ : State Pend) [] :=
    ⟨tracks_init, by simp⟩
  obtain ⟨groups, hg, hinv, hexp⟩ := runActs_inv flip as _ [] s h0 hrange hrun
  refine ⟨groups, hg, ?_⟩
  rw [List.append_nil] at hinv hexp
  have hexp' : expected (fun _ => 0) as = posAfter groups.flatten.reverse := hexp.symm
  have e0 : ∀ f, remainingSteps 0 f = 0 := by
    intro f; simp [remainingSteps, maxFraction, loopsPerStep]
  obtain ⟨⟨ht, -⟩, hlen, -⟩ := shrink_inv hinv
  generalize hsh : (shrink tracker s).shadow = sh at ht hlen
  have hk : max s.backend.count 1 - 1 < sh.length := by omega
  have hlast : sh.getLast? = some sh[max s.backend.count 1 - 1] := by
    rw [List.getLast?_eq_getElem?, List.getElem?_eq_getElem (by omega)]
    congr 2; omega
  have hst : (getPhysicalStatus tracker s).2 = some
      (fun i => (sh[max s.backend.count 1 - 1].pos i).position -
        (sh[max s.backend.count 1 - 1].pos i).sign *
          remainingSteps s.backend.loops (sh[max s.backend.count 1 - 1].pos i).fraction,
       sh[max s.backend.count 1 - 1].aux) := by
    simp only [getPhysicalStatus, hsh, hlast, Option.map_some]
    rfl
  refine ⟨_, _, hst, ?_, ?_⟩
  · intro hc hl
    funext i
    have hz : max s.backend.count 1 - 1 = 0 := by omega
    have hp := ht.pos _ hk i
    simp only [hl, e0]
    rw [hp, hexp']
    simp [hz]
  · intro before it after hsplit hafter
    have hrev : groups.flatten.reverse = after.reverse ++ it :: before.reverse := by
      rw [hsplit]; simp
    have hkl : max s.backend.count 1 - 1 < groups.flatten.reverse.length := by
      rw [hrev]; simp; omega
    have hget : groups.flatten.reverse[max s.backend.count 1 - 1] = it := by
      simp only [hrev]
      rw [List.getElem_append_right (by simp; omega)]
      simp [hafter]
    have hdrop : groups.flatten.reverse.drop (max s.backend.count 1 - 1) = it :: before.reverse := by
      rw [hrev, List.drop_append, List.drop_eq_nil_of_le (by simp; omega)]
      simp [hafter]
    have e1 : ∀ i, posAfter (it :: before.reverse) i = posAfter (before ++ [it]) i := by
      intro i; simp [posAfter]; omega
    refine ⟨?_, ?_, ?_⟩
    · rw [ht.aux _ hk hkl, hget]
    · intro hl i
      have hp := ht.pos _ hk i
      rw [hdrop, e1] at hp
      simp only [hl, e0, hp]
      simp
    · intro hD hloops i
      obtain ⟨hf, hs⟩ := ht.enc _ hk hkl (by rw [hget]; exact hD) i
      rw [hget] at hf hs
      have hp := ht.pos _ hk i
      rw [hdrop] at hp
      have hmem : it ∈ groups.flatten := by rw [hsplit]; simp
      have hb : it.D ≤ 32767 ∧ ∀ i, (it.steps i).natAbs ≤ it.D := by
        obtain ⟨g, hg1, hg2⟩ := List.mem_flatten.1 hmem
        obtain ⟨n, hn, rfl⟩ := List.getElem_of_mem hg1
        have := hg.get (by rw [hg.length_eq]; exact hn) hn
        generalize (requests as).get ⟨n, by rw [hg.length_eq]; exact hn⟩ = r at this
        cases r with
        | some seg => exact Breakdown.bound this _ hg2
        | none =>
          obtain ⟨jump, aux, e⟩ := this
          rw [List.get_eq_getElem] at e
          rw [e] at hg2
          simp only [List.mem_singleton] at hg2
          rw [hg2] at hD
          simp at hD
      rw [hp, hf, hs, remainingSteps_exact _ _ _ hD hb.1 (hb.2 i) hloops]
      unfold onTheWay
      rw [e1]
      congr 1
      rcases lt_trichotomy (it.steps i) 0 with h | h | h
      · rw [if_pos h, Int.sign_eq_neg_one_of_neg h]
      · have : (it.D - 1) / it.D = 0 := Nat.div_eq_of_lt (by omega)
        simp [h, this]
      · rw [if_neg (by omega), Int.sign_eq_one_of_pos h]

theorem expected_append (bs : List Act) : ∀ (as : List Act) (p : Motor → Int),
    expected p (as ++ bs) = expected (expected p as) bs
  | [], _ => rfl
  | .enqueue seg t :: as, p => expected_append bs as _
  | .setExternal a v :: as, p => expected_append bs as _
  | .status :: as, p => expected_append bs as p
  | .progress c l :: as, p => expected_append bs as p

theorem expected_moves : ∀ (bs : List Act) (p : Motor → Int), (∀ a v, Act.setExternal a v ∉ bs) → ∀ i,
    expected p bs i = p i + ((requests bs).filterMap id |>.map fun seg => seg.steps i).sum
  | [], p, _, i => by simp [expected, requests]
  | .enqueue seg t :: bs, p, h, i => by
    have ih := expected_moves bs (fun i => p i + seg.steps i) (fun a v hm => h a v (List.mem_cons_of_mem _ hm)) i
    show expected _ bs i = _
    rw [ih]
    simp [requests]
    omega
  | .setExternal a v :: bs, p, h, i => absurd List.mem_cons_self (h a v)
  | .status :: bs, p, h, i => expected_moves bs p (fun a v hm => h a v (List.mem_cons_of_mem _ hm)) i
  | .progress c l :: bs, p, h, i => expected_moves bs p (fun a v hm => h a v (List.mem_cons_of_mem _ hm)) i

/-- **C21, reported back**: between two moments at which nothing is outstanding, the reported position of every motor changes
by exactly the sum of the signed steps of the moves enqueued in between. -/
theorem C21_reported (flip : Motor → Bool) (as bs : List Act) (s s' : State Pend)
    (hrange : ∀ seg, some seg ∈ requests (as ++ bs) → ∀ i, (seg.steps i).natAbs < 2 ^ 31)
    (hb : ∀ a v, Act.setExternal a v ∉ bs)
    (h : runActs flip ⟨⟨0, 0⟩, [HistorySegment.default]⟩ as = some s) (h0 : s.backend = ⟨0, 0⟩)
    (h' : runActs flip ⟨⟨0, 0⟩, [HistorySegment.default]⟩ (as ++ bs) = some s') (h0' : s'.backend = ⟨0, 0⟩) :
    ∃ pos aux pos' aux', (getPhysicalStatus tracker s).2 = some (pos, aux) ∧
      (getPhysicalStatus tracker s').2 = some (pos', aux') ∧
      ∀ i, pos' i - pos i = ((requests bs).filterMap id |>.map fun seg => seg.steps i).sum := by
  have hreq : ∀ as : List Act, requests (as ++ bs) = requests as ++ requests bs := by
    intro as
    induction as with
    | nil => rfl
    | cons a as ih => cases a <;> simp [requests, ih]
  obtain ⟨g, -, pos, aux, k1, k2, -⟩ := C27_position_report flip as s
    (fun seg hm => hrange seg (by rw [hreq]; exact List.mem_append_left _ hm)) h
  obtain ⟨g', -, pos', aux', k1', k2', -⟩ := C27_position_report flip (as ++ bs) s' hrange h'
  refine ⟨pos, aux, pos', aux', k1, k1', fun i => ?_⟩
  rw [k2 (by rw [h0]) (by rw [h0]), k2' (by rw [h0']) (by rw [h0']), expected_append, expected_moves bs _ hb i]
  omega

/-- **C27**, consequences of the reading: at the start of the element it is the start position, at
its end the end position, and it never overshoots either end. -/
theorem C27_reading_exact_at_ends (it : Item) (stop : Int) (i : Motor) (h0 : 0 < it.D) :
    onTheWay it stop 0 i = stop ∧ onTheWay it stop (2 * it.D) i = stop - it.steps i := by
  unfold onTheWay
  constructor
  · have : (it.D - 1) / it.D = 0 := Nat.div_eq_of_lt (by omega)
    simp [this]
  · have e : 2 * it.D / 2 = it.D := by omega
    have e2 : (it.D * (it.steps i).natAbs + (it.D - 1)) / it.D = (it.steps i).natAbs := by
      rw [Nat.mul_add_div h0, Nat.div_eq_of_lt (by omega)]; rfl
    rw [e, e2, Int.sign_mul_natAbs]

/-- **C27**: progress (fewer loops left) moves the reading monotonically from start to end. -/
theorem C27_reading_monotone (it : Item) (stop : Int) (i : Motor) (l l' : Nat) (h0 : 0 < it.D)
    (h : l' ≤ l) (hl : l ≤ 2 * it.D) :
    (0 ≤ it.steps i → stop - it.steps i ≤ onTheWay it stop l i ∧
      onTheWay it stop l i ≤ onTheWay it stop l' i ∧ onTheWay it stop l' i ≤ stop) ∧
    (it.steps i ≤ 0 → stop ≤ onTheWay it stop l' i ∧
      onTheWay it stop l' i ≤ onTheWay it stop l i ∧ onTheWay it stop l i ≤ stop - it.steps i) := by
  have e2 : (it.D * (it.steps i).natAbs + (it.D - 1)) / it.D = (it.steps i).natAbs := by
    rw [Nat.mul_add_div h0, Nat.div_eq_of_lt (by omega)]; rfl
  have m1 : (l' / 2 * (it.steps i).natAbs + (it.D - 1)) / it.D ≤
      (l / 2 * (it.steps i).natAbs + (it.D - 1)) / it.D :=
    Nat.div_le_div_right (Nat.add_le_add_right (Nat.mul_le_mul_right _ (Nat.div_le_div_right h)) _)
  have m2 : (l / 2 * (it.steps i).natAbs + (it.D - 1)) / it.D ≤ (it.steps i).natAbs := by
    refine Nat.le_trans (Nat.div_le_div_right ?_) (Nat.le_of_eq e2)
    exact Nat.add_le_add_right (Nat.mul_le_mul_right _ (by omega)) _
  unfold onTheWay
  generalize (l' / 2 * (it.steps i).natAbs + (it.D - 1)) / it.D = a' at *
  generalize (l / 2 * (it.steps i).natAbs + (it.D - 1)) / it.D = a at *
  rcases lt_trichotomy (it.steps i) 0 with hs | hs | hs
  · rw [Int.sign_eq_neg_one_of_neg hs]; constructor <;> intro <;> omega
  · rw [hs]; simp
  · rw [Int.sign_eq_one_of_pos hs]; constructor <;> intro <;> omega

/-- Non-vacuity: two moves, the first finished, the second half way. -/
def sampleActs : List Act :=
  [.enqueue ⟨fun i => if i = 0 then 100 else if i = 1 then -50 else 0, 3⟩ (fun _ => ⟨.travel, 0, 0, 1000⟩),
   .enqueue ⟨fun i => if i = 0 then -10 else 0, 5⟩ (fun _ => ⟨.travel, 0, 0, 1000⟩),
   .progress 0 0, .setExternal 2 7,
   .enqueue ⟨fun i => if i = 0 then -10 else 0, 5⟩ (fun _ => ⟨.travel, 0, 0, 1000⟩),
   .enqueue ⟨fun i => if i = 0 then 8 else 0, 5⟩ (fun _ => ⟨.travel, 0, 0, 1000⟩),
   .progress 2 100, .status, .progress 1 10]

example : (∀ seg, some seg ∈ requests sampleActs → ∀ i, (seg.steps i).natAbs < 2 ^ 31) ∧
    ((runActs (fun _ => false) ⟨⟨0, 0⟩, [HistorySegment.default]⟩ sampleActs).bind fun s =>
      (getPhysicalStatus tracker s).2.map fun r => (r.1 0, r.1 1, r.1 2, r.2)) =
        some (83, -50, 7, 5) := by
  constructor
  · intro seg h i
    simp only [sampleActs, requests, List.mem_cons, Option.some.injEq, reduceCtorEq,
      List.not_mem_nil, or_false, false_or] at h
    rcases h with rfl | rfl | rfl | rfl <;> revert i <;> decide
  · decide +kernel

/-- The report may be wrong if count and progress are not read at the same instant: with
`count = 0` but `loops` left over from an earlier, longer element, the reported position lies
outside of every executed path (see C24 for how the backend can return this). -/
theorem C27_torn_reading_overshoots :
    ∃ s, runActs (fun _ => false) ⟨⟨0, 0⟩, [HistorySegment.default]⟩
      [.enqueue ⟨fun i => if i = 0 then 100 else 0, 3⟩ (fun _ => ⟨.travel, 0, 0, 1000⟩),
       .enqueue ⟨fun i => if i = 0 then 10 else 0, 5⟩ (fun _ => ⟨.travel, 0, 0, 1000⟩),
       .enqueue ⟨fun i => if i = 0 then -10 else 0, 5⟩ (fun _ => ⟨.travel, 0, 0, 1000⟩),
       .progress 0 200] = some s ∧
      ((getPhysicalStatus tracker s).2.map fun r => r.1 0) = some 200 := by
  refine ⟨_, rfl, ?_⟩
  decide +kernel

end BeagleG.MotorOps
