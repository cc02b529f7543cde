import Verif.Sim.TableProps

/-!
# Model of `/repo/src/sim-firmware.cc`: messages and remarks

What `SimFirmwareQueue::Enqueue` says about the phases of a segment: the lines on `stderr` and the remark in the last
column of the table (with `JERK_EXPERIMENT` 0).
-/
namespace BeagleG.Sim

open StepGen (Motor MotionSegment Regs simDelay simDelay_done simDelay_eq calculateDelay calculateDelay_loops)
open Idiv (reg)
open StepGen (sub32)

/-- The lines on `stderr`, sim-firmware.cc 238-243, 259-263, 270-273, 280-285 and 298-302, with the values they show.
`cycles` is the number of which the source prints the 32nd part, with three digits. -/
inductive Message where
  | accelStart (index cycles loops : Nat)
  | accelEnd (index cycles : Nat)
  | travel (cycles loops : Nat)
  | decelStart (index cycles loops : Nat)
  | decelEnd (index cycles : Nat)
  deriving DecidableEq

/-- `msg`, sim-firmware.cc 199, 237, 269 and 279. -/
inductive Remark where
  | none
  | accel
  | travel
  | decel
  deriving DecidableEq

/-- What a pass of the loop says: its lines on `stderr` and its remark. sim-firmware.cc 187-322. -/
structure Said where
  messages : List Message
  remark : Remark
  deriving DecidableEq

/-- What is said in a pass, sim-firmware.cc 199 and 235-303; `first`: `is_first`; `r`, `r'`: the segment before and after
the pass. In the last case the loop is left. -/
def said (first : Bool) (r r' : Regs) : Said :=
  if r.loopsAccel > 0 then
    { messages := (if first then [.accelStart r.index r.cycles r.loopsAccel] else []) ++
        (if r'.loopsAccel = 0 then [.accelEnd r'.index r'.cycles] else [])
      remark := if first then .accel else .none }
  else if r.loopsTravel > 0 then
    { messages := if first then [.travel r.travelDelay r.loopsTravel] else []
      remark := if first then .travel else .none }
  else if r.loopsDecel > 0 then
    { messages := (if first then [.decelStart r.index r.cycles r.loopsDecel] else []) ++
        (if r'.loopsDecel = 0 then [.decelEnd r'.index r'.cycles] else [])
      remark := if first then .decel else .none }
  else { messages := [], remark := .none }

/-- The loop of `Enqueue`, sim-firmware.cc 187-322, of which only what is said is kept. `is_first` is set before the loop,
line 183, and cleared with the first message, lines 244, 274 and 286. -/
def saidLoop : (fuel : Nat) → Bool → Regs → Option (List Said)
  | 0, _, _ => none
  | fuel + 1, first, r =>
    match simDelay r with
    | none => some []
    | some (r', _) =>
      let first' := if r.loopsAccel > 0 ∨ r.loopsTravel > 0 ∨ r.loopsDecel > 0 then false else first
      (saidLoop fuel first' r').map (said first r r' :: ·)

/-- `Enqueue`, sim-firmware.cc 165-324; `none` in place of a segment is the exit marker, line 166. -/
def sayings : Option MotionSegment → Option (List Said)
  | none => some []
  | some s => saidLoop (s.loops + 1) true (Regs.simLoad s)

/-! ## The segment during the simulation -/

/-- The segment after some passes of the loop. -/
def passed : Nat → Regs → Regs
  | 0, r => r
  | n + 1, r => match simDelay r with
    | none => r
    | some (r', _) => passed n r'

/-- A pass takes one loop, of the first phase that has some left. -/
theorem simDelay_counts {r r' : Regs} {d : Nat} (h : simDelay r = some (r', d)) :
    (r'.loopsAccel = r.loopsAccel - 1 ∧ r'.loopsTravel = r.loopsTravel - (if r.loopsAccel > 0 then 0 else 1) ∧
      r'.loopsDecel = r.loopsDecel - (if r.loopsAccel > 0 ∨ r.loopsTravel > 0 then 0 else 1)) ∧
    (r.loopsAccel > 0 ∨ r.loopsTravel > 0 ∨ r.loopsDecel > 0) := by
  unfold simDelay at h
  by_cases ha : r.loopsAccel > 0
  · rw [if_pos ha] at h
    simp only [Option.some.injEq, Prod.mk.injEq] at h
    by_cases hi : r.index ≠ 0
    · simp only [if_pos hi] at h
      rw [← h.1]; simp [ha]
    · simp only [if_neg hi] at h
      rw [← h.1]; simp [ha]
  · rw [if_neg ha] at h
    by_cases ht : r.loopsTravel > 0
    · rw [if_pos ht] at h
      simp only [Option.some.injEq, Prod.mk.injEq] at h
      rw [← h.1]; simp [ha, ht]; omega
    · rw [if_neg ht] at h
      by_cases hd : r.loopsDecel > 0
      · rw [if_pos hd] at h
        simp only [Option.some.injEq, Prod.mk.injEq] at h
        rw [← h.1]; simp [ha, ht, hd]; omega
      · rw [if_neg hd] at h; exact absurd h (by simp)

/-- A pass has an effect on the index in the table of the series. -/
theorem simDelay_index {r r' : Regs} {d : Nat} (h : simDelay r = some (r', d)) :
    r'.index = if r.loopsAccel > 0 then reg (r.index + 1) else if r.loopsTravel > 0 then r.index
      else sub32 r.index 1 := by
  unfold simDelay at h
  by_cases ha : r.loopsAccel > 0
  · rw [if_pos ha] at h
    simp only [Option.some.injEq, Prod.mk.injEq] at h
    by_cases hi : r.index ≠ 0
    · simp only [if_pos hi] at h
      rw [← h.1]; simp [ha]
    · simp only [if_neg hi] at h
      rw [← h.1]; simp [ha]
  · rw [if_neg ha] at h
    by_cases ht : r.loopsTravel > 0
    · rw [if_pos ht] at h
      simp only [Option.some.injEq, Prod.mk.injEq] at h
      rw [← h.1]; simp [ha, ht]
    · rw [if_neg ht] at h
      by_cases hd : r.loopsDecel > 0
      · rw [if_pos hd] at h
        simp only [Option.some.injEq, Prod.mk.injEq] at h
        rw [← h.1]; simp [ha, ht]
      · rw [if_neg hd] at h; exact absurd h (by simp)

/-! ## What should be said -/

/-- The line for the first phase of a segment. -/
def opening (r : Regs) : List Message :=
  if r.loopsAccel > 0 then [.accelStart r.index r.cycles r.loopsAccel]
  else if r.loopsTravel > 0 then [.travel r.travelDelay r.loopsTravel]
  else [.decelStart r.index r.cycles r.loopsDecel]

/-- The remark for the first phase of a segment. -/
def openingRemark (r : Regs) : Remark :=
  if r.loopsAccel > 0 then .accel else if r.loopsTravel > 0 then .travel else .decel

/-- What pass `j` says: the first one names its phase, the last ones of acceleration and deceleration their end. -/
def expected (first : Bool) (r : Regs) (j : Nat) : Said :=
  { messages := (if first ∧ j = 0 then opening r else []) ++
      (if j + 1 = r.loopsAccel then [.accelEnd (passed (j + 1) r).index (passed (j + 1) r).cycles] else []) ++
      (if j + 1 = r.loops ∧ r.loopsDecel > 0 then [.decelEnd (passed (j + 1) r).index (passed (j + 1) r).cycles] else [])
    remark := if first ∧ j = 0 then openingRemark r else .none }

theorem said_expected {first : Bool} {r r' : Regs} {d : Nat} (h : simDelay r = some (r', d)) :
    said first r r' = expected first r 0 := by
  obtain ⟨⟨h1, h2, h3⟩, h4⟩ := simDelay_counts h
  have hp : passed 1 r = r' := by simp only [passed, h]
  unfold said expected
  rw [hp]
  simp only [and_true, Nat.zero_add, Regs.loops, opening, openingRemark]
  by_cases ha : r.loopsAccel > 0
  · by_cases hl : r.loopsAccel = 1
    · have : ¬ (1 = r.loopsAccel + r.loopsTravel + r.loopsDecel ∧ r.loopsDecel > 0) := by omega
      have h0 : r'.loopsAccel = 0 := by omega
      simp only [if_pos ha, if_neg this, if_pos h0, if_pos hl.symm, List.append_nil]
    · have : ¬ (1 = r.loopsAccel + r.loopsTravel + r.loopsDecel ∧ r.loopsDecel > 0) := by omega
      have h0 : ¬ r'.loopsAccel = 0 := by omega
      have hl' : ¬ 1 = r.loopsAccel := by omega
      simp only [if_pos ha, if_neg this, if_neg h0, if_neg hl', List.append_nil]
  · have hl' : ¬ 1 = r.loopsAccel := by omega
    by_cases ht : r.loopsTravel > 0
    · have : ¬ (1 = r.loopsAccel + r.loopsTravel + r.loopsDecel ∧ r.loopsDecel > 0) := by omega
      simp only [if_neg ha, if_pos ht, if_neg this, if_neg hl', List.append_nil]
    · have hd : r.loopsDecel > 0 := by omega
      rw [if_neg (by omega)] at h3
      by_cases hl : r'.loopsDecel = 0
      · have : 1 = r.loopsAccel + r.loopsTravel + r.loopsDecel ∧ r.loopsDecel > 0 := by omega
        simp only [if_neg ha, if_neg ht, if_pos hd, if_pos this, if_pos hl, if_neg hl', List.append_nil]
      · have : ¬ (1 = r.loopsAccel + r.loopsTravel + r.loopsDecel ∧ r.loopsDecel > 0) := by omega
        simp only [if_neg ha, if_neg ht, if_pos hd, if_neg this, if_neg hl, if_neg hl', List.append_nil]

theorem expected_next {first : Bool} {r r' : Regs} {d : Nat} (h : simDelay r = some (r', d)) (j : Nat)
    (hj : j < r'.loops) : expected false r' j = expected first r (j + 1) := by
  obtain ⟨⟨h1, h2, h3⟩, h4⟩ := simDelay_counts h
  have hp : passed (j + 1 + 1) r = passed (j + 1) r' := by rw [passed]; simp only [h]
  have e1 : (j + 1 = r'.loopsAccel) ↔ (j + 1 + 1 = r.loopsAccel) := by omega
  have e2 : (j + 1 = r'.loops ∧ r'.loopsDecel > 0) ↔ (j + 1 + 1 = r.loops ∧ r.loopsDecel > 0) := by
    simp only [Regs.loops] at hj ⊢
    by_cases ha : r.loopsAccel > 0
    · rw [if_pos ha] at h2; rw [if_pos (Or.inl ha)] at h3; omega
    · rw [if_neg ha] at h2
      by_cases ht : r.loopsTravel > 0
      · rw [if_pos (Or.inr ht)] at h3; omega
      · rw [if_neg (by omega)] at h3; omega
  have e3 : ¬ (false = true ∧ j = 0) := by simp
  have e4 : ¬ (first = true ∧ j + 1 = 0) := by omega
  simp only [expected, hp, e1, e2, if_neg e3, if_neg e4]

theorem saidLoop_expected (L : Nat) : ∀ (first : Bool) (r : Regs), r.loops = L →
    ∃ l, saidLoop (L + 1) first r = some l ∧ l.length = L ∧
      ∀ j (h : j < l.length), l[j] = expected first r j := by
  induction L with
  | zero => exact fun first r hr => ⟨[], by rw [saidLoop, simDelay_done r hr], rfl, fun j h => by simp at h⟩
  | succ L ih =>
    intro first r hr
    obtain ⟨d, h1, -⟩ := simDelay_eq r (by omega)
    have hl : (calculateDelay r).1.loops = L := by
      rw [calculateDelay_loops r (by omega)]; omega
    obtain ⟨l, h2, h3, h4⟩ := ih false _ hl
    obtain ⟨-, hc⟩ := simDelay_counts h1
    refine ⟨said first r (calculateDelay r).1 :: l, ?_, by simp [h3], ?_⟩
    · rw [saidLoop, h1]
      simp only [if_pos hc, h2, Option.map_some]
    · intro j hj
      cases j with
      | zero => exact said_expected h1
      | succ j =>
        simp only [List.length_cons] at hj
        simp only [List.getElem_cons_succ]
        rw [h4 j (by omega), expected_next h1 j (by omega)]

/-! ## The property -/

/-- **C109 (partial).** There is one row for each loop of the segment; the first row names the phase with which the
segment begins, and only this row has a remark; the last loops of acceleration and deceleration report their end, with
the values after this loop; nothing else is said. -/
theorem C109_said_partial (s : MotionSegment) :
    ∃ l, sayings (some s) = some l ∧ l.length = s.loops ∧
      ∀ j (h : j < l.length),
        l[j].messages = (if j = 0 then opening (Regs.simLoad s) else []) ++
          (if j + 1 = s.loopsAccel then
            [.accelEnd (passed (j + 1) (Regs.simLoad s)).index (passed (j + 1) (Regs.simLoad s)).cycles] else []) ++
          (if j + 1 = s.loops ∧ s.loopsDecel > 0 then
            [.decelEnd (passed (j + 1) (Regs.simLoad s)).index (passed (j + 1) (Regs.simLoad s)).cycles] else []) ∧
        l[j].remark = if j = 0 then openingRemark (Regs.simLoad s) else .none := by
  obtain ⟨l, h1, h2, h3⟩ := saidLoop_expected s.loops true (Regs.simLoad s) rfl
  refine ⟨l, h1, h2, fun j h => ?_⟩
  rw [h3 j h]
  constructor
  · simp only [expected, true_and]; rfl
  · simp only [expected, true_and]

theorem passed_accel (n : Nat) : ∀ r : Regs, r.index < 2 ^ 32 → n ≤ r.loopsAccel →
    (passed n r).index = (r.index + n) % 2 ^ 32 := by
  induction n with
  | zero => intro r hr _; exact (Nat.mod_eq_of_lt hr).symm
  | succ n ih =>
    intro r hr hn
    obtain ⟨d, h1, -⟩ := simDelay_eq r (by unfold Regs.loops; omega)
    obtain ⟨⟨hc, -, -⟩, -⟩ := simDelay_counts h1
    have hi := simDelay_index h1
    rw [if_pos (by omega)] at hi
    simp only [passed, h1]
    have hr' : (calculateDelay r).1.index < 2 ^ 32 := by rw [hi]; exact Nat.mod_lt _ (by decide)
    rw [ih _ hr' (by omega), hi]
    simp only [reg]; omega

theorem passed_all (n : Nat) : ∀ r : Regs, r.loops = n → r.index + r.loopsAccel < 2 ^ 32 →
    r.loopsDecel ≤ r.index + r.loopsAccel →
    (passed n r).index + r.loopsDecel = r.index + r.loopsAccel := by
  induction n with
  | zero => intro r hr _ _; unfold Regs.loops at hr; simp only [passed]; omega
  | succ n ih =>
    intro r hr h2 h3
    obtain ⟨d, h1, -⟩ := simDelay_eq r (by omega)
    have hl : (calculateDelay r).1.loops = n := by
      rw [calculateDelay_loops r (by omega)]; omega
    obtain ⟨⟨c1, c2, c3⟩, c4⟩ := simDelay_counts h1
    have hi := simDelay_index h1
    simp only [passed, h1]
    by_cases ha : r.loopsAccel > 0
    · rw [if_pos ha] at hi; rw [if_pos (Or.inl ha)] at c3
      have hi' : (calculateDelay r).1.index = r.index + 1 := by
        rw [hi]; exact Nat.mod_eq_of_lt (by omega)
      have := ih _ hl (by omega) (by omega)
      omega
    · rw [if_neg ha] at hi
      by_cases ht : r.loopsTravel > 0
      · rw [if_pos ht] at hi; rw [if_pos (Or.inr ht)] at c3
        have := ih _ hl (by omega) (by omega)
        omega
      · rw [if_neg ht] at hi; rw [if_neg (by omega)] at c3
        have hi' : (calculateDelay r).1.index = r.index - 1 := by
          rw [hi]; unfold sub32 reg; omega
        have := ih _ hl (by omega) (by omega)
        omega

/-- **C109.** The index reported at the end of the acceleration is that of the beginning and the number of loops; after
the deceleration it is less by the number of its loops. (At 0 the machine stands still: the index counts the loops from
there.) -/
theorem C109_index (s : MotionSegment) (hi : s.accelSeriesIndex < 2 ^ 32) :
    (passed s.loopsAccel (Regs.simLoad s)).index = (s.accelSeriesIndex + s.loopsAccel) % 2 ^ 32 ∧
    (s.accelSeriesIndex + s.loopsAccel < 2 ^ 32 → s.loopsDecel ≤ s.accelSeriesIndex + s.loopsAccel →
      (passed s.loops (Regs.simLoad s)).index = s.accelSeriesIndex + s.loopsAccel - s.loopsDecel) := by
  refine ⟨passed_accel _ (Regs.simLoad s) hi (Nat.le_refl _), fun h1 h2 => ?_⟩
  have := passed_all s.loops (Regs.simLoad s) rfl h1 h2
  simp only [Regs.simLoad] at this ⊢
  omega

/-- **C109.** Violation: the beginning of a phase is only reported if the segment begins with it. In no segment that
accelerates is there a line for the travel or for the beginning of the deceleration, nor a remark in their rows; in one
that begins with travel, none for the beginning of the deceleration. -/
theorem C109_silent (s : MotionSegment) (l : List Said) (h : sayings (some s) = some l) (x : Said) (hx : x ∈ l) :
    (s.loopsAccel > 0 → x.remark ≠ .travel ∧ ∀ a b, .travel a b ∉ x.messages) ∧
    (s.loopsAccel > 0 ∨ s.loopsTravel > 0 → x.remark ≠ .decel ∧ ∀ a b c, .decelStart a b c ∉ x.messages) := by
  obtain ⟨l', h1, -, h3⟩ := C109_said_partial s
  rw [h, Option.some.injEq] at h1
  subst h1
  obtain ⟨j, hj, rfl⟩ := List.mem_iff_getElem.1 hx
  obtain ⟨hm, hr⟩ := h3 j hj
  have ea : (Regs.simLoad s).loopsAccel = s.loopsAccel := rfl
  have et : (Regs.simLoad s).loopsTravel = s.loopsTravel := rfl
  rw [hm, hr]
  constructor
  · intro ha
    simp only [opening, openingRemark, ea, et, if_pos ha]
    refine ⟨by split <;> simp, fun a b => ?_⟩
    simp only [List.mem_append, not_or]
    refine ⟨⟨by split <;> simp, by split <;> simp⟩, by split <;> simp⟩
  · intro ha
    simp only [opening, openingRemark, ea, et]
    by_cases h0 : s.loopsAccel > 0
    · simp only [if_pos h0]
      refine ⟨by split <;> simp, fun a b c => ?_⟩
      simp only [List.mem_append, not_or]
      refine ⟨⟨by split <;> simp, by split <;> simp⟩, by split <;> simp⟩
    · have ht : s.loopsTravel > 0 := by omega
      simp only [if_neg h0, if_pos ht]
      refine ⟨by split <;> simp, fun a b c => ?_⟩
      simp only [List.mem_append, not_or]
      refine ⟨⟨by split <;> simp, by split <;> simp⟩, by split <;> simp⟩

/-- **C109.** The lines belong to the table: for each row that is printed there is one pass. -/
theorem C109_rows (s : MotionSegment) (hn : StepGen.NoEarlyStop s) (t : Table) :
    ∃ rows t' l, t.enqueue (some s) = some (rows, t') ∧ sayings (some s) = some l ∧ rows.length = l.length := by
  obtain ⟨rows, t', h1, -, h2, -⟩ := tableLoop_full s.fractions s.dirPin s.loops (Regs.simLoad s)
    (fun _ => 0) t 0 s.loops rfl hn
  obtain ⟨l, h4, h5, -⟩ := C109_said_partial s
  exact ⟨rows, t', l, h1, h4, by omega⟩

/-- A segment with all phases. -/
def exSaid : MotionSegment :=
  { loopsAccel := 2, loopsTravel := 1, loopsDecel := 2, accelSeriesIndex := 0, hiresAccelCycles := 3200
    travelDelayCycles := 50, fractions := fun _ => 0, directionBits := 0, aux := 0 }

/-- All that is said about it; the travel and the beginning of the deceleration are missing. -/
example : sayings (some exSaid) = some
    [⟨[.accelStart 0 3200 2], .accel⟩, ⟨[.accelEnd 2 1920], .none⟩, ⟨[], .none⟩, ⟨[], .none⟩,
     ⟨[.decelEnd 0 4114], .none⟩] := by
  decide +kernel

/-- A segment that begins with travel. -/
example : sayings (some { exSaid with loopsAccel := 0, accelSeriesIndex := 2 }) = some
    [⟨[.travel 50 1], .travel⟩, ⟨[], .none⟩, ⟨[.decelEnd 0 6857], .none⟩] := by
  decide +kernel

/-- The exit marker. -/
example : sayings none = some [] := rfl

end BeagleG.Sim
