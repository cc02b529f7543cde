import Mathlib.Tactic.Linarith
import Mathlib.Tactic.Ring
import Mathlib.Tactic.NormNum
import Mathlib.Tactic.Positivity
import Mathlib.Tactic.FieldSimp
import Verif.Sim.Table
import Verif.Sim.AudioProps

/-!
# The table of the simulation (C89)
-/
namespace BeagleG.Sim

open StepGen
open Idiv (reg)

/-! ## Rows -/

/-- Rising edges count in the direction of the motor. -/
def signed (dir : Bool) (n : Nat) : Int := if dir then -(n : Int) else n

theorem signed_add (dir : Bool) (a b : Nat) : signed dir (a + b) = signed dir a + signed dir b := by
  unfold signed
  split <;> push_cast <;> omega

theorem count_eq (fr : Motor → Nat) (dir : Motor → Bool) (m : Motor → Nat) (steps : Motor → Int) (i : Motor) :
    count fr dir m steps i = steps i +
      signed (dir i) (if !(m i).testBit 31 && (reg (m i + fr i)).testBit 31 then 1 else 0) := by
  unfold count signed
  by_cases h : (!(m i).testBit 31 && (reg (m i + fr i)).testBit 31) = true
  · rw [if_pos h, if_pos h]
    split <;> rfl
  · rw [if_neg h, if_neg h]
    split <;> simp

theorem tableLoop_full (fr : Motor → Nat) (dir : Motor → Bool) (L : Nat) :
    ∀ (r : Regs) (m : Motor → Nat) (t : Table) (k status : Nat), r.loops = L → (∀ j < L, delayAfter r j ≠ 0) →
      ∃ (rows : List Row) (t' : Table), tableLoop fr dir (L + 1) r m t = some (rows, t') ∧
        simLoop fr dir (L + 1) r m t.steps = some (rows.map (·.loops), t'.steps) ∧ rows.length = L ∧
        t'.time = t.time + duration (rows.map (·.loops)) ∧
        rows.map (·.time) = (history t.time (stepGen fr noEstop (L + 1) k r m status).1 (rows.map (·.loops))).map
          (·.until_) ∧
        (∀ row ∈ rows, row.velocity = velocity row.loops) ∧
        (∀ j (h : j < rows.length) i, rows[j].steps i = t.steps i + signed (dir i)
          (risingEdges ((m i).testBit 31) ((wave (stepGen fr noEstop (L + 1) k r m status).1 i).take (j + 1)))) := by
  induction L with
  | zero =>
    intro r m t k status hr _
    refine ⟨[], _, by rw [tableLoop, simDelay_done r hr], ?_, rfl, ?_, ?_, by simp, fun j h => by simp at h⟩
    · rw [simLoop, simDelay_done r hr]; rfl
    · simp [duration]
    · cases (stepGen fr noEstop 1 k r m status).1 <;> rfl
  | succ L ih =>
    intro r m t k status hr hd
    obtain ⟨d, h1, -⟩ := simDelay_eq r (by omega)
    have hl : (calculateDelay r).1.loops = L := by
      rw [calculateDelay_loops r (by omega)]; omega
    have h0 : (calculateDelay r).2 ≠ 0 := hd 0 (by omega)
    have hstep : (stepGen fr noEstop (L + 1 + 1) k r m status).1 =
        ⟨fun i => reg (m i + fr i), status - 1, (calculateDelay r).2⟩ ::
          (stepGen fr noEstop (L + 1) (k + 1) (calculateDelay r).1 (fun i => reg (m i + fr i)) (status - 1)).1 := by
      conv_lhs => rw [stepGen]
      simp only [noEstop, Bool.false_eq_true, if_false, if_neg h0]
    let av := t.averager.push (hiresDelay r (calculateDelay r).1 / 100000000)
    obtain ⟨rows, t', g1, g2, g3, g4, g5, g6, g7⟩ := ih (calculateDelay r).1 (fun i => reg (m i + fr i))
      { time := t.time + updateTime + waitTime d, steps := count fr dir m t.steps, averager := av } (k + 1)
      (status - 1) hl (fun j hj => hd (j + 1) (by omega))
    refine ⟨⟨t.time + updateTime + waitTime d, d, velocity d, av.acceleration, count fr dir m t.steps⟩ :: rows, t',
      ?_, ?_, ?_, ?_, ?_, ?_, ?_⟩
    · rw [tableLoop, h1]
      simp only
      rw [g1]
      rfl
    · rw [simLoop, h1]
      have g2 : simLoop fr dir (L + 1) (calculateDelay r).1 (fun i => reg (m i + fr i)) (count fr dir m t.steps) =
        some (rows.map (·.loops), t'.steps) := g2
      simp only [List.map_cons]
      have e : (fun i => if (!(m i).testBit 31 && (reg (m i + fr i)).testBit 31) = true then
          t.steps i + (if dir i = true then -1 else 1) else t.steps i) = count fr dir m t.steps := rfl
      rw [e, g2]
      rfl
    · simp [g3]
    · rw [g4]
      simp only [duration, List.map_cons, List.sum_cons]
      ring
    · rw [hstep]
      simp only [List.map_cons, history, g5]
    · intro row hrow
      rcases List.mem_cons.1 hrow with rfl | hrow
      · rfl
      · exact g6 row hrow
    · intro j hj i
      rw [hstep]
      have hpin : wave (⟨fun i => reg (m i + fr i), status - 1, (calculateDelay r).2⟩ ::
          (stepGen fr noEstop (L + 1) (k + 1) (calculateDelay r).1 (fun i => reg (m i + fr i)) (status - 1)).1) i =
          (reg (m i + fr i)).testBit 31 ::
          wave (stepGen fr noEstop (L + 1) (k + 1) (calculateDelay r).1 (fun i => reg (m i + fr i))
            (status - 1)).1 i := rfl
      rw [hpin, List.take_succ_cons]
      simp only [risingEdges]
      rw [signed_add, ← add_assoc, ← count_eq]
      cases j with
      | zero => simp [risingEdges, signed]
      | succ j =>
        have := g7 j (by simpa using hj) i
        simpa using this

theorem simLoop_delays (fr : Motor → Nat) (dir : Motor → Bool) : ∀ (fuel : Nat) (r : Regs) (m : Motor → Nat)
    (a b : Motor → Int), (simLoop fr dir fuel r m a).map (·.1) = (simLoop fr dir fuel r m b).map (·.1) := by
  intro fuel
  induction fuel with
  | zero => intro r m a b; rfl
  | succ fuel ih =>
    intro r m a b
    simp only [simLoop]
    cases simDelay r with
    | none => rfl
    | some p =>
      simp only [Option.map_map, Function.comp_def]
      have := congrArg (Option.map (p.2 :: ·)) (ih p.1 (fun i => reg (m i + fr i)) (count fr dir m a) (count fr dir m b))
      rw [Option.map_map, Option.map_map] at this
      exact this

theorem simExec_delays (s : MotionSegment) (a b : Motor → Int) :
    (simExec s a).map (·.1) = (simExec s b).map (·.1) := simLoop_delays _ _ _ _ _ a b

/-- **C89, rows.** There is one row for each pass of the firmware but the last; with the time at which the pass ends,
and the signed steps of all motors up to then. -/
theorem C89_rows (s : MotionSegment) (hn : NoEarlyStop s) (t : Table) :
    ∃ (rows : List Row) (t' : Table), t.enqueue (some s) = some (rows, t') ∧
      rows.length + 1 = (exec s noEstop).1.length ∧
      rows.map (·.loops) = delays s ∧
      rows.map (·.time) = (history t.time (exec s noEstop).1 (delays s)).map (·.until_) ∧
      (∀ row ∈ rows, row.velocity = velocity row.loops) ∧
      (∀ j (h : j < rows.length) i, rows[j].steps i = t.steps i +
        signed (s.dirPin i) (risingEdges false ((wave (exec s noEstop).1 i).take (j + 1)))) ∧
      t'.time = t.time + duration (delays s) ∧
      (∀ i, t'.steps i = t.steps i + netSteps s noEstop false i) := by
  obtain ⟨rows, t', h1, h2, h3, h4, h5, h6, h7⟩ := tableLoop_full s.fractions s.dirPin s.loops (Regs.load s)
    (fun _ => 0) t 0 s.loops (load_loops s) hn
  have h2 : simExec s t.steps = some (rows.map (·.loops), t'.steps) := h2
  obtain ⟨ds, st, g1, -, g2, g3⟩ := C28_simulation_agrees_partial s hn t.steps
  rw [g1] at h2
  injection h2 with h2
  injection h2 with e1 e2
  -- the delays do not depend on the counters
  have hds : delays s = rows.map (·.loops) := by
    unfold delays
    rw [simExec_delays s _ t.steps, g1, ← e1]
    rfl
  rw [hds]
  refine ⟨rows, t', h1, ?_, rfl, h5, h6, ?_, h4, ?_⟩
  · rw [← g2, e1, List.length_map]
  · intro j h i
    exact h7 j h i
  · intro i
    rw [← e2]
    exact g3 i

/-! ## The acceleration -/

/-- The averager after these times, the newest one first. -/
def after : List ℚ → Averager
  | [] => .init
  | t :: h => (after h).push t

theorem after_pos (h : List ℚ) : (after h).pos = h.length := by
  induction h with
  | nil => rfl
  | cons t h ih => simp [after, Averager.push, ih]

theorem slot_ne {n i : Nat} (h1 : 1 ≤ i) (h2 : i < 10) : slot (n + 1 + 10 - i) ≠ slot (n + 1) := by
  intro e
  have := congrArg Fin.val e
  simp only [slot] at this
  omega

theorem slot_congr {a b : Nat} (h : a % 10 = b % 10) : slot a = slot b := by
  unfold slot
  simp [h]

theorem after_ring (h : List ℚ) : ∀ i < 10, (after h).ring (slot (h.length + 10 - i)) = h.getD i 0 := by
  induction h with
  | nil => intro i _; rfl
  | cons t h ih =>
    intro i hi
    simp only [after, Averager.push, after_pos, List.length_cons]
    cases i with
    | zero =>
      rw [if_pos (slot_congr (by omega))]
      rfl
    | succ i =>
      rw [if_neg (slot_ne (by omega) hi)]
      have e : h.length + 1 + 10 - (i + 1) = h.length + 10 - i := by omega
      rw [e, ih i (by omega)]
      rfl

/-- The last ten times, the newest first. -/
def recent (h : List ℚ) : List ℚ := h.take 10

theorem take_succ_sum (h : List ℚ) (n : Nat) : (h.take (n + 1)).sum = (h.take n).sum + h.getD n 0 := by
  induction n generalizing h with
  | zero => cases h <;> simp
  | succ n ih =>
    cases h with
    | nil => simp
    | cons t h =>
      rw [List.take_succ_cons, List.sum_cons, ih h, List.take_succ_cons, List.sum_cons, List.getD_cons_succ]
      ring

theorem after_sum (h : List ℚ) : (after h).sum = (recent h).sum := by
  induction h with
  | nil => rfl
  | cons t h ih =>
    have e : (after h).ring (slot (h.length + 1)) = h.getD 9 0 := by
      have := after_ring h 9 (by decide)
      rwa [slot_congr (a := h.length + 10 - 9) (b := h.length + 1) (by omega)] at this
    simp only [after, Averager.push, after_pos, e, ih, recent, List.take_succ_cons, List.sum_cons]
    rw [take_succ_sum h 9]
    ring

/-- The finer time of a loop is less than one unit longer than the delay. -/
theorem hires_close {r r' : Regs} {d : Nat} (h : simDelay r = some (r', d)) :
    (d : ℚ) ≤ hiresDelay r r' ∧ hiresDelay r r' < d + 1 := by
  have shift : ∀ c : Nat, ((c >>> delayCycleShift : Nat) : ℚ) ≤ (c : ℚ) / 2 ^ 5 ∧
      (c : ℚ) / 2 ^ 5 < ((c >>> delayCycleShift : Nat) : ℚ) + 1 := by
    intro c
    have e : c >>> delayCycleShift = c / 32 := by rw [Nat.shiftRight_eq_div_pow]; rfl
    rw [e, le_div_iff₀ (by norm_num), div_lt_iff₀ (by norm_num)]
    have h1 : c / 32 * 32 ≤ c := Nat.div_mul_le_self c 32
    have h2 : c < (c / 32 + 1) * 32 := by omega
    constructor
    · have : ((c / 32 * 32 : Nat) : ℚ) ≤ c := by exact_mod_cast h1
      push_cast at this ⊢
      linarith
    · have : (c : ℚ) < (((c / 32 + 1) * 32 : Nat) : ℚ) := by exact_mod_cast h2
      push_cast at this ⊢
      linarith
  unfold simDelay at h
  unfold hiresDelay
  by_cases ha : r.loopsAccel > 0
  · rw [if_pos ha] at h ⊢
    dsimp only at h
    injection h with h
    injection h with h1 h2
    subst h1 h2
    exact shift _
  · rw [if_neg ha] at h ⊢
    by_cases ht : r.loopsTravel > 0
    · rw [if_pos ht] at h ⊢
      injection h with h
      injection h with h1 h2
      subst h1 h2
      exact ⟨le_refl _, by linarith⟩
    · rw [if_neg ht] at h ⊢
      split at h
      · dsimp only at h
        injection h with h
        injection h with h1 h2
        subst h1 h2
        exact shift _
      · cases h

/-- **C89, acceleration.** The acceleration of each row is that of the averager, for times that differ from the delays
by less than one unit. -/
theorem C89_times (fr : Motor → Nat) (dir : Motor → Bool) : ∀ (fuel : Nat) (r : Regs) (m : Motor → Nat) (t t' : Table)
    (rows : List Row) (h : List ℚ), t.averager = after h → tableLoop fr dir fuel r m t = some (rows, t') →
    ∃ ts : List ℚ, List.Forall₂ (fun row x => (row.loops : ℚ) ≤ x * 100000000 ∧ x * 100000000 < row.loops + 1) rows ts ∧
      t'.averager = after (ts.reverse ++ h) ∧
      ∀ j (hj : j < rows.length), rows[j].acceleration = (after ((ts.take (j + 1)).reverse ++ h)).acceleration := by
  intro fuel
  induction fuel with
  | zero => intro r m t t' rows h _ e; cases e
  | succ fuel ih =>
    intro r m t t' rows h hav e
    rw [tableLoop] at e
    cases hs : simDelay r with
    | none =>
      rw [hs] at e
      injection e with e
      injection e with e1 e2
      subst e1 e2
      exact ⟨[], .nil, hav, fun j hj => by simp at hj⟩
    | some p =>
      obtain ⟨r', d⟩ := p
      rw [hs] at e
      obtain ⟨q, hq, e⟩ := Option.map_eq_some_iff.1 e
      obtain ⟨rows', t''⟩ := q
      injection e with e1 e2
      dsimp only at e1 e2
      subst e1 e2
      let x := hiresDelay r r' / 100000000
      have hav' : t.averager.push x = after (x :: h) := by rw [hav]; rfl
      obtain ⟨ts, g1, g2, g3⟩ := ih _ _ _ _ _ (x :: h) hav' hq
      obtain ⟨c1, c2⟩ := hires_close hs
      have ex : x * 100000000 = hiresDelay r r' := by
        show hiresDelay r r' / 100000000 * 100000000 = _
        ring
      refine ⟨x :: ts, .cons ⟨by rw [ex]; exact c1, by rw [ex]; exact c2⟩ g1, ?_, ?_⟩
      · rw [g2]; simp
      · intro j hj
        cases j with
        | zero => exact congrArg Averager.acceleration hav'
        | succ j =>
          have := g3 j (by simpa using hj)
          simpa using this

/-- The acceleration that the averager computes, for times with the newest first: of the speed (half a step in one time)
between the oldest of the last ten and the newest, over the time without the newest. -/
theorem C89_average (t : ℚ) (h : List ℚ) (hh : h ≠ []) (last : ℚ) (hl : (recent (t :: h)).getLast? = some last)
    (ht : 0 < t) (hlast : 0 < last) :
    (after (t :: h)).acceleration = (1 / t / 2 - 1 / last / 2) / (recent (t :: h)).tail.sum := by
  have hlen : 1 ≤ h.length := List.length_pos_iff.2 hh
  have hsum := after_sum (t :: h)
  have h0 := after_ring (t :: h) 0 (by decide)
  have e0 : slot ((t :: h).length + 10 - 0) = slot (t :: h).length := slot_congr (by omega)
  rw [e0] at h0
  have h0 : (after (t :: h)).ring (slot (t :: h).length) = t := h0
  have hlen2 : (t :: h).length = h.length + 1 := rfl
  have hb : (after (t :: h)).ring (slot ((t :: h).length + 10 -
      (if 9 ≥ (t :: h).length then (t :: h).length - 1 else 9))) = last := by
    rw [after_ring _ _ (by split <;> omega)]
    rw [List.getLast?_eq_getElem?] at hl
    have hlt : (recent (t :: h)).length = min 10 (h.length + 1) := by simp [recent]; omega
    rw [hlt] at hl
    unfold recent at hl
    rw [List.getElem?_take_of_lt (by omega)] at hl
    rw [List.getD_eq_getElem?_getD]
    have e : (if 9 ≥ (t :: h).length then (t :: h).length - 1 else 9) = min 10 (h.length + 1) - 1 := by
      split <;> omega
    rw [e, hl]
    rfl
  unfold Averager.acceleration
  rw [after_pos, if_neg (by omega)]
  simp only [hb, h0]
  rw [if_neg (by rw [not_or, not_le, not_le]; exact ⟨hlast, ht⟩), hsum]
  congr 1
  simp [recent]

/-- With positive times there is no division by zero, and the sign is right: positive exactly if the newest loop is
faster than the oldest. -/
theorem C89_sign (t : ℚ) (h : List ℚ) (hh : h ≠ []) (last : ℚ) (hl : (recent (t :: h)).getLast? = some last)
    (hpos : ∀ x ∈ t :: h, 0 < x) :
    0 < (recent (t :: h)).tail.sum ∧ (0 < (after (t :: h)).acceleration ↔ t < last) ∧
    ((after (t :: h)).acceleration = 0 ↔ t = last) := by
  have ht : 0 < t := hpos t List.mem_cons_self
  have hmem : last ∈ t :: h := List.mem_of_mem_take (List.mem_of_getLast? hl)
  have hlast := hpos last hmem
  have hs : 0 < (recent (t :: h)).tail.sum := by
    have e : (recent (t :: h)).tail = h.take 9 := by simp [recent]
    rw [e]
    obtain ⟨x, h', rfl⟩ := List.exists_cons_of_ne_nil hh
    rw [List.take_succ_cons, List.sum_cons]
    have hx : 0 < x := hpos x (by simp)
    have : 0 ≤ (h'.take 8).sum := List.sum_nonneg fun y hy =>
      (hpos y (by simp [List.mem_of_mem_take hy])).le
    linarith
  rw [C89_average t h hh last hl ht hlast]
  refine ⟨hs, ?_, ?_⟩
  · rw [div_pos_iff_of_pos_right hs, sub_pos, div_lt_div_iff_of_pos_right (by norm_num), one_div_lt_one_div hlast ht]
  · rw [div_eq_zero_iff, or_iff_left hs.ne', sub_eq_zero, div_left_inj' (by norm_num), one_div, one_div, inv_inj]

/-- **Not the acceleration**: with uniform acceleration 1/6, two loops (half steps) take two seconds and one second,
but 1/8 is printed: the time is that between the beginnings of the loops, not between their middles. -/
theorem C89_biased : (∃ v : ℚ, v * 2 + (1 / 6) * 2 ^ 2 / 2 = 1 / 2 ∧ v * 3 + (1 / 6) * 3 ^ 2 / 2 = 1) ∧
    (after [1, 2]).acceleration = 1 / 8 := by
  refine ⟨⟨1 / 12, by norm_num, by norm_num⟩, ?_⟩
  have := C89_average 1 [2] (by simp) 2 rfl (by norm_num) (by norm_num)
  rw [this]
  norm_num [recent]

/-- Motor 0 with a constant speed. -/
def slow : MotionSegment := beep

/-- Motor 1 with a constant speed, twice as fast. -/
def fast : MotionSegment := { beep with travelDelayCycles := 2500, fractions := fun i => if i = 1 then 2 ^ 31 - 1 else 0 }

/-- **Another segment**: the motor of the second segment has a constant speed, but an acceleration is printed, from the
motor of the first one. -/
theorem C89_other_segment :
    ((Table.init.enqueue (some slow)).bind fun p => p.2.enqueue (some fast)).map
      (fun p => p.1.map fun r => (r.columns fast 1).2) =
    some [(some 20000, 100000000), (some 20000, 80000000)] := by
  decide +kernel

/-- **The heading**: its first part goes to `stdout`, whatever the stream for the rows is. -/
theorem C89_heading (n : Nat) : ∃ rest, heading n = .stdout :: rest ∧ ∀ x ∈ rest, x = .out := by
  refine ⟨List.replicate (min n 8) .out ++ [.out], rfl, fun x hx => ?_⟩
  rcases List.mem_append.1 hx with h | h
  · exact List.eq_of_mem_replicate h
  · simpa using h

end BeagleG.Sim
