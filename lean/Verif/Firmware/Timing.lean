import Verif.Firmware.Props
import Verif.StepGen.Spec
/-!
# How long the loops take (C70)

The host computes delays in units of two cycles of the processor (`TIMER_FREQUENCY`, motor-interface-constants.h
25-28). The firmware subtracts constants for the time it spends on other things (motor-interface-pru.p 130, 137, 166,
179). Here the cycles of all instructions of a loop are added up.
-/
namespace BeagleG.Firmware
open StepGen (Motor sub32 Regs MotionSegment)

variable {env : Env} {c : Cape} {prog : List (Instr Nat)}

/-- The delay that was asked for, before the firmware subtracts the cycles it believes to have spent. -/
def nominal (g : Regs) : Nat :=
  if g.loopsAccel ≠ 0 then (StepGen.accelUpdate g).cycles >>> StepGen.delayCycleShift
  else if g.loopsTravel ≠ 0 then g.travelDelay
  else if g.loopsDecel ≠ 0 then (StepGen.decelUpdate g).cycles >>> StepGen.delayCycleShift
  else 0

/-- The first loop of an acceleration from rest: there is no division. -/
def First (g : Regs) : Prop := g.loopsAccel ≠ 0 ∧ g.index = 0

instance (g : Regs) : Decidable (First g) := inferInstanceAs (Decidable (_ ∧ _))

/-- All accesses take at most `L` cycles more than one. -/
def Env.Within (env : Env) (L : Nat) : Prop := ∀ n, env.lat n ≤ L

theorem movCost_bounds (n : Nat) : 1 ≤ movCost n ∧ movCost n ≤ 2 := by
  unfold movCost
  split <;> omega

theorem gpioOut_time (env : Env) (p : Nat) (b : Bool) (t n : Nat) : t + 2 ≤ (gpioOut env p b t n).t := by
  have h1 := movCost_bounds (p &&& 0xfffff000)
  have h2 := movCost_bounds (2 ^ (p &&& 0x1f))
  unfold gpioOut
  simp only
  split
  · simp only; omega
  · cases b <;> simp only [Bool.false_eq_true, if_false, if_true] <;> omega

theorem gpioOut_le {L : Nat} (hL : env.Within L) (p : Nat) (b : Bool) (t n : Nat) : (gpioOut env p b t n).t ≤ t + 10 + L := by
  have h1 := movCost_bounds (p &&& 0xfffff000)
  have h2 := movCost_bounds (2 ^ (p &&& 0x1f))
  have h3 := hL n
  unfold gpioOut
  simp only
  split
  · simp only; omega
  · cases b <;> simp only [Bool.false_eq_true, if_false, if_true] <;> omega

theorem outs_time (env : Env) : ∀ (l : List (Nat × Bool)) (t n : Nat), t + 2 * l.length ≤ (outs env l t n).t := by
  intro l
  induction l with
  | nil => intro t n; exact Nat.le_refl _
  | cons x l ih =>
    intro t n
    have h1 := gpioOut_time env x.1 x.2 t n
    have h2 := ih (gpioOut env x.1 x.2 t n).t (gpioOut env x.1 x.2 t n).n
    show t + 2 * (l.length + 1) ≤ (outs env l _ _).t
    omega

theorem outs_le {L : Nat} (hL : env.Within L) : ∀ (l : List (Nat × Bool)) (t n : Nat), (outs env l t n).t ≤ t + l.length * (10 + L) := by
  intro l
  induction l with
  | nil => intro t n; simp [outs]
  | cons x l ih =>
    intro t n
    have h1 := gpioOut_le hL x.1 x.2 t n
    have h2 := ih (gpioOut env x.1 x.2 t n).t (gpioOut env x.1 x.2 t n).n
    show (outs env l _ _).t ≤ t + (l.length + 1) * (10 + L)
    rw [Nat.add_mul]
    omega

theorem estop_time (c : Cape) (env : Env) (t n : Nat) : t + 1 ≤ (estopDone c env t n).1.t := by
  unfold estopDone
  split
  · exact Nat.le_refl _
  · split
    · simp only; omega
    · simp only
      split
      · simp only; omega
      · split <;> simp only <;> omega

theorem estop_le (c : Cape) {L : Nat} (hL : env.Within L) (t n : Nat) : (estopDone c env t n).1.t ≤ t + 15 + 2 * L := by
  have h1 := movCost_bounds (c.input 6 &&& 0xfffff000)
  have h2 := hL n
  have h3 := hL (n + 1)
  unfold estopDone
  split
  · simp only; omega
  · split
    · simp only; omega
    · simp only
      split
      · simp only; omega
      · split <;> simp only <;> omega

theorem bind_t (d : Done) (f : Nat → Nat → Done) : (d.bind f).t = (f d.t d.n).t := id rfl
theorem bind_n (d : Done) (f : Nat → Nat → Done) : (d.bind f).n = (f d.t d.n).n := id rfl
theorem wait_t (k t n : Nat) : (Done.wait k t n).t = t + k := id rfl
theorem wait_n (k t n : Nat) : (Done.wait k t n).n = n := id rfl
theorem status_t (env : Env) (st t n : Nat) : (statusDone env st t n).t = t + 2 + (1 + env.lat n) + 1 := id rfl

/-- The length of a loop, without the waiting for the emergency stop and for the bus. -/
theorem again_time (c : Cape) (env : Env) (fr : Motor → Nat) (g : Regs) (m : Motor → Nat) (st t n : Nat) :
    t + 36 + calcCycles g + 2 * StepGen.waitRounds (StepGen.calculateDelay g).2 ≤ (againDone c env fr g m st t n).t := by
  have h1 := estop_time c env (t + 2) n
  have h2 := outs_time env (stepPins c (advance fr m)) ((estopDone c env (t + 2) n).1.t + 10) (estopDone c env (t + 2) n).1.n
  have h3 : (stepPins c (advance fr m)).length = 8 := rfl
  rw [h3] at h2
  unfold againDone
  simp only [bind_t, bind_n, wait_t, wait_n, status_t]
  generalize outs env (stepPins c (advance fr m)) _ _ = d at h2 ⊢
  omega

theorem again_le (c : Cape) {L : Nat} (hL : env.Within L) (fr : Motor → Nat) (g : Regs) (m : Motor → Nat) (st t n : Nat) :
    (againDone c env fr g m st t n).t ≤ t + 114 + 11 * L + calcCycles g + 2 * StepGen.waitRounds (StepGen.calculateDelay g).2 := by
  have h1 := estop_le c hL (t + 2) n
  have h2 := outs_le hL (stepPins c (advance fr m)) ((estopDone c env (t + 2) n).1.t + 10) (estopDone c env (t + 2) n).1.n
  have h3 : (stepPins c (advance fr m)).length = 8 := rfl
  rw [h3] at h2
  unfold againDone
  simp only [bind_t, bind_n, wait_t, wait_n, status_t]
  generalize outs env (stepPins c (advance fr m)) _ _ = d at h2 ⊢
  have h4 := hL d.n
  omega

/-- A delay that can be waited for: it is not taken for the end, and nothing wraps around. -/
def Waitable (d : Nat) : Prop := 3 ≤ d ∧ d ≤ 2000000000

theorem waitable_rounds {d : Nat} (h : Waitable d) : StepGen.waitRounds d = d - 2 := by
  obtain ⟨h1, h2⟩ := h
  have e : sub32 d 2 = d - 2 := by
    simp only [sub32, Idiv.reg]
    omega
  simp only [StepGen.waitRounds, e]
  rw [if_neg (by omega)]

theorem sub32_waitable {v k : Nat} (hk : k ≤ 70) (hv : v < 2 ^ 32) (h : Waitable (sub32 v k)) : sub32 v k + k = v := by
  obtain ⟨h1, h2⟩ := h
  simp only [sub32, Idiv.reg] at *
  omega

theorem cycles_shift_lt (x : Nat) (h : x < 2 ^ 32) : x >>> StepGen.delayCycleShift < 2 ^ 32 := by
  rw [Nat.shiftRight_eq_div_pow]
  exact Nat.lt_of_le_of_lt (Nat.div_le_self _ _) h

/-- What is not waited for: the cycles of the calculation and the compensation, by phase. -/
theorem loop_cycles (g : Regs) (hd : g.travelDelay < 2 ^ 32) (hc : g.cycles < 2 ^ 32) (hw : Waitable (StepGen.calculateDelay g).2) :
    (First g → calcCycles g + 2 * StepGen.waitRounds (StepGen.calculateDelay g).2 + 135 = 2 * nominal g) ∧
    (¬ First g → 2 * nominal g ≤ calcCycles g + 2 * StepGen.waitRounds (StepGen.calculateDelay g).2 + 35 ∧
      calcCycles g + 2 * StepGen.waitRounds (StepGen.calculateDelay g).2 ≤ 2 * nominal g + 31) := by
  rw [waitable_rounds hw]
  have h3 := hw.1
  by_cases h1 : g.loopsAccel ≠ 0
  · have e : (StepGen.calculateDelay g).2 = sub32 ((StepGen.accelUpdate g).cycles >>> StepGen.delayCycleShift) 69 := by
      simp only [StepGen.calculateDelay, h1, ne_eq, not_false_eq_true, if_true]
    have hcy : (StepGen.accelUpdate g).cycles < 2 ^ 32 := by
      unfold StepGen.accelUpdate
      split
      · exact hc
      · simp only [sub32, Idiv.reg]
        omega
    rw [e] at hw h3 ⊢
    have hs := sub32_waitable (by omega) (cycles_shift_lt _ hcy) hw
    simp only [First, nominal, calcCycles, h1, ne_eq, not_false_eq_true, if_true, true_and]
    by_cases h2 : g.index = 0
    · simp only [h2, if_true, not_true_eq_false, false_implies, and_true, forall_const]
      omega
    · have hb := idivCycles_bounds (Idiv.reg (Idiv.reg (g.cycles * 2) + g.remainder)) (Idiv.reg (Idiv.reg (g.index * 4) + 1))
      simp only [h2, if_false, false_implies, true_and, not_false_eq_true, forall_const]
      omega
  · have h1' : g.loopsAccel = 0 := by omega
    have hf : ¬ First g := fun h => h1 h.1
    simp only [hf, false_implies, true_and, not_false_eq_true, forall_const]
    by_cases h2 : g.loopsTravel ≠ 0
    · have e : (StepGen.calculateDelay g).2 = sub32 g.travelDelay 2 := by
        simp only [StepGen.calculateDelay, h1', h2, ne_eq, not_true_eq_false, not_false_eq_true, if_true, if_false]
      rw [e] at hw h3 ⊢
      have hs := sub32_waitable (by omega) hd hw
      simp only [nominal, calcCycles, h1', h2, ne_eq, not_true_eq_false, not_false_eq_true, if_true, if_false]
      omega
    · have h2' : g.loopsTravel = 0 := by omega
      by_cases h4 : g.loopsDecel ≠ 0
      · have e : (StepGen.calculateDelay g).2 = sub32 ((StepGen.decelUpdate g).cycles >>> StepGen.delayCycleShift) 70 := by
          simp only [StepGen.calculateDelay, h1', h2', h4, ne_eq, not_true_eq_false, not_false_eq_true, if_true, if_false]
        have hcy : (StepGen.decelUpdate g).cycles < 2 ^ 32 := by
          simp only [StepGen.decelUpdate, Idiv.reg]
          omega
        rw [e] at hw h3 ⊢
        have hs := sub32_waitable (by omega) (cycles_shift_lt _ hcy) hw
        have hb := idivCycles_bounds (Idiv.reg (Idiv.reg (g.cycles * 2) + g.remainder)) (sub32 (Idiv.reg (g.index * 4)) 1)
        simp only [nominal, calcCycles, h1', h2', h4, ne_eq, not_true_eq_false, not_false_eq_true, if_true, if_false]
        omega
      · have h4' : g.loopsDecel = 0 := by omega
        have e : (StepGen.calculateDelay g).2 = 0 := by
          simp only [StepGen.calculateDelay, h1', h2', h4', ne_eq, not_true_eq_false, if_false]
        omega

/-- The registers stay within 32 bits. -/
structure Bounded (g : Regs) : Prop where
  travel : g.travelDelay < 2 ^ 32
  cycles : g.cycles < 2 ^ 32

theorem Bounded.next {g : Regs} (h : Bounded g) : Bounded (StepGen.calculateDelay g).1 := by
  obtain ⟨h1, h2⟩ := h
  have hu : (StepGen.accelUpdate g).cycles < 2 ^ 32 ∧ (StepGen.accelUpdate g).travelDelay = g.travelDelay := by
    unfold StepGen.accelUpdate
    split
    · exact ⟨h2, rfl⟩
    · refine ⟨?_, rfl⟩
      simp only [sub32, Idiv.reg]
      omega
  have hv : (StepGen.decelUpdate g).cycles < 2 ^ 32 ∧ (StepGen.decelUpdate g).travelDelay = g.travelDelay := by
    unfold StepGen.decelUpdate
    refine ⟨?_, rfl⟩
    simp only [Idiv.reg]
    omega
  unfold StepGen.calculateDelay
  generalize StepGen.accelUpdate g = u at hu
  generalize StepGen.decelUpdate g = v at hv
  split
  · exact ⟨by simp only [hu.2]; exact h1, hu.1⟩
  · split
    · exact ⟨h1, h2⟩
    · split
      · exact ⟨by simp only [hv.2]; exact h1, hv.1⟩
      · exact ⟨h1, h2⟩

theorem load_bounded (s : MotionSegment) (h : s.WF) : Bounded (Regs.load s) := ⟨h.del, h.cyc⟩

/-- C70. A loop, from `STEP_GEN` to `STEP_GEN`, in cycles. It is longer than the two cycles per unit of the delay that was asked
for, except the first one from rest, for which the time of a division is subtracted that does not happen. `L` is the largest
number of cycles that an access to the bus waits. -/
theorem C70_loop_partial (hok : c.Ok) {L : Nat} (hL : env.Within L) (s : St) (g : Regs) (m fr : Motor → Nat) (st : Nat)
    (hr : Ready s.r g m fr st) (hg : Bounded g) (hpc : s.pc = 22) (hw : Waitable (StepGen.calculateDelay g).2)
    (he : (estopDone c env (s.t + 2) s.n).2 = false) :
    ∃ s', Star (firmware c) env s s' ∧ s'.pc = 22 ∧ Ready s'.r (StepGen.calculateDelay g).1 (advance fr m) fr (sub32 st 1) ∧
      (if First g then s.t + 2 * nominal g ≤ s'.t + 99 ∧ s'.t + 21 ≤ s.t + 2 * nominal g + 11 * L
       else s.t + 2 * nominal g < s'.t ∧ s'.t ≤ s.t + 2 * nominal g + 145 + 11 * L) := by
  have hp := pass_again c env fr g m st s.t s.n he (by have := hw.1; omega)
  obtain ⟨s', h1, h2⟩ := pass_run (env := env) (located c) hok s g m fr st hr hpc
  rw [hp] at h2
  obtain ⟨h2, h3⟩ := h2
  have t1 := again_time c env fr g m st s.t s.n
  have t2 := again_le c hL fr g m st s.t s.n
  rw [← h2.t] at t1 t2
  obtain ⟨k1, k2⟩ := loop_cycles g hg.travel hg.cycles hw
  refine ⟨s', h1, h2.pc, h3, ?_⟩
  split
  · rename_i hf
    have := k1 hf
    omega
  · rename_i hf
    have := k2 hf
    omega

/-- C70. At constant speed every loop takes at least 34 cycles longer than asked for. -/
theorem C70_travel_slow (hok : c.Ok) {L : Nat} (hL : env.Within L) (s : St) (g : Regs) (m fr : Motor → Nat) (st : Nat)
    (hr : Ready s.r g m fr st) (hpc : s.pc = 22) (ha : g.loopsAccel = 0) (ht : g.loopsTravel ≠ 0) (h5 : 5 ≤ g.travelDelay)
    (hd : g.travelDelay ≤ 2000000000) (he : (estopDone c env (s.t + 2) s.n).2 = false) :
    ∃ s', Star (firmware c) env s s' ∧ s'.pc = 22 ∧ Ready s'.r (StepGen.calculateDelay g).1 (advance fr m) fr (sub32 st 1) ∧
      s.t + 2 * g.travelDelay + 34 ≤ s'.t ∧ s'.t ≤ s.t + 2 * g.travelDelay + 112 + 11 * L := by
  have e : (StepGen.calculateDelay g).2 = g.travelDelay - 2 := by
    simp only [StepGen.calculateDelay, ha, ht, ne_eq, not_true_eq_false, not_false_eq_true, if_true, if_false, sub32, Idiv.reg]
    omega
  have hw : Waitable (StepGen.calculateDelay g).2 := by rw [e]; exact ⟨by omega, by omega⟩
  have ec : calcCycles g = 6 := by
    simp only [calcCycles, ha, ht, ne_eq, not_true_eq_false, not_false_eq_true, if_true, if_false]
  have hp := pass_again c env fr g m st s.t s.n he (by omega)
  obtain ⟨s', h1, h2⟩ := pass_run (env := env) (located c) hok s g m fr st hr hpc
  rw [hp] at h2
  obtain ⟨h2, h3⟩ := h2
  have t1 := again_time c env fr g m st s.t s.n
  have t2 := again_le c hL fr g m st s.t s.n
  rw [← h2.t, ec, waitable_rounds hw, e] at t1 t2
  exact ⟨s', h1, h2.pc, h3, by omega, by omega⟩

/-- The registers after `k` loops. -/
def after (g : Regs) : Nat → Regs
  | 0 => g
  | k + 1 => (StepGen.calculateDelay (after g k)).1

theorem after_succ (g : Regs) (k : Nat) : after g (k + 1) = after (StepGen.calculateDelay g).1 k := by
  induction k with
  | zero => rfl
  | succ k ih => rw [after, ih]; rfl

theorem delayAfter_eq (k : Nat) : ∀ g, StepGen.delayAfter g k = (StepGen.calculateDelay (after g k)).2 := by
  induction k with
  | zero => intro g; rfl
  | succ k ih => intro g; rw [StepGen.delayAfter, ih, after_succ]

theorem after_bounded {g : Regs} (h : Bounded g) (k : Nat) : Bounded (after g k) := by
  induction k with
  | zero => exact h
  | succ k ih => exact ih.next

/-- What was asked for in the first `k` loops. -/
def asked (g : Regs) : Nat → Nat
  | 0 => 0
  | k + 1 => asked g k + nominal (after g k)

/-- Motor states and status word after `k` loops. -/
def advanced (fr m : Motor → Nat) : Nat → Motor → Nat
  | 0 => m
  | k + 1 => advance fr (advanced fr m k)

/-- The status word after `k` loops. -/
def counted (st : Nat) : Nat → Nat
  | 0 => st
  | k + 1 => sub32 (counted st k) 1

theorem accel_over {g : Regs} (h : g.loopsAccel = 0) : (StepGen.calculateDelay g).1.loopsAccel = 0 := by
  have hv : (StepGen.decelUpdate g).loopsAccel = g.loopsAccel := by
    unfold StepGen.decelUpdate
    rfl
  unfold StepGen.calculateDelay
  generalize StepGen.accelUpdate g = u
  generalize StepGen.decelUpdate g = v at hv
  rw [if_neg (by omega)]
  split
  · exact h
  · split
    · exact hv.trans h
    · exact h

theorem index_pos (g : Regs) (hb : g.index < 2 ^ 32 - 1) (ha : (StepGen.calculateDelay g).1.loopsAccel ≠ 0) :
    (StepGen.calculateDelay g).1.index = g.index + 1 := by
  have h1 : g.loopsAccel ≠ 0 := fun h => ha (accel_over h)
  have hi : (StepGen.accelUpdate g).index = g.index := by
    unfold StepGen.accelUpdate
    split <;> rfl
  have e : (StepGen.calculateDelay g).1.index = Idiv.reg ((StepGen.accelUpdate g).index + 1) := by
    unfold StepGen.calculateDelay
    generalize StepGen.accelUpdate g = u
    rw [if_pos h1]
  rw [e, hi]
  simp only [Idiv.reg]
  omega

theorem after_index (g : Regs) (h : g.index < 2 ^ 31) : ∀ k < 2 ^ 30, (after g k).loopsAccel ≠ 0 → (after g k).index = g.index + k := by
  intro k
  induction k with
  | zero => intro _ _; rfl
  | succ k ih =>
    intro hk ha
    have hprev : (after g k).loopsAccel ≠ 0 := fun h => ha (accel_over h)
    have hi := ih (by omega) hprev
    rw [after] at ha ⊢
    rw [index_pos _ (by omega) ha, hi]
    omega

/-- The emergency stop is never found active. -/
def NoStop (c : Cape) (env : Env) : Prop := ∀ t n, (estopDone c env t n).2 = false

theorem noStop (h : c.checksEstop = false) : NoStop c env := fun t n => by simp [estopDone, h]

/-- C70. The loops of a segment. After `k` of them at most 99 cycles less have passed than asked for, half a microsecond, and
that only in an acceleration from rest; and at most `145 + 11 L` more per loop. -/
theorem C70_segment_partial (hok : c.Ok) (he : NoStop c env) {L : Nat} (hL : env.Within L) (s : St) (g : Regs) (m fr : Motor → Nat)
    (st : Nat) (hr : Ready s.r g m fr st) (hg : Bounded g) (hi : g.index < 2 ^ 31) (hpc : s.pc = 22)
    (hw : ∀ k < g.loops, Waitable (StepGen.delayAfter g k)) :
    ∀ k ≤ g.loops, k < 2 ^ 30 → ∃ s', Star (firmware c) env s s' ∧ s'.pc = 22 ∧
      Ready s'.r (after g k) (advanced fr m k) fr (counted st k) ∧
      s.t + 2 * asked g k ≤ s'.t + (if First g then 99 else 0) ∧ s'.t ≤ s.t + 2 * asked g k + k * (145 + 11 * L) := by
  intro k
  induction k with
  | zero => intro _ _; exact ⟨s, .refl _, hpc, hr, by simp [asked], by simp [asked]⟩
  | succ k ih =>
    intro hk hk2
    obtain ⟨s1, h1, h2, h3, h4, h5⟩ := ih (by omega) (by omega)
    have hwk := hw k (by omega)
    rw [delayAfter_eq] at hwk
    obtain ⟨s2, k1, k2, k3, k4⟩ := C70_loop_partial (env := env) hok hL s1 (after g k) (advanced fr m k) fr (counted st k) h3
      (after_bounded hg k) h2 hwk (he _ _)
    refine ⟨s2, h1.trans k1, k2, k3, ?_, ?_⟩
    · rw [asked]
      by_cases hf : First (after g k)
      · rw [if_pos hf] at k4
        have h0 : k = 0 := by
          have := after_index g hi k (by omega) hf.1
          have := hf.2
          omega
        subst h0
        have hf' : First g := hf
        rw [if_pos hf']
        simp only [asked] at h4 ⊢
        have := h1.forward.1
        omega
      · rw [if_neg hf] at k4
        omega
    · rw [asked, Nat.add_mul]
      split at k4 <;> omega

/-- C70. The first loop from rest can be shorter than asked for: on the BUMPS cape with a bus that does not wait, by 42 cycles. -/
theorem C70_first_early : ∃ (g : Regs), First g ∧ Bounded g ∧ Waitable (StepGen.calculateDelay g).2 ∧
    (againDone bumps ⟨fun _ _ => 0, fun _ => 0⟩ (fun _ => 0) g (fun _ => 0) 1 0 0).t + 42 = 2 * nominal g := by
  refine ⟨⟨1, 0, 0, 0, 32000, 0, 0⟩, by decide, ⟨by decide, by decide⟩, ⟨by decide, by decide⟩, by decide +kernel⟩

/-! ### When the outputs change -/

theorem outs_events (env : Env) : ∀ (l : List (Nat × Bool)) (t n : Nat), ∀ e ∈ (outs env l t n).log, t ≤ e.1 ∧ e.1 < (outs env l t n).t := by
  intro l
  induction l with
  | nil => intro t n e he; simp [outs] at he
  | cons x l ih =>
    intro t n e he
    have h1 := gpioOut_time env x.1 x.2 t n
    have h2 := outs_time env l (gpioOut env x.1 x.2 t n).t (gpioOut env x.1 x.2 t n).n
    have ht : (outs env (x :: l) t n).t = (outs env l (gpioOut env x.1 x.2 t n).t (gpioOut env x.1 x.2 t n).n).t := id rfl
    rw [show outs env (x :: l) t n = (gpioOut env x.1 x.2 t n).bind (outs env l) from rfl] at he
    rcases List.mem_append.mp he with h | h
    · rw [ht]
      have : t ≤ e.1 ∧ e.1 < (gpioOut env x.1 x.2 t n).t := by
        unfold gpioOut at h ⊢
        simp only at h ⊢
        split at h
        · simp at h
        · rename_i hm
          rw [if_neg hm]
          simp only [List.mem_singleton] at h
          subst h
          simp only
          omega
      omega
    · have := ih _ _ e h
      rw [ht]
      omega

theorem estop_events (c : Cape) (env : Env) (t n : Nat) : ∀ e ∈ (estopDone c env t n).1.log, ∃ a b, e.2 = .load .bus a b := by
  intro e he
  unfold estopDone at he
  split at he
  · simp at he
  · split at he
    · simp at he
    · simp only at he
      split at he
      · simp only [List.mem_singleton] at he
        subst he
        exact ⟨_, _, rfl⟩
      · split at he
        · simp only [List.mem_cons, List.not_mem_nil, or_false] at he
          rcases he with rfl | rfl <;> exact ⟨_, _, rfl⟩
        · simp only [List.mem_cons, List.not_mem_nil, or_false] at he
          rcases he with rfl | rfl <;> exact ⟨_, _, rfl⟩

/-- C70. In a loop that begins in cycle `t` the step outputs are written in cycles `t + 13` to `t + 106 + 10 L`. -/
theorem C70_outputs (c : Cape) {L : Nat} (hL : env.Within L) (fr : Motor → Nat) (g : Regs) (m : Motor → Nat) (st t n : Nat) :
    ∀ e ∈ (againDone c env fr g m st t n).log, ∀ a b, e.2 = .store .bus a b → t + 13 ≤ e.1 ∧ e.1 ≤ t + 106 + 10 * L := by
  intro e he a b heq
  have h1 := estop_le c hL (t + 2) n
  have h0 := estop_time c env (t + 2) n
  have h2 := outs_le hL (stepPins c (advance fr m)) ((estopDone c env (t + 2) n).1.t + 10) (estopDone c env (t + 2) n).1.n
  rw [show (stepPins c (advance fr m)).length = 8 from rfl] at h2
  have hlog : ∀ (d : Done) (f : Nat → Nat → Done), (d.bind f).log = d.log ++ (f d.t d.n).log := fun d f => id rfl
  have hwl : ∀ k t n, (Done.wait k t n).log = [] := fun k t n => id rfl
  have hsl : ∀ st t n, (statusDone env st t n).log = [(t + 2, .store .dram 0 (bytesOf 4 st))] := fun _ _ _ => id rfl
  have h3 := outs_events env (stepPins c (advance fr m)) ((estopDone c env (t + 2) n).1.t + 10) (estopDone c env (t + 2) n).1.n
  unfold againDone at he
  simp only [hlog, hwl, hsl, bind_t, bind_n, wait_t, wait_n, List.append_nil, List.mem_append, List.mem_singleton] at he
  rcases he with (he | he) | he
  · obtain ⟨a', b', h⟩ := estop_events c env _ _ e he
    rw [h] at heq
    simp at heq
  · have := h3 e he
    omega
  · rw [he] at heq
    simp at heq

/-- Clearing a pin takes one cycle more than setting it, so the time of the following outputs depends on the levels. -/
theorem C70_jitter (p t n : Nat) (h : unmapped p = false) : (gpioOut env p false t n).t = (gpioOut env p true t n).t + 1 := by
  unfold gpioOut
  simp only [h, Bool.false_eq_true, if_false, if_true]
  omega

/-! ### Reaching a loop -/

/-- Non-vacuity: from its start the program reaches `STEP_GEN` with the first element loaded, if that is marked filled. -/
theorem step_gen_reached (hok : c.Ok) (s : St) (hpc : s.pc = 0) (seg : MotionSegment)
    (hs : env.ans (initDone env s.t s.n).n 0 % 256 = 1)
    (hsg : segment c env queueOffset (initDone env s.t s.n).t (initDone env s.t s.n).n = seg) :
    ∃ s', Star (firmware c) env s s' ∧ s'.pc = 22 ∧ Ready s'.r (Regs.load seg) (fun _ => 0) seg.fractions (seg.loops % 2 ^ 32) := by
  obtain ⟨s1, h1, h2, h3, h4⟩ := init_run (env := env) (located c) s hpc
  rw [← h2.t, ← h2.n] at hsg
  rw [← h2.n] at hs
  obtain ⟨s2, k1, k2, k3⟩ := fetch_run (env := env) (located c) hok s1 _ _ seg hsg h3 h4 h2.pc
    (by rw [hs]; decide)
  exact ⟨s2, h1.trans k1, k2.pc, by simpa using k3⟩

end BeagleG.Firmware
