import Verif.Firmware.Timing
import Verif.MotorOps.TimingProps
import Mathlib.Tactic.Linarith
import Mathlib.Tactic.NormNum
/-!
# The speed of the motors in cycles of the processor (C70)
-/
namespace BeagleG.Firmware
open StepGen (Motor sub32 Regs MotionSegment)
open MotorOps (timedSegment LinearSegment)
open Planner (Arith Exact)

variable {env : Env} {c : Cape}

/-- Two loops of constant speed, which is one step of the axis with the most steps. -/
theorem two_loops (hok : c.Ok) (he : NoStop c env) {L : Nat} (hL : env.Within L) (s : St) (g : Regs) (m fr : Motor → Nat) (st : Nat)
    (hr : Ready s.r g m fr st) (hpc : s.pc = 22) (ha : g.loopsAccel = 0) (ht : 2 ≤ g.loopsTravel) (h5 : 5 ≤ g.travelDelay)
    (hd : g.travelDelay ≤ 2000000000) :
    ∃ s', Star (firmware c) env s s' ∧ s'.pc = 22 ∧ Ready s'.r (after g 2) (advanced fr m 2) fr (counted st 2) ∧
      s.t + 4 * g.travelDelay + 68 ≤ s'.t ∧ s'.t ≤ s.t + 4 * g.travelDelay + 224 + 22 * L := by
  obtain ⟨s1, h1, h2, h3, h4, h6⟩ := C70_travel_slow (env := env) hok hL s g m fr st hr hpc ha (by omega) h5 hd (he _ _)
  have e : (StepGen.calculateDelay g).1 = { g with loopsTravel := g.loopsTravel - 1 } := by
    have : g.loopsTravel ≠ 0 := by omega
    simp only [StepGen.calculateDelay, ha, this, ne_eq, not_true_eq_false, not_false_eq_true, if_true, if_false]
  have k1 : (StepGen.calculateDelay g).1.loopsAccel = 0 := by rw [e]; exact ha
  have k2 : (StepGen.calculateDelay g).1.loopsTravel = g.loopsTravel - 1 := by rw [e]
  have k3 : (StepGen.calculateDelay g).1.travelDelay = g.travelDelay := by rw [e]
  obtain ⟨s2, l1, l2, l3, l4, l5⟩ := C70_travel_slow (env := env) hok hL s1 (StepGen.calculateDelay g).1 (advance fr m) fr (sub32 st 1) h3 h2 k1
    (by omega) (by omega) (by omega) (he _ _)
  rw [k3] at l4 l5
  exact ⟨s2, h1.trans l1, l2, l3, by omega, by omega⟩

variable {F : Type} [Field F] [LinearOrder F] [IsStrictOrderedRing F] {A : Arith F}

/-- C70. At constant speed `v` (at most 1 MHz) a step should take `200000000 / v` cycles of the processor. It takes at least 66
cycles more, and at most `226 + 22 L`. -/
theorem C70_speed_partial (ex : Exact A) (flip : Motor → Bool) (seg : LinearSegment) {v : F} (hv : 1 / 40 ≤ v) {D : Nat} (hD : D ≤ 32767)
    (hok : c.Ok) (he : NoStop c env) {L : Nat} (hL : env.Within L) (s : St) (g : Regs) (m fr : Motor → Nat) (st : Nat)
    (hr : Ready s.r g m fr st) (hpc : s.pc = 22) (ha : g.loopsAccel = 0) (ht : 2 ≤ g.loopsTravel)
    (hd : g.travelDelay = (timedSegment A flip seg D v v).travelDelayCycles) :
    ∃ s', Star (firmware c) env s s' ∧ s'.pc = 22 ∧ Ready s'.r (after g 2) (advanced fr m 2) fr (counted st 2) ∧
      200000000 + 66 * min v 1000000 ≤ ((s'.t : F) - s.t) * min v 1000000 ∧
      ((s'.t : F) - s.t) * min v 1000000 ≤ 200000000 + (226 + 22 * (L : F)) * min v 1000000 := by
  obtain ⟨-, -, -, h1, h2, h3, -⟩ := MotorOps.C64_travel ex flip seg hv hD
  rw [← hd] at h1 h2 h3
  obtain ⟨s', k1, k2, k3, k4, k5⟩ := two_loops (env := env) hok he hL s g m fr st hr hpc ha ht (by omega) h2
  refine ⟨s', k1, k2, k3, ?_, ?_⟩
  all_goals
    have hw : (0 : F) < min v 1000000 := lt_min (by linarith) (by norm_num)
    have c4 : (s.t : F) + 4 * g.travelDelay + 68 ≤ s'.t := by exact_mod_cast k4
    have c5 : (s'.t : F) ≤ s.t + 4 * g.travelDelay + 224 + 22 * L := by exact_mod_cast k5
    obtain ⟨h6, h7⟩ := abs_le.mp h3
    generalize min v 1000000 = w at *
  · have := mul_le_mul_of_nonneg_right (show 4 * (g.travelDelay : F) + 68 ≤ s'.t - s.t by linarith) hw.le
    linarith
  · have := mul_le_mul_of_nonneg_right (show (s'.t : F) - s.t ≤ 4 * g.travelDelay + 224 + 22 * L by linarith) hw.le
    linarith

/-- C70. The limit of 1 MHz for which the host makes segments is not reached by any cape: a step takes 268 cycles or more, which is
less than 750 kHz. -/
theorem C70_limit_not_reached (ex : Exact A) (flip : Motor → Bool) (seg : LinearSegment) {v : F} (hv : 1000000 ≤ v) {D : Nat} (hD : D ≤ 32767)
    (hok : c.Ok) (he : NoStop c env) {L : Nat} (hL : env.Within L) (s : St) (g : Regs) (m fr : Motor → Nat) (st : Nat)
    (hr : Ready s.r g m fr st) (hpc : s.pc = 22) (ha : g.loopsAccel = 0) (ht : 2 ≤ g.loopsTravel)
    (hd : g.travelDelay = (timedSegment A flip seg D v v).travelDelayCycles) :
    ∃ s', Star (firmware c) env s s' ∧ s'.pc = 22 ∧ Ready s'.r (after g 2) (advanced fr m 2) fr (counted st 2) ∧ s.t + 268 ≤ s'.t := by
  obtain ⟨-, -, -, h1, h2, -⟩ := MotorOps.C64_travel ex flip seg (show (1 : F) / 40 ≤ v by linarith) hD
  rw [← hd] at h1 h2
  obtain ⟨s', k1, k2, k3, k4, k5⟩ := two_loops (env := env) hok he hL s g m fr st hr hpc ha ht (by omega) h2
  exact ⟨s', k1, k2, k3, by omega⟩

end BeagleG.Firmware
