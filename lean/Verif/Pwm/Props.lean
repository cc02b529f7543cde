import Verif.Pwm.Model
import Verif.Planner.Exact
import Mathlib.Tactic.NormNum
/-!
# C43: the registers of the PWM timers
-/
namespace BeagleG.Pwm

open Planner (Arith Exact)

theorem sub32_le {a b : Nat} (h : b ≤ a) (ha : a < 2 ^ 32) : sub32 a b = a - b := by
  unfold sub32
  rw [Nat.mod_eq_of_lt (by omega : b < 2 ^ 32)]
  omega

/-- **C43**, for the registers alone: for every resolution up to four below the overflow value and every
`low` not above it, the load register is at least 2 below the match register, which is at least 2
below the overflow value; the counts are those asked for, up to the clamping. -/
theorem C43_registers (res low : Nat) (hl : low ≤ res) (hr : res ≤ 0xfffffffb) :
    (registers res low).1 + 2 ≤ (registers res low).2 ∧ (registers res low).2 + 2 ≤ overflow ∧
    -- counts from the match to the overflow
    low ≤ overflow - (registers res low).2 ∧ overflow - (registers res low).2 ≤ max low 2 ∧
    -- counts from the load value to the match
    (res : Int) - low - 2 ≤ (registers res low).2 - (registers res low).1 ∧
    ((registers res low).2 : Int) - (registers res low).1 ≤ max ((res : Int) - low) 2 ∧
    -- counts of a period
    res ≤ overflow - (registers res low).1 ∧ overflow - (registers res low).1 ≤ res + 4 := by
  unfold registers
  have e1 : sub32 overflow res = overflow - res := sub32_le (by unfold overflow; omega) (by decide)
  have e2 : sub32 overflow low = overflow - low := sub32_le (by unfold overflow; omega) (by decide)
  have e3 : sub32 overflow (overflow - res) = res := by
    rw [sub32_le (by omega) (by decide)]; unfold overflow; omega
  have e4 : sub32 overflow (overflow - low) = low := by
    rw [sub32_le (by omega) (by decide)]; unfold overflow; omega
  simp only [e1, e2, e3, e4]
  have e5 : sub32 (if low ≤ 2 then overflow - 2 else overflow - low)
      (if res ≤ 2 then overflow - 2 else overflow - res) =
      (if low ≤ 2 then overflow - 2 else overflow - low) -
      (if res ≤ 2 then overflow - 2 else overflow - res) := by
    apply sub32_le
    · unfold overflow; split <;> split <;> omega
    · unfold overflow; split <;> omega
  have e6 : sub32 (if low ≤ 2 then overflow - 2 else overflow - low) 2 =
      (if low ≤ 2 then overflow - 2 else overflow - low) - 2 := by
    apply sub32_le
    · unfold overflow; split <;> omega
    · unfold overflow; split <;> omega
  rw [e5, e6]
  unfold overflow
  split <;> split <;> split <;> omega

/-- The bound on the resolution is needed: the load register would wrap around. -/
theorem C43_wraps_beyond : registers 0xfffffffe 0xfffffffe = (0xffffffff, 1) := by decide +kernel

attribute [local irreducible] registers

/-- **C43, prescaler**: whatever frequency is asked for, the registers `pre` and `ptv` that are used with a resolution
divide the clock by the ratio the resolution was computed for (with the prescaler on, by 2 to the power `ptv + 1`),
unless the period is too long even for the largest ratio. -/
theorem C43_prescaler {F : Type} {A : Arith F} (f : Int) (last : Nat) : findRatio A f ratios last = (resolutionFor A f 1, 0, 0) ∨
    (∃ ptv, ptv ≤ 7 ∧ findRatio A f ratios last = (resolutionFor A f (2 ^ (ptv + 1)), 1, ptv)) ∨
    overflow ≤ resolutionFor A f 256 := by
  unfold ratios
  simp only [findRatio]
  split_ifs
  · exact .inl rfl
  · exact .inr (.inl ⟨0, by omega, rfl⟩)
  · exact .inr (.inl ⟨1, by omega, rfl⟩)
  · exact .inr (.inl ⟨2, by omega, rfl⟩)
  · exact .inr (.inl ⟨3, by omega, rfl⟩)
  · exact .inr (.inl ⟨4, by omega, rfl⟩)
  · exact .inr (.inl ⟨5, by omega, rfl⟩)
  · exact .inr (.inl ⟨6, by omega, rfl⟩)
  · exact .inr (.inl ⟨7, by omega, rfl⟩)
  · rename_i h; exact .inr (.inr (Nat.not_lt.1 h))

section
variable {F : Type} [Field F] [LinearOrder F] [IsStrictOrderedRing F] {A : Arith F}

/-- The resolution is the number of clock cycles of a period; the prescaler is not needed. -/
theorem resolution_exact (ex : Exact A) {f : Int} (h1 : 1 ≤ f) (h2 : f ≤ 12000000) :
    findRatio A f ratios 0 = ((baseClock / f).toNat, 0, 0) ∧ 2 ≤ baseClock / f ∧
      baseClock / f ≤ 24000000 := by
  have hf : (0 : F) < f := by exact_mod_cast (by omega : (0 : Int) < f)
  have hx : A.div (A.toFloat (A.div (A.ofInt 1) (A.ofInt f)))
      (A.toFloat (A.mul (A.div (A.ofInt 1) (A.ofInt baseClock)) (A.ofInt 1))) = 24000000 / (f : F) := by
    simp only [ex.toFloat, ex.div, ex.mul, ex.ofInt, baseClock]
    push_cast
    field_simp
  have hge : 2 ≤ baseClock / f := by
    rw [Int.le_ediv_iff_mul_le (by omega)]; unfold baseClock; omega
  have hle : baseClock / f ≤ 24000000 := by
    refine Int.le_trans (Int.ediv_le_self _ (by unfold baseClock; omega)) (by unfold baseClock; omega)
  obtain ⟨t1, t2⟩ := ex.trunc (24000000 / (f : F)) (by positivity)
  have hint : A.toInt (24000000 / (f : F)) = baseClock / f := by
    rw [le_div_iff₀ hf] at t1
    rw [div_lt_iff₀ hf] at t2
    have t1' : A.toInt (24000000 / (f : F)) * f ≤ 24000000 := by exact_mod_cast t1
    have t2' : 24000000 < (A.toInt (24000000 / (f : F)) + 1) * f := by exact_mod_cast t2
    apply le_antisymm
    · rw [Int.le_ediv_iff_mul_le (by omega)]; exact t1'
    · rw [← Int.lt_add_one_iff, Int.ediv_lt_iff_lt_mul (by omega)]; exact t2'
  have hres : resolutionFor A f 1 = (baseClock / f).toNat := by
    unfold resolutionFor
    rw [hx, hint]
  refine ⟨?_, hge, hle⟩
  unfold ratios findRatio
  simp only [hres]
  rw [if_pos (by unfold overflow; omega)]

/-- **C43.** After setting any positive frequency up to half the base clock and any duty cycle above 0 up
to 1, the match register is at least 2 below the overflow value, the load register at least 2 below the
match register, nothing wrapped around, the period is that of the frequency up to 4 cycles and the high
time is within 3 cycles of the requested part of it. -/
theorem C43_duty (ex : Exact A) (t : Timer F) (hm : t.mapped = true) (f : Int) (h1 : 1 ≤ f)
    (h2 : f ≤ 12000000) (d : F) (hd0 : 0 < d) (hd1 : d ≤ 1) :
    let t' := setDuty A (setFreq A t f) d
    t'.resolution = (baseClock / f).toNat ∧ t'.freq = f ∧ t'.duty = d ∧
    t'.tldr + 2 ≤ t'.tmar ∧ t'.tmar + 2 ≤ overflow ∧ t'.tcrr = t'.tldr ∧
    |((t'.tmar : F) - t'.tldr) - t'.resolution * d| ≤ 3 ∧
    t'.resolution ≤ overflow - t'.tldr ∧ overflow - t'.tldr ≤ t'.resolution + 4 := by
  obtain ⟨r1, r2, r3⟩ := resolution_exact ex h1 h2
  have hf : setFreq A t f = 
      { t with freq := f, pre := 0, ptv := 0, resolution := (baseClock / f).toNat } := by
    unfold setFreq
    simp only [hm, Bool.not_true, Bool.false_eq_true, if_false]
    rw [if_neg (by omega : ¬ f = 0), if_neg (by unfold baseClock; omega), r1]
    simp only
    rw [Nat.mod_eq_of_lt (by omega)]
  intro t'
  have ht' : t' = setDuty A (setFreq A t f) d := rfl
  clear_value t'
  rw [hf] at ht'
  generalize hres : (baseClock / f).toNat = res at *
  have hres' : 2 ≤ res ∧ res ≤ 24000000 := by omega
  unfold setDuty at ht'
  simp only [hm, Bool.not_true, Bool.false_eq_true, if_false] at ht'
  rw [if_neg (by
      simp only [ex.lt, ex.zero, ex.ofInt, Bool.or_eq_true, beq_iff_eq, decide_eq_true_eq, not_or,
        not_lt, Int.cast_one]
      exact ⟨⟨by omega, hd0.le⟩, hd1⟩),
    if_neg (by simp only [ex.eq, ex.zero, decide_eq_true_eq]; exact hd0.ne')] at ht'
  have hv : A.mul (A.ofInt (res : Int)) (A.sub (A.ofInt 1) d) = (res : F) * (1 - d) := by
    simp only [ex.mul, ex.sub, ex.ofInt, Int.cast_natCast, Int.cast_one]
  have hpos : (0 : F) ≤ (res : F) * (1 - d) := by
    have : (0 : F) ≤ 1 - d := by linarith
    positivity
  obtain ⟨u1, u2⟩ := ex.truncU _ hpos
  have hlow : A.toU32 ((res : F) * (1 - d)) ≤ res := by
    have : (A.toU32 ((res : F) * (1 - d)) : F) ≤ res := by
      refine le_trans u1 ?_
      have : (0 : F) ≤ (res : F) * d := by positivity
      linarith
    exact_mod_cast this
  rw [hv] at ht'
  generalize A.toU32 ((res : F) * (1 - d)) = low at *
  obtain ⟨g1, g2, -, -, g5, g6, g7, g8⟩ := C43_registers res low hlow (by omega)
  generalize registers res low = r at *
  have f1 : t'.tldr = r.1 := by rw [ht']
  have f2 : t'.tmar = r.2 := by rw [ht']
  have f3 : t'.resolution = res := by rw [ht']
  have f4 : t'.tcrr = r.1 := by rw [ht']
  have f5 : t'.freq = f := by rw [ht']
  have f6 : t'.duty = d := by rw [ht']
  rw [f1, f2, f3, f4, f5, f6]
  refine ⟨rfl, rfl, rfl, g1, g2, rfl, ?_, g7, g8⟩
  have k1 : (res : F) - low - 2 ≤ r.2 - r.1 := by exact_mod_cast g5
  have g6' : (r.2 : Int) - r.1 ≤ (res : Int) - low + 2 := by omega
  have k2 : (r.2 : F) - r.1 ≤ (res : F) - low + 2 := by
    have := (Int.cast_le (R := F)).2 g6'
    push_cast at this
    exact this
  rw [abs_le]
  constructor <;> linarith

/-- **C43.** A duty cycle outside 0..1 changes nothing, and 0 stops the timer. -/
theorem C43_refused (ex : Exact A) (t : Timer F) (d : F) :
    (d < 0 ∨ 1 < d → setDuty A t d = t) ∧
    (t.mapped = true → t.freq ≠ 0 → (setDuty A t 0).running = false ∧ (setDuty A t 0).tclr = 0) := by
  constructor
  · intro h
    unfold setDuty
    split
    · rfl
    · rw [if_pos (by
        simp only [ex.lt, ex.zero, ex.ofInt, Bool.or_eq_true, decide_eq_true_eq, Int.cast_one]
        tauto)]
  · intro h1 h2
    unfold setDuty
    rw [if_neg (by simp [h1]), if_neg (by simp [ex.lt, ex.zero, ex.ofInt, h2]),
      if_pos (by simp [ex.eq, ex.zero])]
    unfold start
    simp [h1]

omit [Field F] [LinearOrder F] [IsStrictOrderedRing F] in
/-- **C43.** Frequencies above half the base clock are refused: the timer cannot be used then. -/
theorem C43_frequency (t : Timer F) (f : Int) (hm : t.mapped = true) (hf : 12000000 < f) (d : F) :
    (setFreq A t f).freq = 0 ∧ setDuty A (setFreq A t f) d = setFreq A t f := by
  have h : setFreq A t f = { t with freq := 0 } := by
    unfold setFreq
    rw [if_neg (by simp [hm]), if_neg (by omega : ¬ f = 0), if_pos (by unfold baseClock; omega)]
  rw [h]
  refine ⟨rfl, ?_⟩
  unfold setDuty
  split
  · rfl
  · simp

omit [Field F] [LinearOrder F] [IsStrictOrderedRing F] in
/-- **C43.** Without a frequency the timer is set to 16 kHz. -/
theorem C43_default (t : Timer F) : setFreq A t 0 = setFreq A t 16000 := rfl

/-- **C43.** A timer that was given a duty cycle above zero runs after being started, without prescaler. -/
theorem C43_runs (ex : Exact A) (t : Timer F) (hm : t.mapped = true) (f : Int) (h1 : 1 ≤ f)
    (h2 : f ≤ 12000000) (d : F) (hd0 : 0 < d) (hd1 : d ≤ 1) :
    (start A (setDuty A (setFreq A t f) d) true).running = true ∧
      (start A (setDuty A (setFreq A t f) d) true).tclr = 0x1843 ∧
      (start A (setDuty A (setFreq A t f) d) false).running = false := by
  obtain ⟨-, g1, g2, -⟩ := C43_duty ex t hm f h1 h2 d hd0 hd1
  obtain ⟨r1, -, -⟩ := resolution_exact ex h1 h2
  have hf : setFreq A t f = 
      { t with freq := f, pre := 0, ptv := 0, resolution := (baseClock / f).toNat % 2 ^ 32 } := by
    unfold setFreq
    simp only [hm, Bool.not_true, Bool.false_eq_true, if_false]
    rw [if_neg (by omega : ¬ f = 0), if_neg (by unfold baseClock; omega), r1]
  have hk : (setDuty A (setFreq A t f) d).mapped = true ∧ (setDuty A (setFreq A t f) d).pre = 0 ∧
      (setDuty A (setFreq A t f) d).ptv = 0 := by
    rw [hf]
    unfold setDuty start
    simp only [hm]
    split_ifs <;> exact ⟨rfl, rfl, rfl⟩
  obtain ⟨k1, k2, k3⟩ := hk
  generalize setDuty A (setFreq A t f) d = u at *
  unfold start
  have hz : A.eq u.duty A.zero = false := by
    rw [ex.eq, ex.zero, decide_eq_false_iff_not, g2]; exact hd0.ne'
  have hfz : (u.freq == 0) = false := by rw [beq_eq_false_iff_ne, g1]; omega
  simp [k1, k2, k3, hz, hfz]

end
end BeagleG.Pwm
