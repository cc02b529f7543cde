import Verif.Idiv.Lemmas
/-!
# C22: the firmware's division is exact

Specification: the quotient and remainder of Euclidean division of natural numbers,
characterised by `n = q * d + r` and `r < d`.
-/
namespace BeagleG.Idiv

/-- **C22.** For every 32 bit dividend and every non-zero 32 bit divisor the macro
delivers the unique `(q, r)` with `n = q*d + r`, `r < d`, and both fit a register. -/
theorem C22_idiv_exact (n d : Nat) (hn : n < 2 ^ 32) (hd : 0 < d) (hd2 : d < 2 ^ 32) :
    n = (idiv n d).1 * d + (idiv n d).2 ∧ (idiv n d).2 < d ∧
    (idiv n d).1 < 2 ^ 32 ∧ (idiv n d).2 < 2 ^ 32 := by
  have h := steps_inv n d hn hd hd2 32 (by omega)
  have e : idiv n d = (n / d, n % d) := by
    unfold idiv; rw [h]; simp [Nat.mod_one]
  rw [e]
  have h1 := Nat.div_add_mod n d
  have h2 := Nat.mod_lt n hd
  have h3 := Nat.div_le_self n d
  refine ⟨?_, h2, ?_, ?_⟩
  · show n = n / d * d + n % d
    rw [Nat.mul_comm]; exact h1.symm
  · show n / d < _; omega
  · show n % d < _; omega

/-- The same, as Lean's division; used by the step timing model. -/
theorem C22_idiv_eq (n d : Nat) (hn : n < 2 ^ 32) (hd : 0 < d) (hd2 : d < 2 ^ 32) :
    idiv n d = (n / d, n % d) := by
  have h := steps_inv n d hn hd hd2 32 (by omega)
  unfold idiv; rw [h]; simp [Nat.mod_one]

/-- The excluded divisor: dividing by zero yields all ones and the dividend as
remainder (the firmware never does that, see `StepGen`). -/
theorem C22_idiv_zero (n : Nat) (hn : n < 2 ^ 32) : idiv n 0 = (2 ^ 32 - 1, n) := by
  have key : ∀ k, k ≤ 32 → divisionSteps 0 k (0, n) =
      (n / 2 ^ (32 - k), (n % 2 ^ (32 - k)) * 2 ^ k + (2 ^ k - 1)) := by
    intro k
    induction k with
    | zero =>
      intro _
      have h0 : n / 2 ^ (32 - 0) = 0 := Nat.div_eq_of_lt hn
      have h1 : n % 2 ^ (32 - 0) = n := Nat.mod_eq_of_lt hn
      rw [h0, h1]; simp [divisionSteps]
    | succ k ih =>
      intro hk
      rw [divisionSteps, ih (by omega)]
      obtain ⟨j, hj⟩ : ∃ j, 32 - k = j + 1 := ⟨31 - k, by omega⟩
      have hj' : 32 - (k + 1) = j := by omega
      rw [hj, hj']
      have hp : n / 2 ^ j = 2 * (n / 2 ^ (j + 1)) + (n / 2 ^ j) % 2 := by
        rw [Nat.pow_succ, ← Nat.div_div_eq_div_mul]; omega
      have ht : n % 2 ^ (j + 1) = (n / 2 ^ j) % 2 * 2 ^ j + n % 2 ^ j := by
        rw [Nat.pow_succ, Nat.mod_mul, Nat.mul_comm, Nat.add_comm]
      have hplt : n / 2 ^ (j + 1) < 2 ^ k := by
        rw [Nat.div_lt_iff_lt_mul (Nat.two_pow_pos _), ← Nat.pow_add]
        have : k + (j + 1) = 32 := by omega
        rw [this]; exact hn
      have htlt : n % 2 ^ j < 2 ^ j := Nat.mod_lt _ (Nat.two_pow_pos _)
      have hkj : 2 ^ k * 2 ^ j = 2 ^ 31 := by rw [← Nat.pow_add]; congr 1; omega
      have hk31 : 2 ^ k ≤ 2 ^ 31 := Nat.pow_le_pow_right (by omega) (by omega)
      have hkpos : 0 < 2 ^ k := Nat.two_pow_pos _
      have hbit : (n / 2 ^ j) % 2 < 2 := Nat.mod_lt _ (by omega)
      generalize hP : n / 2 ^ (j + 1) = P at *
      generalize hb : (n / 2 ^ j) % 2 = b at *
      generalize hT : n % 2 ^ j = T at *
      rw [hp, ht]
      have hX : (b * 2 ^ j + T) * 2 ^ k + (2 ^ k - 1) + ((b * 2 ^ j + T) * 2 ^ k + (2 ^ k - 1))
          = b * 2 ^ 32 + 2 * (T * 2 ^ k + (2 ^ k - 1)) := by
        have e1 : (b * 2 ^ j + T) * 2 ^ k = b * 2 ^ 31 + T * 2 ^ k := by
          rw [Nat.add_mul, Nat.mul_assoc, Nat.mul_comm (2 ^ j), hkj]
        rw [e1]; omega
      have hlow : 2 * (T * 2 ^ k + (2 ^ k - 1)) < 2 ^ 32 := by
        have : (T + 1) * 2 ^ k ≤ 2 ^ j * 2 ^ k := Nat.mul_le_mul_right _ htlt
        rw [Nat.add_mul, Nat.mul_comm (2 ^ j), hkj] at this; omega
      have hpk : T * 2 ^ (k + 1) = 2 * (T * 2 ^ k) := by
        rw [Nat.pow_succ 2 k, ← Nat.mul_assoc, Nat.mul_comm]
      have hpk' : 2 ^ (k + 1) = 2 * 2 ^ k := by rw [Nat.pow_succ 2 k, Nat.mul_comm]
      unfold divisionStep
      have hlo : reg ((b * 2 ^ j + T) * 2 ^ k + (2 ^ k - 1) +
          ((b * 2 ^ j + T) * 2 ^ k + (2 ^ k - 1))) = 2 * (T * 2 ^ k + (2 ^ k - 1)) := by
        unfold reg; rw [hX]; omega
      have hc : carry ((b * 2 ^ j + T) * 2 ^ k + (2 ^ k - 1) +
          ((b * 2 ^ j + T) * 2 ^ k + (2 ^ k - 1))) = b := by
        unfold carry; rw [hX]; omega
      have hhi : reg (P + P + b) = 2 * P + b := by unfold reg; omega
      simp only [hlo, hc, hhi, Nat.not_lt_zero, if_false, even_or_one]
      rw [hpk, hpk']
      have hfin : reg (2 * P + b + (2 ^ 32 - 0)) = 2 * P + b := by unfold reg; omega
      have hlo2 : 2 * (T * 2 ^ k + (2 ^ k - 1)) + 1 = 2 * (T * 2 ^ k) + (2 * 2 ^ k - 1) := by omega
      rw [hfin, hlo2]
  have := key 32 (by omega)
  unfold idiv; rw [this]; simp [Nat.mod_one]

/-- Non-vacuity: extreme register contents. -/
example : idiv 4294967295 4294967295 = (1, 0) ∧ idiv 4294967295 2147483649 = (1, 2147483646) ∧
    idiv 4294967294 4294967295 = (0, 4294967294) := by decide +kernel

end BeagleG.Idiv
