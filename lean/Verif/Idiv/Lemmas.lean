import Verif.Idiv.Model
/-!
# Helper lemmas for C22
-/
namespace BeagleG.Idiv

theorem even_or_one (m : Nat) : (2 * m) ||| 1 = 2 * m + 1 := by
  have := Nat.two_pow_add_eq_or_of_lt (i := 1) (b := 1) (by omega) m
  simpa using this.symm

/-- State after `k` steps: `hi` is the remainder of the `k` leading bits, `lo` holds
the remaining bits shifted up with the quotient of the leading bits below them. -/
theorem steps_inv (n d : Nat) (hn : n < 2 ^ 32) (hd : 0 < d) (hd2 : d < 2 ^ 32) (k : Nat)
    (hk : k ≤ 32) :
    divisionSteps d k (0, n) =
      ((n / 2 ^ (32 - k)) % d,
       (n % 2 ^ (32 - k)) * 2 ^ k + (n / 2 ^ (32 - k)) / d) := by
  induction k with
  | zero =>
    have h0 : n / 2 ^ (32 - 0) = 0 := Nat.div_eq_of_lt hn
    have h1 : n % 2 ^ (32 - 0) = n := Nat.mod_eq_of_lt hn
    rw [h0, h1]; simp [divisionSteps]
  | succ k ih =>
    rw [divisionSteps, ih (by omega)]
    obtain ⟨j, hj⟩ : ∃ j, 32 - k = j + 1 := ⟨31 - k, by omega⟩
    have hj' : 32 - (k + 1) = j := by omega
    rw [hj, hj']
    -- p: leading bits before the step, b: next bit, t: remaining bits
    have hp : n / 2 ^ j = 2 * (n / 2 ^ (j + 1)) + (n / 2 ^ j) % 2 := by
      rw [Nat.pow_succ, ← Nat.div_div_eq_div_mul]; omega
    have ht : n % 2 ^ (j + 1) = (n / 2 ^ j) % 2 * 2 ^ j + n % 2 ^ j := by
      rw [Nat.pow_succ, Nat.mod_mul, Nat.mul_comm, Nat.add_comm]
    have hplt : n / 2 ^ (j + 1) < 2 ^ k := by
      rw [Nat.div_lt_iff_lt_mul (Nat.two_pow_pos _), ← Nat.pow_add]
      have : k + (j + 1) = 32 := by omega
      rw [this]; exact hn
    have htlt : n % 2 ^ j < 2 ^ j := Nat.mod_lt _ (Nat.two_pow_pos _)
    have hbit : (n / 2 ^ j) % 2 < 2 := Nat.mod_lt _ (by omega)
    have hkj : 2 ^ k * 2 ^ j = 2 ^ 31 := by
      rw [← Nat.pow_add]; congr 1; omega
    have hk31 : 2 ^ k ≤ 2 ^ 31 := Nat.pow_le_pow_right (by omega) (by omega)
    generalize hP : n / 2 ^ (j + 1) = P at *
    generalize hb : (n / 2 ^ j) % 2 = b at *
    generalize hT : n % 2 ^ j = T at *
    rw [hp, ht]
    -- quotient/remainder of the leading bits
    have hPd : d * (P / d) + P % d = P := Nat.div_add_mod P d
    have hrlt : P % d < d := Nat.mod_lt _ hd
    have hqle : P / d ≤ P := Nat.div_le_self _ _
    have hrle : P % d ≤ P := Nat.mod_le _ _
    generalize hq : P / d = q at *
    generalize hr : P % d = r at *
    -- the low word
    have hX : (b * 2 ^ j + T) * 2 ^ k + q + ((b * 2 ^ j + T) * 2 ^ k + q)
        = b * 2 ^ 32 + 2 * (T * 2 ^ k + q) := by
      have e1 : (b * 2 ^ j + T) * 2 ^ k = b * 2 ^ 31 + T * 2 ^ k := by
        rw [Nat.add_mul, Nat.mul_assoc, Nat.mul_comm (2 ^ j), hkj]
      rw [e1]; omega
    have hlow : 2 * (T * 2 ^ k + q) < 2 ^ 32 := by
      have : T * 2 ^ k + q < 2 ^ j * 2 ^ k := by
        have : (T + 1) * 2 ^ k ≤ 2 ^ j * 2 ^ k := Nat.mul_le_mul_right _ htlt
        rw [Nat.add_mul] at this; omega
      rw [Nat.mul_comm (2 ^ j), hkj] at this; omega
    have hpk : T * 2 ^ (k + 1) = 2 * (T * 2 ^ k) := by
      rw [Nat.pow_succ 2 k, ← Nat.mul_assoc, Nat.mul_comm]
    have hlo : reg ((b * 2 ^ j + T) * 2 ^ k + q + ((b * 2 ^ j + T) * 2 ^ k + q))
        = 2 * (T * 2 ^ k + q) := by
      unfold reg; rw [hX]; omega
    have hc : carry ((b * 2 ^ j + T) * 2 ^ k + q + ((b * 2 ^ j + T) * 2 ^ k + q)) = b := by
      unfold carry; rw [hX]; omega
    have hhi : reg (r + r + b) = 2 * r + b := by
      unfold reg; rw [Nat.mod_eq_of_lt (by omega)]; omega
    unfold divisionStep
    simp only [hlo, hc, hhi]
    have h2P : 2 * P + b = d * (2 * q) + (2 * r + b) := by
      rw [← hPd]; rw [Nat.mul_add, Nat.mul_left_comm]; omega
    split
    · rename_i hlt
      have hm : (2 * P + b) % d = 2 * r + b := by
        rw [h2P, Nat.mul_add_mod, Nat.mod_eq_of_lt hlt]
      have hdv : (2 * P + b) / d = 2 * q := by
        rw [h2P, Nat.mul_add_div hd, Nat.div_eq_of_lt hlt]; rfl
      rw [hm, hdv, hpk]
      congr 1
      omega
    · rename_i hge
      have h2P' : 2 * P + b = d * (2 * q + 1) + (2 * r + b - d) := by
        rw [h2P, Nat.mul_add, Nat.mul_one]; omega
      have hm : (2 * P + b) % d = 2 * r + b - d := by
        rw [h2P', Nat.mul_add_mod, Nat.mod_eq_of_lt (by omega)]
      have hdv : (2 * P + b) / d = 2 * q + 1 := by
        rw [h2P', Nat.mul_add_div hd, Nat.div_eq_of_lt (by omega)]
      rw [hm, hdv, even_or_one, hpk]
      congr 1
      · unfold reg; omega
      · omega

end BeagleG.Idiv
