import Verif.Firmware.Delay
/-!
# One pass of the step generation

From `STEP_GEN` through the emergency stop, the step outputs, `CalculateDelay`, the status word and the delay loop back
to `STEP_GEN`, or to the end of the segment.
-/
namespace BeagleG.Firmware
open Instr Line Lbl

variable {env : Env} {c : Cape} {prog : List (Instr Nat)}

/-- The four bytes of an answer as a word. -/
def word (b : Nat → Nat) : Nat := b 0 % 256 + b 1 % 256 * 256 + b 2 % 256 * 256 ^ 2 + b 3 % 256 * 256 ^ 3

theorem word_lt (b : Nat → Nat) : word b < 2 ^ 32 := by
  unfold word
  omega

theorem putBytes_reg (r : Nat → Nat) (a : Nat) (b : Nat → Nat) (k : Nat) :
    putBytes r (Fld.byte ⟨a, 0, 4⟩) 4 b k = if k = a then word b else r k := by
  unfold putBytes Fld.byte word
  simp only
  by_cases h : k = a
  · subst h
    rw [if_neg (by omega), if_pos rfl]
    simp only [Nat.add_zero, Nat.add_sub_cancel_left, Nat.sub_self]
    rw [if_pos (by omega), if_pos (by omega), if_pos (by omega), if_pos (by omega)]
  · rw [if_pos (by omega), if_neg h]

/-! ### The emergency stop -/

/-- The bytes of an answer, as they are recorded. -/
def answer (env : Env) (n k : Nat) : List Nat := (List.range k).map fun j => env.ans n j % 256

/-- Level of the emergency stop input in an answer. -/
def estopBit (c : Cape) (env : Env) (n : Nat) : Bool := (word (env.ans n)).testBit (c.input 6 &&& 0x1f)

/-- The address that is read. -/
def estopAddr (c : Cape) : Nat := ((c.input 6 &&& 0xfffff000) + gpioDatain) % 2 ^ 32

/-- `CheckForEStop` up to its `RET`: the input is read, and once more if it was active. -/
def estopDone (c : Cape) (env : Env) (t n : Nat) : Done × Bool :=
  if c.checksEstop = false then (⟨[], t + 1, n⟩, false)
  else if unmapped (c.input 6) then (⟨[], t + movCost (c.input 6 &&& 0xfffff000) + 3, n⟩, false)
  else
    let t1 := t + movCost (c.input 6 &&& 0xfffff000) + 4
    let e1 := (t1, Ev.load .bus (estopAddr c) (answer env n 4))
    if estopBit c env n = false then (⟨[e1], t1 + (1 + env.lat n) + 3, n + 1⟩, false)
    else
      let t2 := t1 + (1 + env.lat n) + 4
      let e2 := (t2, Ev.load .bus (estopAddr c) (answer env (n + 1) 4))
      if estopBit c env (n + 1) = false then (⟨[e1, e2], t2 + (1 + env.lat (n + 1)) + 3, n + 2⟩, false)
      else (⟨[e1, e2], t2 + (1 + env.lat (n + 1)) + 3, n + 2⟩, true)

theorem movCost_small {n : Nat} (h : n < 2 ^ 16) : movCost n = 1 := if_pos h

theorem estop_run (hl : Located c prog) (s : St) (hpin : c.input 6 < 2 ^ 32) (hpc : s.pc = 706) (h0 : get s.r r0 = 0) :
    Wp prog env s fun s' => Ran s s' (get s.r ⟨30, 0, 2⟩) (estopDone c env s.t s.n).1 [0, 4, 5, 6] ∧
      get s'.r r0 = if (estopDone c env s.t s.n).2 then 1 else 0 := by
  obtain ⟨pc, r, cc, n, t, log⟩ := s
  simp only at hpc h0
  subst hpc
  have hc := hl.estop
  unfold codeEstop at hc
  unfold estopDone
  cases he : c.checksEstop
  · rw [he] at hc
    refine wp_ret (hc.at 0 rfl) (.here ⟨⟨rfl, ?_, rfl, rfl, fun _ _ => rfl⟩, h0⟩)
    simp
  · rw [he] at hc
    have hbase := base_lt hpin
    have hbit : c.input 6 &&& 0x1f < 32 := Nat.lt_of_le_of_lt Nat.and_le_right (by decide)
    simp only [Bool.true_eq_false, if_false]
    have k30 : ∀ (f : Nat → Nat), (f 30 = r 30) → get f ⟨30, 0, 2⟩ = get r ⟨30, 0, 2⟩ := fun f hf => by simp only [get, hf]
    refine wp_movi (hc.at 0 rfl) ?_
    refine wp_qbeq (hc.at 1 rfl) (unmapped (c.input 6)) (by rw [get_put_high]; rfl) ?_
    cases hu : unmapped (c.input 6)
    · refine wp_movi (hc.at 2 rfl) ?_
      refine wp_add (hc.at 3 rfl) ?_
      refine wp_movi (hc.at 4 rfl) ?_
      set q := put (put (put (put r r4 (c.input 6 &&& 0xfffff000)) r5 gpioDatain) r4
        (get (put (put r r4 (c.input 6 &&& 0xfffff000)) r5 gpioDatain) r4 +
          val (put (put r r4 (c.input 6 &&& 0xfffff000)) r5 gpioDatain) (.fld r5))) r5 (c.input 6 &&& 0x1f) with hq
      have q4 : get q r4 = estopAddr c := by
        rw [hq, get_put_other _ _ _ _ (by decide), get_put_full]
        simp only [val]
        rw [get_put_full, get_put_other _ _ _ _ (by decide), get_put_full, Nat.mod_eq_of_lt hbase]
        rfl
      have q5 : get q r5 = (c.input 6 &&& 0x1f) := by
        rw [hq, get_put_full, Nat.mod_eq_of_lt (by omega)]
      have qk : ∀ k, k ∉ [0, 4, 5, 6] → q k = r k := by
        intro k hk
        simp only [List.mem_cons, List.not_mem_nil, or_false, not_or] at hk
        rw [hq, put_other _ _ _ _ hk.2.2.1, put_other _ _ _ _ hk.2.1, put_other _ _ _ _ hk.2.2.1, put_other _ _ _ _ hk.2.1]
      have q0 : get q r0 = 0 := by
        rw [hq, get_put_other _ _ _ _ (by decide), get_put_other _ _ _ _ (by decide), get_put_other _ _ _ _ (by decide),
          get_put_other _ _ _ _ (by decide), h0]
      clear_value q
      refine wp_load (hc.at 5 rfl) ?_
      simp only [val, q4]
      rw [movCost_small (show gpioDatain < 2 ^ 16 by decide), movCost_small (show (c.input 6 &&& 0x1f) < 2 ^ 16 by omega)]
      have l6 : ∀ (f : Nat → Nat) m, get (putBytes f (Fld.byte r6) 4 (env.ans m)) r6 = word (env.ans m) := fun f m => by
        rw [get_full, putBytes_reg, if_pos rfl, Nat.mod_eq_of_lt (word_lt _)]
      have lk : ∀ (f : Nat → Nat) m k, k ≠ 6 → putBytes f (Fld.byte r6) 4 (env.ans m) k = f k := fun f m k hk => by
        rw [putBytes_reg, if_neg hk]
      have l5 : ∀ (f : Nat → Nat) m, get (putBytes f (Fld.byte r6) 4 (env.ans m)) r5 = get f r5 := fun f m => by
        simp only [get, lk f m 5 (by decide)]
      have l4 : ∀ (f : Nat → Nat) m, get (putBytes f (Fld.byte r6) 4 (env.ans m)) r4 = get f r4 := fun f m => by
        simp only [get, lk f m 4 (by decide)]
      have l0 : ∀ (f : Nat → Nat) m, get (putBytes f (Fld.byte r6) 4 (env.ans m)) r0 = get f r0 := fun f m => by
        simp only [get, lk f m 0 (by decide)]
      refine wp_qbbc (hc.at 6 rfl) (!estopBit c env n) (by simp only [val, l6, l5, q5, Nat.mod_eq_of_lt hbit]; rfl) ?_
      cases hb1 : estopBit c env n
      · refine wp_movi (hc.at 10 rfl) ?_
        refine wp_ret (hc.at 11 rfl) (.here ⟨⟨?_, ?_, ?_, ?_, ?_⟩, ?_⟩)
        · refine k30 _ ?_
          rw [put_other _ _ _ _ (by decide), lk _ _ _ (by decide), qk _ (by decide)]
        · simp [answer]
        · simp [movCost]
        · simp
        · intro k hk
          have hk' := hk
          simp only [List.mem_cons, List.not_mem_nil, or_false, not_or] at hk'
          show put _ _ _ k = r k
          rw [put_other _ _ _ _ hk'.1, lk _ _ _ hk'.2.2.2, qk _ hk]
        · simp only [get_put_full]
          simp
      · refine wp_qbeq (hc.at 7 rfl) false (by simp [val, l0, q0]) ?_
        refine wp_movi (hc.at 8 rfl) ?_
        refine wp_jmp (hc.at 9 rfl) ?_
        refine wp_load (hc.at 5 rfl) ?_
        set q' := put (putBytes q (Fld.byte r6) 4 (env.ans n)) r0 1 with hq'
        have q4' : get q' r4 = estopAddr c := by rw [hq', get_put_other _ _ _ _ (by decide), l4, q4]
        have q5' : get q' r5 = (c.input 6 &&& 0x1f) := by rw [hq', get_put_other _ _ _ _ (by decide), l5, q5]
        have q0' : get q' r0 = 1 := by rw [hq', get_put_full]
        have qk' : ∀ k, k ∉ [0, 4, 5, 6] → q' k = r k := by
          intro k hk
          have hk' := hk
          simp only [List.mem_cons, List.not_mem_nil, or_false, not_or] at hk'
          rw [hq', put_other _ _ _ _ hk'.1, lk _ _ _ hk'.2.2.2, qk _ hk]
        clear_value q'
        simp only [val, q4']
        refine wp_qbbc (hc.at 6 rfl) (!estopBit c env (n + 1)) (by simp only [val, l6, l5, q5', Nat.mod_eq_of_lt hbit]; rfl) ?_
        cases hb2 : estopBit c env (n + 1)
        · refine wp_movi (hc.at 10 rfl) ?_
          refine wp_ret (hc.at 11 rfl) (.here ⟨⟨?_, ?_, ?_, ?_, ?_⟩, ?_⟩)
          · refine k30 _ ?_
            rw [put_other _ _ _ _ (by decide), lk _ _ _ (by decide), qk' _ (by decide)]
          · simp [answer, movCost]
          · simp [movCost]
          · simp
          · intro k hk
            have hk' := hk
            simp only [List.mem_cons, List.not_mem_nil, or_false, not_or] at hk'
            show put _ _ _ k = r k
            rw [put_other _ _ _ _ hk'.1, lk _ _ _ hk'.2.2.2, qk' _ hk]
          · simp only [get_put_full]
            simp
        · refine wp_qbeq (hc.at 7 rfl) true (by simp [val, l0, q0']) ?_
          refine wp_ret (hc.at 11 rfl) (.here ⟨⟨?_, ?_, ?_, ?_, ?_⟩, ?_⟩)
          · refine k30 _ ?_
            rw [lk _ _ _ (by decide), qk' _ (by decide)]
          · simp [answer, movCost]
          · simp [movCost]
          · simp
          · intro k hk
            have hk' := hk
            simp only [List.mem_cons, List.not_mem_nil, or_false, not_or] at hk'
            show putBytes _ _ _ _ k = r k
            rw [lk _ _ _ hk'.2.2.2, qk' _ hk]
          · simp only [l0, q0']
            simp
    · refine wp_movi (hc.at 10 rfl) ?_
      refine wp_ret (hc.at 11 rfl) (.here ⟨⟨?_, ?_, ?_, ?_, ?_⟩, ?_⟩)
      · refine k30 _ ?_
        rw [put_other _ _ _ _ (by decide), put_other _ _ _ _ (by decide)]
      · simp
      · simp [movCost]
      · rfl
      · intro k hk
        simp only [List.mem_cons, List.not_mem_nil, or_false, not_or] at hk
        show put _ _ _ k = r k
        rw [put_other _ _ _ _ hk.1, put_other _ _ _ _ hk.2.1]
      · simp only [get_put_full]
        simp

/-! ### The delay -/

/-- The delay loop: two cycles for each round, then back to `STEP_GEN`. -/
theorem delay_run (hl : Located c prog) (d : Nat) : ∀ (s : St), s.pc = 398 → get s.r r1 = d + 1 →
    Wp prog env s fun s' => Calc s s' 22 (2 * (d + 1) + 1) [1] := by
  induction d with
  | zero =>
    rintro ⟨pc, r, cc, n, t, log⟩ hpc h1
    simp only at hpc h1
    subst hpc
    refine wp_sub (hl.delay.at 5 rfl) fun _ => ?_
    refine wp_qbne (hl.delay.at 6 rfl) false (by rw [get_put_full]; simp [val, h1]) ?_
    refine wp_jmp (hl.delay.at 7 rfl) (.here ⟨rfl, rfl, rfl, rfl, ?_⟩)
    intro k hk
    exact put_other _ _ _ _ (by simpa using hk)
  | succ d ih =>
    rintro ⟨pc, r, cc, n, t, log⟩ hpc h1
    simp only at hpc h1
    subst hpc
    have hlt := get_lt r 1
    have hr : get (put r r1 (get r r1 + (2 ^ 32 - val r (.imm 1)))) r1 = d + 1 := by
      rw [get_put_full, h1]; simp only [val]
      rw [show get r ⟨1, 0, 4⟩ = get r r1 from rfl, h1] at hlt
      omega
    refine wp_sub (hl.delay.at 5 rfl) fun _ => ?_
    refine wp_qbne (hl.delay.at 6 rfl) true (by rw [hr]; simp [val]) ?_
    refine (ih ⟨398, put r r1 (get r r1 + (2 ^ 32 - val r (.imm 1))), _, n, t + 1 + 1, log⟩ rfl hr).mono ?_
    rintro s' h
    refine ⟨h.pc, h.log, ?_, h.n, ?_⟩
    · rw [h.t]; simp only; omega
    · intro k hk
      rw [h.keep k hk]
      exact put_other _ _ _ _ (by simpa using hk)

/-- The loop with the counter at any value: at 0 it counts once around. -/
theorem delay_run' (hl : Located c prog) (s : St) (hpc : s.pc = 398) :
    Wp prog env s fun s' => Calc s s' 22 (2 * (if get s.r r1 = 0 then 2 ^ 32 else get s.r r1) + 1) [1] := by
  by_cases h : get s.r r1 = 0
  · obtain ⟨pc, r, cc, n, t, log⟩ := s
    simp only at hpc h
    subst hpc
    have hr : get (put r r1 (get r r1 + (2 ^ 32 - val r (.imm 1)))) r1 = (2 ^ 32 - 2) + 1 := by
      rw [get_put_full, h]; simp only [val]
      norm_num
    refine wp_sub (hl.delay.at 5 rfl) fun _ => ?_
    refine wp_qbne (hl.delay.at 6 rfl) true (by rw [hr]; simp [val]) ?_
    refine (delay_run hl _ ⟨398, put r r1 (get r r1 + (2 ^ 32 - val r (.imm 1))), _, n, t + 1 + 1, log⟩ rfl hr).mono ?_
    rintro s' hs
    refine ⟨hs.pc, hs.log, ?_, hs.n, ?_⟩
    · rw [hs.t]; simp only [h, if_true]; omega
    · intro k hk
      rw [hs.keep k hk]
      exact put_other _ _ _ _ (by simpa using hk)
  · obtain ⟨d, hd⟩ := Nat.exists_eq_succ_of_ne_zero h
    rw [if_neg h, hd]
    exact delay_run hl d s hpc hd

end BeagleG.Firmware
