import Verif.Firmware.Exec
import Verif.StepGen.Model
import Mathlib.Tactic.Set
/-!
# The subroutines and macros of the firmware
-/
namespace BeagleG.Firmware
open Instr Line Lbl

variable {prog : List (Instr Nat)} {env : Env}

theorem Ran.trans {s s1 s2 : St} {pc1 pc2 : Nat} {d : Done} {f : Nat → Nat → Done} {dirty : List Nat}
    (h1 : Ran s s1 pc1 d dirty) (h2 : Ran s1 s2 pc2 (f s1.t s1.n) dirty) : Ran s s2 pc2 (d.bind f) dirty := by
  have ht := h1.t
  have hn := h1.n
  refine ⟨h2.pc, ?_, ?_, ?_, fun k hk => (h2.keep k hk).trans (h1.keep k hk)⟩
  · rw [h2.log, h1.log, ht, hn, List.append_assoc]; rfl
  · rw [h2.t, ht, hn]; rfl
  · rw [h2.n, ht, hn]; rfl

/-! ### Several pins in a row -/

/-- Pins are set one after the other. -/
def outs (env : Env) : List (Nat × Bool) → Nat → Nat → Done
  | [], t, n => ⟨[], t, n⟩
  | (p, b) :: l, t, n => (gpioOut env p b t n).bind (outs env l)

/-- Expansions of `SetGPIO` in a row. -/
def gpioSeq : Nat → List (Fld × Nat × Nat) → List Line
  | _, [] => []
  | k, x :: l => setGPIO k x.1 x.2.1 x.2.2 ++ gpioSeq (k + 1) l

theorem gpioSeq_run (l : List (Fld × Nat × Nat)) : ∀ (k a : Nat) (s : St),
    (∀ x ∈ l, x.1.r ∉ [4, 5, 6] ∧ x.2.1 < 32 ∧ x.2.2 < 2 ^ 32) → (∀ i ≤ l.length, gpioAt (k + i) = a + 9 * i ∨ i = l.length) →
    s.pc = a → CodeAt prog a (instrs adr (gpioSeq k l)) →
    Wp prog env s fun s' =>
      Ran s s' (a + 9 * l.length) (outs env (l.map fun x => (x.2.2, (get s.r x.1).testBit x.2.1)) s.t s.n) [4, 5, 6] := by
  induction l with
  | nil =>
    intro k a s _ _ hpc _
    exact .here ⟨by simp [hpc], by simp [outs], rfl, rfl, fun _ _ => rfl⟩
  | cons x l ih =>
    intro k a s hl hk hpc hc
    have h0 : gpioAt k = a := by simpa using hk 0 (by simp)
    obtain ⟨hx1, hx2, hx3⟩ := hl x List.mem_cons_self
    rw [gpioSeq, instrs_append] at hc
    obtain ⟨hc1, hc2⟩ := hc.append
    have hlen : (instrs adr (setGPIO k x.1 x.2.1 x.2.2)).length = 9 := rfl
    rw [hlen] at hc2
    refine (setGPIO_run k x.1 x.2.1 x.2.2 s hx1 hx3 hx2 (by rw [hpc, h0]) (by rw [h0]; exact hc1)).trans ?_
    intro s1 h1
    have hpc1 : s1.pc = a + 9 := by rw [h1.pc, h0]
    refine (ih (k + 1) (a + 9) s1 (fun y hy => hl y (List.mem_cons_of_mem _ hy)) ?_ hpc1 hc2).mono ?_
    · intro i hi
      have := hk (i + 1) (by simpa using hi)
      rw [show k + (i + 1) = k + 1 + i by omega] at this
      rcases this with h | h
      · left; omega
      · right; simpa using h
    · intro s2 h2
      have heq : (l.map fun y => (y.2.2, (get s1.r y.1).testBit y.2.1)) = l.map fun y => (y.2.2, (get s.r y.1).testBit y.2.1) := by
        apply List.map_congr_left
        intro y hy
        have := (hl y (List.mem_cons_of_mem _ hy)).1
        simp only [get, h1.keep _ this]
      rw [heq] at h2
      have := h1.trans (f := outs env (l.map fun y => (y.2.2, (get s.r y.1).testBit y.2.1))) h2
      have hlen2 : a + 9 + 9 * l.length = a + 9 * (x :: l).length := by simp; omega
      rw [hlen2] at this
      exact this

/-- A subroutine that sets pins: afterwards the program continues behind the call. -/
theorem gpioSub_run (l : List (Fld × Nat × Nat)) (k a : Nat) (s : St)
    (hl : ∀ x ∈ l, x.1.r ∉ [4, 5, 6] ∧ x.2.1 < 32 ∧ x.2.2 < 2 ^ 32) (hk : ∀ i ≤ l.length, gpioAt (k + i) = a + 9 * i ∨ i = l.length)
    (hpc : s.pc = a) (hc : CodeAt prog a (instrs adr (gpioSeq k l ++ [ins ret]))) :
    Wp prog env s fun s' =>
      Ran s s' (get s.r ⟨30, 0, 2⟩)
        ((outs env (l.map fun x => (x.2.2, (get s.r x.1).testBit x.2.1)) s.t s.n).bind fun t n => ⟨[], t + 1, n⟩) [4, 5, 6] := by
  have hlen : ∀ (l : List (Fld × Nat × Nat)) (k : Nat), (instrs adr (gpioSeq k l)).length = 9 * l.length := by
    intro l
    induction l with
    | nil => intro _; rfl
    | cons x l ih =>
      intro k
      rw [gpioSeq, instrs_append, List.length_append, ih, List.length_cons,
        show (instrs adr (setGPIO k x.1 x.2.1 x.2.2)).length = 9 from rfl]
      omega
  rw [instrs_append] at hc
  obtain ⟨hc1, hc2⟩ := hc.append
  rw [hlen] at hc2
  refine (gpioSeq_run l k a s hl hk hpc hc1).trans ?_
  intro s1 h1
  obtain ⟨pc1, r1, c1, n1, t1, log1⟩ := s1
  have hpc1 : pc1 = a + 9 * l.length := h1.pc
  subst hpc1
  refine wp_ret (hc2.at 0 rfl) (.here ?_)
  refine h1.trans (f := fun t n => ⟨[], t + 1, n⟩) ⟨?_, by simp, rfl, rfl, fun _ _ => rfl⟩
  have := h1.keep 30 (by decide)
  simp only [get] at this ⊢
  rw [this]

/-! ### The division -/

/-- Cycles of one step of the division. -/
def divStepCycles (d : Nat) (s : Nat × Nat) : Nat :=
  if Idiv.reg (s.1 + s.1 + Idiv.carry (s.2 + s.2)) < d then 3 else 5

/-- Cycles of `n` steps. -/
def divCycles (d : Nat) : Nat → Nat × Nat → Nat
  | 0, _ => 0
  | n + 1, s => divStepCycles d s + divCycles d n (Idiv.divisionStep d s)

theorem divCycles_bounds (d n : Nat) : ∀ s, 3 * n ≤ divCycles d n s ∧ divCycles d n s ≤ 5 * n := by
  induction n with
  | zero => intro s; simp [divCycles]
  | succ n ih =>
    intro s
    have := ih (Idiv.divisionStep d s)
    unfold divCycles divStepCycles
    split <;> omega

theorem divisionSteps_front (d n : Nat) : ∀ s, Idiv.divisionSteps d (n + 1) s = Idiv.divisionSteps d n (Idiv.divisionStep d s) := by
  induction n with
  | zero => intro s; rfl
  | succ n ih => intro s; rw [Idiv.divisionSteps, ih, Idiv.divisionSteps]

/-- The registers of the division: remainder, dividend. -/
def divRegs (r : Nat → Nat) : Nat × Nat := (get r r3, get r r5)

/-- A part of the program was run that only computes. -/
structure Calc (s s' : St) (pc cycles : Nat) (dirty : List Nat) : Prop where
  pc : s'.pc = pc
  log : s'.log = s.log
  t : s'.t = s.t + cycles
  n : s'.n = s.n
  keep : ∀ k, k ∉ dirty → s'.r k = s.r k

theorem Calc.trans {s s1 s2 : St} {pc1 pc2 c1 c2 : Nat} {dirty : List Nat}
    (h1 : Calc s s1 pc1 c1 dirty) (h2 : Calc s1 s2 pc2 c2 dirty) : Calc s s2 pc2 (c1 + c2) dirty :=
  ⟨h2.pc, h2.log.trans h1.log, by rw [h2.t, h1.t]; omega, h2.n.trans h1.n, fun k hk => (h2.keep k hk).trans (h1.keep k hk)⟩

theorem Calc.weaken {s s' : St} {pc c : Nat} {dirty dirty' : List Nat} (h : Calc s s' pc c dirty)
    (hd : ∀ k, k ∉ dirty' → k ∉ dirty) : Calc s s' pc c dirty' :=
  ⟨h.pc, h.log, h.t, h.n, fun k hk => h.keep k (hd k hk)⟩

theorem divisionStep_run (k : Nat) (s : St) (hpc : s.pc = divAt k)
    (hc : CodeAt prog (divAt k) (instrs adr (divisionStep k r3 r5 r6))) :
    Wp prog env s fun s' => Calc s s' (divAt k + 5) (divStepCycles (get s.r r6) (divRegs s.r)) [3, 5] ∧
      divRegs s'.r = Idiv.divisionStep (get s.r r6) (divRegs s.r) := by
  obtain ⟨pc, r, c, n, t, log⟩ := s
  simp only at hpc
  subst hpc
  have h5 : get r r5 < 2 ^ 32 := by simp only [get]; exact Nat.mod_lt _ (by decide)
  have h6 : get r r6 < 2 ^ 32 := by simp only [get]; exact Nat.mod_lt _ (by decide)
  have hlow : ∀ x, get (put r r5 x) r3 = get r r3 := fun x => get_put_other _ _ _ _ (by decide)
  refine wp_add (hc.at 0 rfl) ?_
  simp only [val]
  refine wp_adc (hc.at 1 rfl) ?_
  simp only [val, hlow]
  have hcar : (get r r5 + get r r5) / 256 ^ (4 : Nat) % 2 = Idiv.carry (get r r5 + get r r5) := by
    unfold Idiv.carry
    omega
  simp only [hcar]
  set hi := get r r3 + get r r3 + Idiv.carry (get r r5 + get r r5) with hhi
  have g3 : ∀ x y, get (put (put r r5 x) r3 y) r3 = y % 2 ^ 32 := fun x y => get_put_full _ _ _
  have g6 : ∀ x y, get (put (put r r5 x) r3 y) r6 = get r r6 := fun x y => by
    rw [get_put_other _ _ _ _ (by decide), get_put_other _ _ _ _ (by decide)]
  have g5 : ∀ x y, get (put (put r r5 x) r3 y) r5 = x % 2 ^ 32 := fun x y => by
    rw [get_put_other _ _ _ _ (by decide), get_put_full]
  refine wp_qblt (hc.at 2 rfl) (decide (hi % 2 ^ 32 < get r r6)) (by simp only [val, g3, g6]) ?_
  by_cases hlt : hi % 2 ^ 32 < get r r6
  · have hlt' : Idiv.reg ((divRegs r).1 + (divRegs r).1 + Idiv.carry ((divRegs r).2 + (divRegs r).2)) < get r r6 := hlt
    simp only [hlt, decide_true, if_true]
    refine .here ⟨⟨rfl, rfl, ?_, rfl, ?_⟩, ?_⟩
    · show t + 1 + 1 + 1 = t + divStepCycles (get r r6) (divRegs r)
      unfold divStepCycles
      rw [if_pos hlt']
    · intro q hq
      show put (put r r5 _) r3 _ q = r q
      simp only [List.mem_cons, List.not_mem_nil, or_false, not_or] at hq
      rw [put_other _ _ _ _ hq.1, put_other _ _ _ _ hq.2]
    · show divRegs (put (put r r5 _) r3 _) = _
      unfold Idiv.divisionStep
      simp only
      rw [if_pos hlt']
      unfold divRegs
      rw [g3, g5]
      rfl
  · have hlt' : ¬ Idiv.reg ((divRegs r).1 + (divRegs r).1 + Idiv.carry ((divRegs r).2 + (divRegs r).2)) < get r r6 := hlt
    simp only [hlt, decide_false]
    refine wp_set (hc.at 3 rfl) ?_
    refine wp_sub (hc.at 4 rfl) fun c' => .here ⟨⟨rfl, rfl, ?_, rfl, ?_⟩, ?_⟩
    · show t + 1 + 1 + 1 + 1 + 1 = t + divStepCycles (get r r6) (divRegs r)
      unfold divStepCycles
      rw [if_neg hlt']
    · intro q hq
      show put (put (put (put r r5 _) r3 _) r5 _) r3 _ q = r q
      simp only [List.mem_cons, List.not_mem_nil, or_false, not_or] at hq
      rw [put_other _ _ _ _ hq.1, put_other _ _ _ _ hq.2, put_other _ _ _ _ hq.1, put_other _ _ _ _ hq.2]
    · have e1 : ∀ (q : Nat → Nat) x y, get (put (put q r5 x) r3 y) r3 = y % 2 ^ 32 := fun q x y => get_put_full _ _ _
      have e2 : ∀ (q : Nat → Nat) x y, get (put (put q r5 x) r3 y) r5 = x % 2 ^ 32 := fun q x y => by
        rw [get_put_other _ _ _ _ (by decide), get_put_full]
      have e3 : ∀ (q : Nat → Nat) x, get (put q r5 x) r3 = get q r3 := fun q x => get_put_other _ _ _ _ (by decide)
      have e4 : ∀ (q : Nat → Nat) x, get (put q r5 x) r6 = get q r6 := fun q x => get_put_other _ _ _ _ (by decide)
      unfold Idiv.divisionStep
      simp only
      rw [if_neg hlt']
      show divRegs (put (put (put (put r r5 _) r3 _) r5 _) r3 _) = _
      unfold divRegs
      simp only [e1, e2, e3, e4, g6, val]
      congr 1
      have : (get r r5 + get r r5) % 2 ^ 32 ||| 1 < 2 ^ 32 :=
        Nat.or_lt_two_pow (Nat.mod_lt _ (by decide)) (by decide)
      rw [show (2 : Nat) ^ (0 % 32) = 1 from rfl, Nat.mod_eq_of_lt this]
      rfl

theorem divisionSteps_run (n : Nat) : ∀ (k a : Nat) (s : St), (∀ i < n, divAt (k + i) = a + 5 * i) → s.pc = a →
    CodeAt prog a (instrs adr (divisionSteps r3 r5 r6 k n)) →
    Wp prog env s fun s' => Calc s s' (a + 5 * n) (divCycles (get s.r r6) n (divRegs s.r)) [3, 5] ∧
      divRegs s'.r = Idiv.divisionSteps (get s.r r6) n (divRegs s.r) := by
  induction n with
  | zero =>
    intro k a s _ hpc _
    exact .here ⟨⟨by simpa using hpc, rfl, rfl, rfl, fun _ _ => rfl⟩, rfl⟩
  | succ n ih =>
    intro k a s hk hpc hc
    have h0 : divAt k = a := by simpa using hk 0 (by omega)
    rw [divisionSteps, instrs_append] at hc
    obtain ⟨hc1, hc2⟩ := hc.append
    rw [show (instrs adr (divisionStep k r3 r5 r6)).length = 5 from rfl] at hc2
    refine (divisionStep_run k s (by rw [hpc, h0]) (by rw [h0]; exact hc1)).trans ?_
    rintro s1 ⟨h1, h2⟩
    have h6 : get s1.r r6 = get s.r r6 := by simp only [get, h1.keep 6 (by decide)]
    refine (ih (k + 1) (a + 5) s1 ?_ (by rw [h1.pc, h0]) hc2).mono ?_
    · intro i hi
      have := hk (i + 1) (by omega)
      rw [show k + (i + 1) = k + 1 + i by omega] at this
      omega
    · rintro s2 ⟨h3, h4⟩
      rw [h2, h6] at h3 h4
      refine ⟨?_, by rw [h4, divisionSteps_front]⟩
      have := h1.trans h3
      rw [show a + 5 + 5 * n = a + 5 * (n + 1) by omega] at this
      exact this

/-- Cycles of `idiv_macro`. -/
def idivCycles (dividend divisor : Nat) : Nat := 1 + divCycles divisor 32 (0, dividend)

/-- "97 .. 161 cycles", idiv.hp 41. -/
theorem idivCycles_bounds (a b : Nat) : 97 ≤ idivCycles a b ∧ idivCycles a b ≤ 161 := by
  have := divCycles_bounds b 32 (0, a)
  unfold idivCycles
  omega

theorem putBytes_zero_full (r : Nat → Nat) (a : Nat) (k : Nat) :
    putBytes r (Fld.byte ⟨a, 0, 4⟩) 4 (fun _ => 0) k = if k = a then 0 else r k := by
  unfold putBytes Fld.byte
  simp only
  by_cases h : k = a
  · subst h
    rw [if_neg (by omega), if_pos rfl]
    simp
  · rw [if_pos (by omega), if_neg h]

theorem idiv_run (k a : Nat) (s : St) (hk : ∀ i < 32, divAt (k + i) = a + 1 + 5 * i) (hpc : s.pc = a)
    (hc : CodeAt prog a (instrs adr (idivMacro k r5 r6 r3))) :
    Wp prog env s fun s' => Calc s s' (a + 161) (idivCycles (get s.r r5) (get s.r r6)) [3, 5] ∧
      (get s'.r r5, get s'.r r3) = Idiv.idiv (get s.r r5) (get s.r r6) := by
  obtain ⟨pc, r, c, n, t, log⟩ := s
  simp only at hpc
  subst hpc
  obtain ⟨h0, h1⟩ := CodeAt.cons (m := instrs adr (divisionSteps r3 r5 r6 k 32)) hc
  refine wp_zero h0 ?_
  have e5 : get (putBytes r (Fld.byte r3) 4 fun _ => 0) r5 = get r r5 := by
    simp only [get, putBytes_zero_full]; rfl
  have e6 : get (putBytes r (Fld.byte r3) 4 fun _ => 0) r6 = get r r6 := by
    simp only [get, putBytes_zero_full]; rfl
  have e3 : get (putBytes r (Fld.byte r3) 4 fun _ => 0) r3 = 0 := by
    simp [get, putBytes_zero_full]
  refine (divisionSteps_run 32 k (pc + 1) _ (by intro i hi; have := hk i hi; omega) rfl h1).mono ?_
  rintro s' ⟨h2, h3⟩
  simp only [divRegs, e5, e6, e3] at h2 h3
  constructor
  · refine ⟨by rw [h2.pc], h2.log, ?_, h2.n, ?_⟩
    · rw [h2.t]; simp only [idivCycles]; omega
    · intro q hq
      rw [h2.keep q hq]
      simp only [putBytes_zero_full]
      rw [if_neg]
      simp only [List.mem_cons, List.not_mem_nil, or_false, not_or] at hq
      exact hq.1
  · simp only [Prod.mk.injEq, Idiv.idiv] at h3 ⊢
    rw [← h3]
    exact ⟨rfl, rfl⟩

end BeagleG.Firmware
