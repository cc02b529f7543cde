import Verif.Firmware.Routines
import Mathlib.Tactic.NormNum
/-!
# Where the parts of the program are, and `CalculateDelay`
-/
namespace BeagleG.Firmware
open Instr Line Lbl

variable {env : Env}

/-- The parts of the firmware are at their addresses. -/
structure Located (c : Cape) (prog : List (Instr Nat)) : Prop where
  init : CodeAt prog 0 (instrs adr codeInit)
  read : CodeAt prog 5 (instrs adr codeRead)
  gen : CodeAt prog 22 (instrs adr codeStepGen)
  doGen : CodeAt prog 33 (instrs adr codeDoStepGen)
  calc1 : CodeAt prog 42 (instrs adr calculateDelay1)
  calc2 : CodeAt prog 215 (instrs adr calculateDelay2)
  calc3 : CodeAt prog 220 (instrs adr calculateDelay3)
  delay : CodeAt prog 393 (instrs adr codeDelay)
  done : CodeAt prog 401 (instrs adr codeDone)
  aux : CodeAt prog 415 (instrs adr (codeAux c))
  dir : CodeAt prog 560 (instrs adr (codeDir c))
  steps : CodeAt prog 633 (instrs adr (codeSteps c))
  estop : CodeAt prog 706 (instrs adr (codeEstop c))

theorem len_init : (instrs adr codeInit).length = 5 := rfl
theorem len_read : (instrs adr codeRead).length = 17 := rfl
theorem len_gen : (instrs adr codeStepGen).length = 11 := rfl
theorem len_doGen : (instrs adr codeDoStepGen).length = 9 := rfl
theorem len_calc1 : (instrs adr calculateDelay1).length = 173 := by decide +kernel
theorem len_calc2 : (instrs adr calculateDelay2).length = 5 := rfl
theorem len_calc3 : (instrs adr calculateDelay3).length = 173 := by decide +kernel
theorem len_delay : (instrs adr codeDelay).length = 8 := rfl
theorem len_done : (instrs adr codeDone).length = 14 := rfl
theorem len_gpio (k : Nat) (f : Fld) (b p : Nat) : (instrs adr (setGPIO k f b p)).length = 9 := rfl
theorem len_cons_lab (l : Lbl) (ls : List Line) : instrs adr (lab l :: ls) = instrs adr ls := rfl
theorem len_ret : (instrs adr [ins ret]).length = 1 := rfl
theorem len_aux (c : Cape) : (instrs adr (codeAux c)).length = 145 := by
  unfold codeAux
  simp only [len_cons_lab, List.cons_append, instrs_append, List.length_append, len_gpio, len_ret]
theorem len_dir (c : Cape) : (instrs adr (codeDir c)).length = 73 := by
  unfold codeDir
  simp only [len_cons_lab, List.cons_append, instrs_append, List.length_append, len_gpio, len_ret]
theorem len_steps (c : Cape) : (instrs adr (codeSteps c)).length = 73 := by
  unfold codeSteps
  simp only [len_cons_lab, List.cons_append, instrs_append, List.length_append, len_gpio, len_ret]

theorem located (c : Cape) : Located c (firmware c) := by
  have h : CodeAt (firmware c) 0 (instrs adr (source c)) := ⟨[], [], by simp [firmware_eq], rfl⟩
  unfold source at h
  simp only [instrs_append, List.append_assoc] at h
  obtain ⟨h1, h⟩ := h.append
  obtain ⟨h2, h⟩ := h.append
  obtain ⟨h3, h⟩ := h.append
  obtain ⟨h4, h⟩ := h.append
  obtain ⟨h5, h⟩ := h.append
  obtain ⟨h6, h⟩ := h.append
  obtain ⟨h7, h⟩ := h.append
  obtain ⟨h8, h⟩ := h.append
  obtain ⟨h9, h⟩ := h.append
  obtain ⟨h10, h⟩ := h.append
  obtain ⟨h11, h⟩ := h.append
  obtain ⟨h12, h13⟩ := h.append
  rw [len_init] at h2 h3 h4 h5 h6 h7 h8 h9 h10 h11 h12 h13
  rw [len_read] at h3 h4 h5 h6 h7 h8 h9 h10 h11 h12 h13
  rw [len_gen] at h4 h5 h6 h7 h8 h9 h10 h11 h12 h13
  rw [len_doGen] at h5 h6 h7 h8 h9 h10 h11 h12 h13
  rw [len_calc1] at h6 h7 h8 h9 h10 h11 h12 h13
  rw [len_calc2] at h7 h8 h9 h10 h11 h12 h13
  rw [len_calc3] at h8 h9 h10 h11 h12 h13
  rw [len_delay] at h9 h10 h11 h12 h13
  rw [len_done] at h10 h11 h12 h13
  rw [len_aux] at h11 h12 h13
  rw [len_dir] at h12 h13
  rw [len_steps] at h13
  exact ⟨h1, h2, h3, h4, h5, h6, h7, h8, h9, h10, h11, h12, h13⟩

/-! ### `CalculateDelay` -/

/-- The registers hold the parameters of the step generation. -/
structure Match (r : Nat → Nat) (g : StepGen.Regs) : Prop where
  la : get r pLoopsAccel = g.loopsAccel
  lt : get r pLoopsTravel = g.loopsTravel
  ld : get r pLoopsDecel = g.loopsDecel
  idx : get r pIndex = g.index
  cyc : get r pCycles = g.cycles
  del : get r pTravelDelay = g.travelDelay
  rem : get r r3 = g.remainder

/-- Cycles of `CalculateDelay`. -/
def calcCycles (g : StepGen.Regs) : Nat :=
  if g.loopsAccel ≠ 0 then
    if g.index = 0 then 7
    else 12 + idivCycles (Idiv.reg (Idiv.reg (g.cycles * 2) + g.remainder)) (Idiv.reg (Idiv.reg (g.index * 4) + 1))
  else if g.loopsTravel ≠ 0 then 6
  else if g.loopsDecel ≠ 0 then
    12 + idivCycles (Idiv.reg (Idiv.reg (g.cycles * 2) + g.remainder)) (StepGen.sub32 (Idiv.reg (g.index * 4)) 1)
  else 5

theorem get_put_low (r : Nat → Nat) (a v : Nat) : get (put r ⟨a, 0, 2⟩ v) ⟨a, 0, 2⟩ = v % 2 ^ 16 := by
  simp only [get, put, if_true]
  simp
  omega

theorem get_put_low_high (r : Nat → Nat) (a v : Nat) : get (put r ⟨a, 0, 2⟩ v) ⟨a, 2, 2⟩ = get r ⟨a, 2, 2⟩ := by
  simp only [get, put, if_true]
  simp
  omega

theorem get_put_high_low (r : Nat → Nat) (a v : Nat) : get (put r ⟨a, 2, 2⟩ v) ⟨a, 0, 2⟩ = get r ⟨a, 0, 2⟩ := by
  simp only [get, put, if_true]
  simp
  omega

theorem get_put_high_high (r : Nat → Nat) (a v : Nat) : get (put r ⟨a, 2, 2⟩ v) ⟨a, 2, 2⟩ = v % 2 ^ 16 := by
  simp only [get, put, if_true]
  simp
  omega

theorem get_lt (r : Nat → Nat) (a : Nat) : get r ⟨a, 0, 4⟩ < 2 ^ 32 := Nat.mod_lt _ (Nat.pow_pos (by decide))

theorem get_lt2 (r : Nat → Nat) (a b : Nat) : get r ⟨a, b, 2⟩ < 2 ^ 16 := Nat.mod_lt _ (Nat.pow_pos (by decide))

/-- What `CalculateDelay` may change. -/
def calcDirty : List Nat := [1, 3, 5, 6, 7, 8, 9, 10]

variable {c : Cape} {prog : List (Instr Nat)}

theorem get_put_ne (r : Nat → Nat) (a b l a' b' l' v : Nat) (h : a' ≠ a) :
    get (put r ⟨a, b, l⟩ v) ⟨a', b', l'⟩ = get r ⟨a', b', l'⟩ := get_put_other _ _ _ _ h

theorem put_ne (r : Nat → Nat) (a b l v k : Nat) (h : k ≠ a) : put r ⟨a, b, l⟩ v k = r k := put_other _ _ _ _ h

/-- A 16 bit counter counts down. -/
theorem dec16 {x : Nat} (h0 : x ≠ 0) (h : x < 2 ^ 16) : (x + (2 ^ 32 - 1)) % 2 ^ 16 = x - 1 := by omega

/-- The end of the acceleration part. -/
theorem accel_end (hl : Located c prog) (s : St) (g : StepGen.Regs) (hm : Match s.r g) (hpc : s.pc = 210) (hla : g.loopsAccel ≠ 0) :
    Wp prog env s fun s' => Calc s s' 393 5 calcDirty ∧
      Match s'.r { g with index := Idiv.reg (g.index + 1), loopsAccel := g.loopsAccel - 1 } ∧
      get s'.r r1 = StepGen.sub32 (g.cycles >>> 5) 69 := by
  obtain ⟨pc, r, cc, n, t, log⟩ := s
  simp only at hpc hm
  subst hpc
  have hc := hl.calc1
  unfold calculateDelay1 at hc
  rw [instrs_append] at hc
  have hc := hc.append.2
  rw [show (instrs adr ([ lab PHASE_1_ACCELERATION, ins (qbeq PHASE_2_TRAVEL pLoopsAccel (.imm 0)), ins (qbeq accel_calc_done pIndex (.imm 0)),
    ins (lsl r5 pCycles (.imm 1)), ins (add r5 r5 (.fld r3)), ins (lsl r6 pIndex (.imm 2)), ins (add r6 r6 (.imm 1)) ] ++
    idivMacro 0 r5 r6 r3)).length = 167 by decide +kernel] at hc
  refine wp_add (hc.at 1 rfl) ?_
  refine wp_sub (hc.at 2 rfl) fun _ => ?_
  refine wp_lsr (hc.at 3 rfl) ?_
  refine wp_sub (hc.at 4 rfl) fun _ => ?_
  refine wp_jmp (hc.at 5 rfl) (.here ?_)
  obtain ⟨h1, h2, h3, h4, h5, h6, h7⟩ := hm
  simp only [pLoopsAccel, pLoopsTravel, pLoopsDecel, pIndex, pCycles, pTravelDelay, r3] at h1 h2 h3 h4 h5 h6 h7
  have hb := get_lt2 r 7 0
  refine ⟨⟨rfl, rfl, rfl, rfl, ?_⟩, ?_, ?_⟩
  · intro k hk
    simp only [calcDirty, List.mem_cons, List.not_mem_nil, or_false, not_or] at hk
    simp only [pLoopsAccel, pIndex, r1]
    rw [put_ne _ _ _ _ _ _ (by omega), put_ne _ _ _ _ _ _ (by omega), put_ne _ _ _ _ _ _ (by omega), put_ne _ _ _ _ _ _ (by omega)]
  · constructor <;> simp [pLoopsAccel, pLoopsTravel, pLoopsDecel, pIndex, pCycles, pTravelDelay, r1, r3, val, get_put_ne,
      get_put_low, get_put_low_high, get_put_full, *, Idiv.reg] 
    all_goals omega
  · simp [pLoopsAccel, pIndex, pCycles, r1, val, get_put_ne, get_put_full, *, StepGen.sub32, Idiv.reg, Nat.shiftRight_eq_div_pow, accelCompensation]

/-- The registers outside the parameters do not matter. -/
theorem Match.keep {r r' : Nat → Nat} {g : StepGen.Regs} (h : Match r g) (hk : ∀ k ∈ [3, 7, 8, 9, 10, 11], r' k = r k) : Match r' g := by
  obtain ⟨h1, h2, h3, h4, h5, h6, h7⟩ := h
  have e7 := hk 7 (by decide)
  have e8 := hk 8 (by decide)
  have e9 := hk 9 (by decide)
  have e10 := hk 10 (by decide)
  have e11 := hk 11 (by decide)
  have e3 := hk 3 (by decide)
  refine ⟨?_, ?_, ?_, ?_, ?_, ?_, ?_⟩
  · rw [← h1]; simp only [get, e7]
  · rw [← h2]; simp only [get, e7]
  · rw [← h3]; simp only [get, e8]
  · rw [← h4]; simp only [get, e9]
  · rw [← h5]; simp only [get, e10]
  · rw [← h6]; simp only [get, e11]
  · rw [← h7]; simp only [get, e3]

/-- The division of the acceleration. -/
theorem accel_div (hl : Located c prog) (s : St) (g : StepGen.Regs) (hm : Match s.r g) (hpc : s.pc = 44) :
    Wp prog env s fun s' => Calc s s' 210
        (5 + idivCycles (Idiv.reg (Idiv.reg (g.cycles * 2) + g.remainder)) (Idiv.reg (Idiv.reg (g.index * 4) + 1))) calcDirty ∧
      Match s'.r { g with
        cycles := StepGen.sub32 g.cycles
          (Idiv.idiv (Idiv.reg (Idiv.reg (g.cycles * 2) + g.remainder)) (Idiv.reg (Idiv.reg (g.index * 4) + 1))).1
        remainder := (Idiv.idiv (Idiv.reg (Idiv.reg (g.cycles * 2) + g.remainder)) (Idiv.reg (Idiv.reg (g.index * 4) + 1))).2 } := by
  obtain ⟨pc, r, cc, n, t, log⟩ := s
  simp only at hpc hm
  subst hpc
  have hc := hl.calc1
  unfold calculateDelay1 at hc
  rw [instrs_append] at hc
  obtain ⟨hcA, hcE⟩ := hc.append
  rw [instrs_append] at hcA
  obtain ⟨hcA, hcD⟩ := hcA.append
  rw [show (instrs adr ([ lab PHASE_1_ACCELERATION, ins (qbeq PHASE_2_TRAVEL pLoopsAccel (.imm 0)), ins (qbeq accel_calc_done pIndex (.imm 0)),
    ins (lsl r5 pCycles (.imm 1)), ins (add r5 r5 (.fld r3)), ins (lsl r6 pIndex (.imm 2)), ins (add r6 r6 (.imm 1)) ] ++
    idivMacro 0 r5 r6 r3)).length = 167 by decide +kernel] at hcE
  rw [show (instrs adr [ lab PHASE_1_ACCELERATION, ins (qbeq PHASE_2_TRAVEL pLoopsAccel (.imm 0)), ins (qbeq accel_calc_done pIndex (.imm 0)),
    ins (lsl r5 pCycles (.imm 1)), ins (add r5 r5 (.fld r3)), ins (lsl r6 pIndex (.imm 2)), ins (add r6 r6 (.imm 1)) ]).length = 6 from rfl] at hcD
  refine wp_lsl (hcA.at 2 rfl) ?_
  refine wp_add (hcA.at 3 rfl) ?_
  refine wp_lsl (hcA.at 4 rfl) ?_
  refine wp_add (hcA.at 5 rfl) ?_
  refine (idiv_run 0 48 _ (by decide) rfl hcD).trans ?_
  rintro ⟨pc1, q, c1, n1, t1, log1⟩ ⟨h1, h2⟩
  have hpc1 : pc1 = 209 := h1.pc
  subst hpc1
  refine wp_sub (hcE.at 0 rfl) fun _ => .here ?_
  obtain ⟨m1, m2, m3, m4, m5, m6, m7⟩ := hm
  simp only [pLoopsAccel, pLoopsTravel, pLoopsDecel, pIndex, pCycles, pTravelDelay, r3] at m1 m2 m3 m4 m5 m6 m7
  simp only [pIndex, pCycles, r3, r5, r6, val, get_put_ne, get_put_full, ne_eq, Nat.reduceEqDiff, not_false_eq_true, m4, m5, m7] at h1 h2
  have hk := h1.keep
  simp only [List.mem_cons, List.not_mem_nil, or_false, not_or] at hk
  have k7 := hk 7 (by decide)
  have k8 := hk 8 (by decide)
  have k9 := hk 9 (by decide)
  have k10 := hk 10 (by decide)
  have k11 := hk 11 (by decide)
  simp only [put_ne, ne_eq, Nat.reduceEqDiff, not_false_eq_true] at k7 k8 k9 k10 k11
  have g7 : ∀ b l, get q ⟨7, b, l⟩ = get r ⟨7, b, l⟩ := fun b l => by simp only [get, k7]
  have g8 : ∀ b l, get q ⟨8, b, l⟩ = get r ⟨8, b, l⟩ := fun b l => by simp only [get, k8]
  have g9 : ∀ b l, get q ⟨9, b, l⟩ = get r ⟨9, b, l⟩ := fun b l => by simp only [get, k9]
  have g10 : ∀ b l, get q ⟨10, b, l⟩ = get r ⟨10, b, l⟩ := fun b l => by simp only [get, k10]
  have g11 : ∀ b l, get q ⟨11, b, l⟩ = get r ⟨11, b, l⟩ := fun b l => by simp only [get, k11]
  refine ⟨⟨rfl, h1.log, ?_, h1.n, ?_⟩, ?_⟩
  · have := h1.t
    simp only [Idiv.reg] at this ⊢
    norm_num at this ⊢
    omega
  · intro k hk'
    simp only [calcDirty, List.mem_cons, List.not_mem_nil, or_false, not_or] at hk'
    show put q ⟨10, 0, 4⟩ _ k = r k
    rw [put_ne _ _ _ _ _ _ (by omega), hk k (by omega), put_ne _ _ _ _ _ _ (by omega), put_ne _ _ _ _ _ _ (by omega),
      put_ne _ _ _ _ _ _ (by omega), put_ne _ _ _ _ _ _ (by omega)]
  · have e5 := congrArg Prod.fst h2
    have e3 := congrArg Prod.snd h2
    simp only at e5 e3
    constructor <;> simp only [pLoopsAccel, pLoopsTravel, pLoopsDecel, pIndex, pCycles, pTravelDelay, r3, r5, val, get_put_ne,
      get_put_full, ne_eq, Nat.reduceEqDiff, not_false_eq_true, g7, g8, g9, g10, g11, m1, m2, m3, m4, m5, m6, e3, e5, StepGen.sub32, Idiv.reg]

theorem divisor_eq (x : Nat) : ((x * 2 ^ (2 % 32) % 2 ^ 32 + (2 ^ 32 - 1)) % 2 ^ 32) = StepGen.sub32 (Idiv.reg (x * 4)) 1 := rfl

attribute [local irreducible] StepGen.sub32

/-- The deceleration part. -/
theorem decel_run (hl : Located c prog) (s : St) (g : StepGen.Regs) (hm : Match s.r g) (hpc : s.pc = 223) (hld : g.loopsDecel ≠ 0)
    (q0 rem0 : Nat) (hq0 : Idiv.idiv (Idiv.reg (Idiv.reg (g.cycles * 2) + g.remainder)) (StepGen.sub32 (Idiv.reg (g.index * 4)) 1) = (q0, rem0)) :
    Wp prog env s fun s' => Calc s s' 393
        (9 + idivCycles (Idiv.reg (Idiv.reg (g.cycles * 2) + g.remainder)) (StepGen.sub32 (Idiv.reg (g.index * 4)) 1)) calcDirty ∧
      Match s'.r ⟨g.loopsAccel, g.loopsTravel, g.loopsDecel - 1, StepGen.sub32 g.index 1, Idiv.reg (g.cycles + q0), g.travelDelay, rem0⟩ ∧
      get s'.r r1 = StepGen.sub32 (Idiv.reg (g.cycles + q0) >>> 5) 70 := by
  obtain ⟨pc, r, cc, n, t, log⟩ := s
  simp only at hpc hm
  subst hpc
  have hc := hl.calc3
  unfold calculateDelay3 at hc
  rw [instrs_append] at hc
  obtain ⟨hcA, hcE⟩ := hc.append
  rw [instrs_append] at hcA
  obtain ⟨hcA, hcD⟩ := hcA.append
  rw [show (instrs adr ([ lab PHASE_3_DECELERATION, ins (qbne calc_decel pLoopsDecel (.imm 0)), ins (zero r1 4), ins (jmp DONE_CALCULATE_DELAY),
    lab calc_decel, ins (lsl r5 pCycles (.imm 1)), ins (add r5 r5 (.fld r3)), ins (lsl r6 pIndex (.imm 2)), ins (sub r6 r6 (.imm 1)) ] ++
    idivMacro 32 r5 r6 r3)).length = 168 by decide +kernel] at hcE
  rw [show (instrs adr [ lab PHASE_3_DECELERATION, ins (qbne calc_decel pLoopsDecel (.imm 0)), ins (zero r1 4), ins (jmp DONE_CALCULATE_DELAY),
    lab calc_decel, ins (lsl r5 pCycles (.imm 1)), ins (add r5 r5 (.fld r3)), ins (lsl r6 pIndex (.imm 2)), ins (sub r6 r6 (.imm 1)) ]).length = 7
    from rfl] at hcD
  refine wp_lsl (hcA.at 3 rfl) ?_
  refine wp_add (hcA.at 4 rfl) ?_
  refine wp_lsl (hcA.at 5 rfl) ?_
  refine wp_sub (hcA.at 6 rfl) fun _ => ?_
  refine (idiv_run 32 227 _ (by decide) rfl hcD).trans ?_
  rintro ⟨pc1, q, c1, n1, t1, log1⟩ ⟨h1, h2⟩
  have hpc1 : pc1 = 388 := h1.pc
  subst hpc1
  refine wp_add (hcE.at 0 rfl) ?_
  refine wp_sub (hcE.at 1 rfl) fun _ => ?_
  refine wp_sub (hcE.at 2 rfl) fun _ => ?_
  refine wp_lsr (hcE.at 3 rfl) ?_
  refine wp_sub (hcE.at 4 rfl) fun _ => .here ?_
  obtain ⟨m1, m2, m3, m4, m5, m6, m7⟩ := hm
  simp only [pLoopsAccel, pLoopsTravel, pLoopsDecel, pIndex, pCycles, pTravelDelay, r3] at m1 m2 m3 m4 m5 m6 m7
  simp only [pIndex, pCycles, r3, r5, r6, val, get_put_ne, get_put_full, ne_eq, Nat.reduceEqDiff, not_false_eq_true, m4, m5, m7] at h1 h2
  have hk := h1.keep
  simp only [List.mem_cons, List.not_mem_nil, or_false, not_or] at hk
  have k7 := hk 7 (by decide)
  have k8 := hk 8 (by decide)
  have k9 := hk 9 (by decide)
  have k10 := hk 10 (by decide)
  have k11 := hk 11 (by decide)
  simp only [put_ne, ne_eq, Nat.reduceEqDiff, not_false_eq_true] at k7 k8 k9 k10 k11
  have g7 : ∀ b l, get q ⟨7, b, l⟩ = get r ⟨7, b, l⟩ := fun b l => by simp only [get, k7]
  have g8 : ∀ b l, get q ⟨8, b, l⟩ = get r ⟨8, b, l⟩ := fun b l => by simp only [get, k8]
  have g9 : ∀ b l, get q ⟨9, b, l⟩ = get r ⟨9, b, l⟩ := fun b l => by simp only [get, k9]
  have g10 : ∀ b l, get q ⟨10, b, l⟩ = get r ⟨10, b, l⟩ := fun b l => by simp only [get, k10]
  have g11 : ∀ b l, get q ⟨11, b, l⟩ = get r ⟨11, b, l⟩ := fun b l => by simp only [get, k11]
  have harg : ((g.cycles * 2 ^ (1 % 32) % 2 ^ 32 + g.remainder) % 2 ^ 32) = Idiv.reg (Idiv.reg (g.cycles * 2) + g.remainder) := rfl
  rw [harg, divisor_eq] at h1 h2
  rw [hq0] at h2
  obtain ⟨e5, e3⟩ := Prod.mk.inj h2
  have hb := get_lt2 r 8 0
  rw [m3] at hb
  refine ⟨⟨rfl, h1.log, ?_, h1.n, ?_⟩, ?_, ?_⟩
  · have := h1.t
    simp only at this ⊢
    omega
  · intro k hk'
    simp only [calcDirty, List.mem_cons, List.not_mem_nil, or_false, not_or] at hk'
    simp only [pLoopsDecel, pIndex, pCycles, r1]
    rw [put_ne _ _ _ _ _ _ (by omega), put_ne _ _ _ _ _ _ (by omega), put_ne _ _ _ _ _ _ (by omega), put_ne _ _ _ _ _ _ (by omega),
      put_ne _ _ _ _ _ _ (by omega), hk k (by omega)]
    rw [put_ne _ _ _ _ _ _ (by omega), put_ne _ _ _ _ _ _ (by omega),
      put_ne _ _ _ _ _ _ (by omega), put_ne _ _ _ _ _ _ (by omega)]
  · refine ⟨?_, ?_, ?_, ?_, ?_, ?_, ?_⟩
    case refine_7 =>
      refine (get_put_ne _ 1 0 4 3 0 4 _ (by decide)).trans ((get_put_ne _ 1 0 4 3 0 4 _ (by decide)).trans ?_)
      refine (get_put_ne _ 8 0 2 3 0 4 _ (by decide)).trans ((get_put_ne _ 9 0 4 3 0 4 _ (by decide)).trans ?_)
      exact (get_put_ne _ 10 0 4 3 0 4 _ (by decide)).trans e3
    all_goals simp only [pLoopsAccel, pLoopsTravel, pLoopsDecel, pIndex, pCycles, pTravelDelay, r1, r5, val, get_put_ne,
      get_put_full, get_put_low, ne_eq, Nat.reduceEqDiff, not_false_eq_true, g7, g8, g9, g10, g11, m1, m2, m3, m4, m5, m6,
      e5, StepGen.sub32, Idiv.reg, dec16 hld hb]
  · simp only [pLoopsDecel, pIndex, pCycles, r1, r5, val, get_put_ne, g9, g10, m4, m5, e5,
      get_put_full, ne_eq, Nat.reduceEqDiff, not_false_eq_true, StepGen.sub32, Idiv.reg, decelCompensation,
      Nat.shiftRight_eq_div_pow]
    norm_num

theorem calculateDelay_decel (g : StepGen.Regs) (h1 : g.loopsAccel = 0) (h2 : g.loopsTravel = 0) (h3 : g.loopsDecel ≠ 0)
    (q0 rem0 : Nat) (hq0 : Idiv.idiv (Idiv.reg (Idiv.reg (g.cycles * 2) + g.remainder)) (StepGen.sub32 (Idiv.reg (g.index * 4)) 1) = (q0, rem0)) :
    StepGen.calculateDelay g = (⟨g.loopsAccel, g.loopsTravel, g.loopsDecel - 1, StepGen.sub32 g.index 1, Idiv.reg (g.cycles + q0),
      g.travelDelay, rem0⟩, StepGen.sub32 (Idiv.reg (g.cycles + q0) >>> 5) 70) := by
  have hd : StepGen.decelUpdate g = ⟨g.loopsAccel, g.loopsTravel, g.loopsDecel, g.index, Idiv.reg (g.cycles + q0), g.travelDelay, rem0⟩ := by
    unfold StepGen.decelUpdate
    extract_lets dividend divisor qr
    have hqr : qr = (q0, rem0) := hq0
    rw [hqr]
  unfold StepGen.calculateDelay
  rw [if_neg (by simp [h1]), if_neg (by simp [h2]), if_pos h3, hd]
  rfl

/-- `CalculateDelay`: the instructions compute what the model of the step generation says, in `calcCycles` cycles. -/
theorem calculateDelay_run (hl : Located c prog) (s : St) (g : StepGen.Regs) (hm : Match s.r g) (hpc : s.pc = 42) :
    Wp prog env s fun s' => Calc s s' 393 (calcCycles g) calcDirty ∧ Match s'.r (StepGen.calculateDelay g).1 ∧
      get s'.r r1 = (StepGen.calculateDelay g).2 := by
  obtain ⟨pc, r, cc, n, t, log⟩ := s
  simp only at hpc hm
  subst hpc
  have hm' := hm
  obtain ⟨m1, m2, m3, m4, m5, m6, m7⟩ := hm'
  by_cases hla : g.loopsAccel = 0
  · refine wp_qbeq (hl.calc1.at 0 rfl) true (by simp [val, m1, hla]) ?_
    by_cases hlt : g.loopsTravel = 0
    · refine wp_qbeq (hl.calc2.at 0 rfl) true (by simp [val, m2, hlt]) ?_
      by_cases hld : g.loopsDecel = 0
      · refine wp_qbne (hl.calc3.at 0 rfl) false (by simp [val, m3, hld]) ?_
        refine wp_zero (hl.calc3.at 1 rfl) ?_
        refine wp_jmp (hl.calc3.at 2 rfl) (.here ?_)
        have hk : ∀ k, k ≠ 1 → putBytes r (Fld.byte r1) 4 (fun _ => 0) k = r k := fun k hk => by
          unfold r1; rw [putBytes_zero_full, if_neg hk]
        refine ⟨⟨rfl, rfl, ?_, rfl, ?_⟩, ?_, ?_⟩
        · simp [calcCycles, hla, hlt, hld]
        · intro k hk'
          simp only [calcDirty, List.mem_cons, List.not_mem_nil, or_false, not_or] at hk'
          exact hk k hk'.1
        · simp only [StepGen.calculateDelay, hla, hlt, hld, ne_eq, not_true, if_false]
          exact hm.keep fun k hk' => hk k (by rintro rfl; simp at hk')
        · simp only [StepGen.calculateDelay, hla, hlt, hld, ne_eq, not_true, if_false]
          simp [r1, get, putBytes_zero_full]
      · refine wp_qbne (hl.calc3.at 0 rfl) true (by simp [val, m3, hld]) ?_
        obtain ⟨⟨q0, rem0⟩, hq0⟩ : ∃ x, Idiv.idiv (Idiv.reg (Idiv.reg (g.cycles * 2) + g.remainder))
          (StepGen.sub32 (Idiv.reg (g.index * 4)) 1) = x := ⟨_, rfl⟩
        refine (decel_run hl _ g hm rfl hld q0 rem0 hq0).mono ?_
        rintro s' ⟨h1, h2, h3⟩
        refine ⟨⟨h1.pc, h1.log, ?_, h1.n, h1.keep⟩, ?_, ?_⟩
        · rw [h1.t]
          simp [calcCycles, hla, hlt, hld]
          omega
        · rw [calculateDelay_decel g hla hlt hld q0 rem0 hq0]
          exact h2
        · rw [calculateDelay_decel g hla hlt hld q0 rem0 hq0]
          exact h3
    · refine wp_qbeq (hl.calc2.at 0 rfl) false (by simp [val, m2, hlt]) ?_
      refine wp_sub (hl.calc2.at 1 rfl) fun _ => ?_
      refine wp_mov (hl.calc2.at 2 rfl) ?_
      refine wp_sub (hl.calc2.at 3 rfl) fun _ => ?_
      refine wp_jmp (hl.calc2.at 4 rfl) (.here ?_)
      have hb := get_lt2 r 7 2
      simp only [pLoopsAccel, pLoopsTravel, pLoopsDecel, pIndex, pCycles, pTravelDelay, r3] at m1 m2 m3 m4 m5 m6 m7
      have hb2 := get_lt r 11
      rw [m2] at hb
      rw [m6] at hb2
      refine ⟨⟨rfl, rfl, ?_, rfl, ?_⟩, ?_, ?_⟩
      · simp [calcCycles, hla, hlt]
      · intro k hk
        simp only [calcDirty, List.mem_cons, List.not_mem_nil, or_false, not_or] at hk
        simp only [pLoopsTravel, r1]
        rw [put_ne _ _ _ _ _ _ (by omega), put_ne _ _ _ _ _ _ (by omega), put_ne _ _ _ _ _ _ (by omega)]
      · simp only [StepGen.calculateDelay, hla, hlt, ne_eq, not_true, if_false, not_false_eq_true, if_true]
        have e : ∀ (f : Fld) v w, f.r ≠ 1 → get (put (put (put r pLoopsTravel v) r1 w) r1 (get (put (put r pLoopsTravel v) r1 w) r1 +
            (2 ^ 32 - val (put (put r pLoopsTravel v) r1 w) (.imm (4 / 2))))) f = get (put r pLoopsTravel v) f := fun f v w hf => by
          rw [get_put_other _ _ _ _ hf, get_put_other _ _ _ _ hf]
        refine ⟨?_, ?_, ?_, ?_, ?_, ?_, ?_⟩
        · rw [e _ _ _ (by decide)]; exact (get_put_high_low _ _ _).trans (m1.trans hla)
        · rw [e _ _ _ (by decide)]; refine (get_put_high_high _ _ _).trans ?_
          show (get r ⟨7, 2, 2⟩ + (2 ^ 32 - 1)) % 2 ^ 16 = g.loopsTravel - 1
          rw [m2, dec16 hlt hb]
        · rw [e _ _ _ (by decide)]; exact (get_put_ne _ _ _ _ _ _ _ _ (by decide)).trans m3
        · rw [e _ _ _ (by decide)]; exact (get_put_ne _ _ _ _ _ _ _ _ (by decide)).trans m4
        · rw [e _ _ _ (by decide)]; exact (get_put_ne _ _ _ _ _ _ _ _ (by decide)).trans m5
        · rw [e _ _ _ (by decide)]; exact (get_put_ne _ _ _ _ _ _ _ _ (by decide)).trans m6
        · rw [e _ _ _ (by decide)]; exact (get_put_ne _ _ _ _ _ _ _ _ (by decide)).trans m7
      · simp only [StepGen.calculateDelay, hla, hlt, ne_eq, not_true, if_false, not_false_eq_true, if_true]
        simp only [pLoopsTravel, pTravelDelay, r1, val, get_put_ne, get_put_full, ne_eq, Nat.reduceEqDiff, not_false_eq_true, m6,
          StepGen.sub32, Idiv.reg]
        omega
  · refine wp_qbeq (hl.calc1.at 0 rfl) false (by simp [val, m1, hla]) ?_
    by_cases hidx : g.index = 0
    · refine wp_qbeq (hl.calc1.at 1 rfl) true (by simp [val, m4, hidx]) ?_
      refine (accel_end hl _ g hm rfl hla).mono ?_
      rintro s' ⟨h1, h2, h3⟩
      refine ⟨⟨h1.pc, h1.log, ?_, h1.n, h1.keep⟩, ?_, ?_⟩
      · rw [h1.t]
        simp [calcCycles, hla, hidx]
      · simp only [StepGen.calculateDelay, StepGen.accelUpdate, StepGen.delayCycleShift, hla, hidx, ne_eq, not_false_eq_true, if_true]
        rw [hidx] at h2
        exact h2
      · simp only [StepGen.calculateDelay, StepGen.accelUpdate, StepGen.delayCycleShift, hla, hidx, ne_eq, not_false_eq_true, if_true]
        exact h3
    · refine wp_qbeq (hl.calc1.at 1 rfl) false (by simp [val, m4, hidx]) ?_
      refine (accel_div hl _ g hm rfl).trans ?_
      rintro s1 ⟨h1, h2⟩
      refine (accel_end hl s1 _ h2 h1.pc hla).mono ?_
      rintro s' ⟨h3, h4, h5⟩
      have h6 := h1.trans h3
      refine ⟨⟨h6.pc, h6.log, ?_, h6.n, h6.keep⟩, ?_, ?_⟩
      · rw [h6.t]
        simp [calcCycles, hla, hidx]
        omega
      · simp only [StepGen.calculateDelay, StepGen.accelUpdate, StepGen.delayCycleShift, hla, hidx, ne_eq, not_false_eq_true, if_true, if_false]
        exact h4
      · simp only [StepGen.calculateDelay, StepGen.accelUpdate, StepGen.delayCycleShift, hla, hidx, ne_eq, not_false_eq_true, if_true, if_false]
        exact h5

end BeagleG.Firmware
