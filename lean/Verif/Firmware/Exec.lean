import Verif.Firmware.Assemble
import Verif.Idiv.Props
import Mathlib.Tactic.ByContra
/-!
# Rules for running the firmware
-/
namespace BeagleG.Firmware
open Instr Line Lbl

variable {prog : List (Instr Nat)} {env : Env}

theorem Star.trans {a b c : St} (h : Star prog env a b) (h2 : Star prog env b c) : Star prog env a c := by
  induction h with
  | refl => exact h2
  | step h _ ih => exact .step h (ih h2)

/-- The program reaches a state with a property. -/
def Wp (prog : List (Instr Nat)) (env : Env) (s : St) (P : St → Prop) : Prop := ∃ s', Star prog env s s' ∧ P s'

theorem Wp.here {s : St} {P : St → Prop} (h : P s) : Wp prog env s P := ⟨s, .refl s, h⟩

theorem Wp.step {s s1 : St} {i : Instr Nat} {P : St → Prop} (hi : prog[s.pc]? = some i) (he : exec env s i = some s1)
    (h : Wp prog env s1 P) : Wp prog env s P := by
  obtain ⟨s', h1, h2⟩ := h
  exact ⟨s', .step (by rw [Firmware.step, hi]; exact he) h1, h2⟩

theorem Wp.trans {s : St} {P Q : St → Prop} (h : Wp prog env s P) (h2 : ∀ s', P s' → Wp prog env s' Q) :
    Wp prog env s Q := by
  obtain ⟨s', h1, hp⟩ := h
  obtain ⟨s2, h3, hq⟩ := h2 s' hp
  exact ⟨s2, h1.trans h3, hq⟩

theorem Wp.mono {s : St} {P Q : St → Prop} (h : Wp prog env s P) (h2 : ∀ s', P s' → Q s') : Wp prog env s Q :=
  h.trans fun s' hp => .here (h2 s' hp)

/-! ### Registers -/

theorem get_put_other (r : Nat → Nat) (f g : Fld) (v : Nat) (h : g.r ≠ f.r) : get (put r f v) g = get r g := by
  simp [get, put, h]

theorem put_other (r : Nat → Nat) (f : Fld) (v k : Nat) (h : k ≠ f.r) : put r f v k = r k := by simp [put, h]

theorem put_full (r : Nat → Nat) (a v : Nat) : put r ⟨a, 0, 4⟩ v a = v % 2 ^ 32 := by simp [put]

theorem get_put_full (r : Nat → Nat) (a v : Nat) : get (put r ⟨a, 0, 4⟩ v) ⟨a, 0, 4⟩ = v % 2 ^ 32 := by
  simp [get, put]

theorem get_full (r : Nat → Nat) (a : Nat) : get r ⟨a, 0, 4⟩ = r a % 2 ^ 32 := by simp [get]

/-- The upper half of a register. -/
theorem get_put_high (r : Nat → Nat) (a v : Nat) : get (put r ⟨a, 0, 4⟩ v) ⟨a, 2, 2⟩ = v / 2 ^ 16 % 2 ^ 16 := by
  simp only [get, put, if_true]
  omega

/-- The bytes of a value, lowest first. -/
def bytesOf (n v : Nat) : List Nat := (List.range n).map fun j => v / 256 ^ j % 256

/-- What is stored from a register. -/
theorem byteOf_reg (r : Nat → Nat) (a k : Nat) (hk : k ≤ 4) :
    ((List.range k).map fun j => byteOf r (Fld.byte ⟨a, 0, 4⟩ + j)) = bytesOf k (r a) := by
  unfold bytesOf
  apply List.map_congr_left
  intro j hj
  have hj : j < k := List.mem_range.1 hj
  unfold byteOf Fld.byte
  simp only
  rw [show (4 * a + 0 + j) / 4 = a by omega, show (4 * a + 0 + j) % 4 = j by omega]

/-! ### `SetGPIO` -/

/-- Cycles of a `MOV` of a constant. -/
def movCost (n : Nat) : Nat := if n < 2 ^ 16 then 1 else 2

/-- What a part of the program leaves: what it did outside, the time and the number of accesses. -/
structure Done where
  log : List (Nat × Ev)
  t : Nat
  n : Nat

/-- One part after the other. -/
def Done.bind (d : Done) (f : Nat → Nat → Done) : Done :=
  { f d.t d.n with log := d.log ++ (f d.t d.n).log }

/-- A signal is not assigned to a pin: the upper half of the address is 0 (pru-generic-io-routines.hp 36). -/
def unmapped (p : Nat) : Bool := (p &&& 0xfffff000) / 2 ^ 16 % 2 ^ 16 == 0

/-- The outputs of `SetGPIO` for a pin and a level. -/
def gpioOut (env : Env) (p : Nat) (level : Bool) (t n : Nat) : Done :=
  let base := p &&& 0xfffff000
  let mask := 2 ^ (p &&& 0x1f)
  if unmapped p then ⟨[], t + movCost base + 1, n⟩
  else
    let t' := t + movCost base + 1 + movCost mask + 1 + (if level then 1 else 2) + 1
    ⟨[(t', .store .bus ((base + if level then gpioSet else gpioClear) % 2 ^ 32) (bytesOf 4 mask))], t' + (1 + env.lat n), n + 1⟩

/-- A part of the program was run, its registers outside `dirty` are as before. -/
structure Ran (s s' : St) (pc : Nat) (d : Done) (dirty : List Nat) : Prop where
  pc : s'.pc = pc
  log : s'.log = s.log ++ d.log
  t : s'.t = d.t
  n : s'.n = d.n
  keep : ∀ k, k ∉ dirty → s'.r k = s.r k

/-! ### One rule for each instruction -/

section Rules
variable {pc : Nat} {r : Nat → Nat} {c n t : Nat} {log : List (Nat × Ev)} {P : St → Prop} {d a : Fld} {o : Opd} {l : Nat}

theorem wp_movi {v : Nat} (hi : prog[pc]? = some (.mov d (.imm v)))
    (h : Wp prog env ⟨pc + 1, put r d v, c, n, t + movCost v, log⟩ P) : Wp prog env ⟨pc, r, c, n, t, log⟩ P :=
  .step hi rfl h

theorem wp_mov {f : Fld} (hi : prog[pc]? = some (.mov d (.fld f)))
    (h : Wp prog env ⟨pc + 1, put r d (get r f), c, n, t + 1, log⟩ P) : Wp prog env ⟨pc, r, c, n, t, log⟩ P :=
  .step hi rfl h

theorem wp_add (hi : prog[pc]? = some (.add d a o))
    (h : Wp prog env ⟨pc + 1, put r d (get r a + val r o), (get r a + val r o) / 256 ^ d.len % 2, n, t + 1, log⟩ P) :
    Wp prog env ⟨pc, r, c, n, t, log⟩ P :=
  .step hi rfl h

theorem wp_adc (hi : prog[pc]? = some (.adc d a o))
    (h : Wp prog env ⟨pc + 1, put r d (get r a + val r o + c), (get r a + val r o + c) / 256 ^ d.len % 2, n, t + 1, log⟩ P) :
    Wp prog env ⟨pc, r, c, n, t, log⟩ P :=
  .step hi rfl h

theorem wp_sub (hi : prog[pc]? = some (.sub d a o))
    (h : ∀ c', Wp prog env ⟨pc + 1, put r d (get r a + (2 ^ 32 - val r o)), c', n, t + 1, log⟩ P) :
    Wp prog env ⟨pc, r, c, n, t, log⟩ P :=
  .step hi rfl (h _)

theorem wp_lsl (hi : prog[pc]? = some (.lsl d a o))
    (h : Wp prog env ⟨pc + 1, put r d (get r a * 2 ^ (val r o % 32)), c, n, t + 1, log⟩ P) :
    Wp prog env ⟨pc, r, c, n, t, log⟩ P :=
  .step hi rfl h

theorem wp_lsr (hi : prog[pc]? = some (.lsr d a o))
    (h : Wp prog env ⟨pc + 1, put r d (get r a / 2 ^ (val r o % 32)), c, n, t + 1, log⟩ P) :
    Wp prog env ⟨pc, r, c, n, t, log⟩ P :=
  .step hi rfl h

theorem wp_set (hi : prog[pc]? = some (.set d a o))
    (h : Wp prog env ⟨pc + 1, put r d (get r a ||| 2 ^ (val r o % 32)), c, n, t + 1, log⟩ P) :
    Wp prog env ⟨pc, r, c, n, t, log⟩ P :=
  .step hi rfl h

theorem wp_clr (hi : prog[pc]? = some (.clr d a o))
    (h : Wp prog env ⟨pc + 1, put r d (if (get r a).testBit (val r o % 32) then get r a - 2 ^ (val r o % 32) else get r a), c, n, t + 1, log⟩ P) :
    Wp prog env ⟨pc, r, c, n, t, log⟩ P :=
  .step hi rfl h

theorem wp_zero {k : Nat} (hi : prog[pc]? = some (.zero d k))
    (h : Wp prog env ⟨pc + 1, putBytes r d.byte k (fun _ => 0), c, n, t + 1, log⟩ P) :
    Wp prog env ⟨pc, r, c, n, t, log⟩ P :=
  .step hi rfl h

theorem wp_qbeq (hi : prog[pc]? = some (.qbeq l a o)) (b : Bool) (hb : (get r a == val r o) = b)
    (h : Wp prog env ⟨if b then l else pc + 1, r, c, n, t + 1, log⟩ P) : Wp prog env ⟨pc, r, c, n, t, log⟩ P :=
  .step hi (by rw [← hb]; rfl) h

theorem wp_qbne (hi : prog[pc]? = some (.qbne l a o)) (b : Bool) (hb : (get r a != val r o) = b)
    (h : Wp prog env ⟨if b then l else pc + 1, r, c, n, t + 1, log⟩ P) : Wp prog env ⟨pc, r, c, n, t, log⟩ P :=
  .step hi (by rw [← hb]; rfl) h

theorem wp_qblt (hi : prog[pc]? = some (.qblt l a o)) (b : Bool) (hb : decide (val r o < get r a) = b)
    (h : Wp prog env ⟨if b then l else pc + 1, r, c, n, t + 1, log⟩ P) : Wp prog env ⟨pc, r, c, n, t, log⟩ P :=
  .step hi (by rw [← hb]; rfl) h

theorem wp_qbbs (hi : prog[pc]? = some (.qbbs l a o)) (b : Bool) (hb : (get r a).testBit (val r o % 32) = b)
    (h : Wp prog env ⟨if b then l else pc + 1, r, c, n, t + 1, log⟩ P) : Wp prog env ⟨pc, r, c, n, t, log⟩ P :=
  .step hi (by rw [← hb]; rfl) h

theorem wp_qbbc (hi : prog[pc]? = some (.qbbc l a o)) (b : Bool) (hb : (!(get r a).testBit (val r o % 32)) = b)
    (h : Wp prog env ⟨if b then l else pc + 1, r, c, n, t + 1, log⟩ P) : Wp prog env ⟨pc, r, c, n, t, log⟩ P :=
  .step hi (by rw [← hb]; rfl) h

theorem wp_qba (hi : prog[pc]? = some (.qba l)) (h : Wp prog env ⟨l, r, c, n, t + 1, log⟩ P) :
    Wp prog env ⟨pc, r, c, n, t, log⟩ P :=
  .step hi rfl h

theorem wp_jmp (hi : prog[pc]? = some (.jmp l)) (h : Wp prog env ⟨l, r, c, n, t + 1, log⟩ P) :
    Wp prog env ⟨pc, r, c, n, t, log⟩ P :=
  .step hi rfl h

theorem wp_call (hi : prog[pc]? = some (.call l))
    (h : Wp prog env ⟨l, put r ⟨30, 0, 2⟩ (pc + 1), c, n, t + 1, log⟩ P) : Wp prog env ⟨pc, r, c, n, t, log⟩ P :=
  .step hi rfl h

theorem wp_ret (hi : prog[pc]? = some .ret) (h : Wp prog env ⟨get r ⟨30, 0, 2⟩, r, c, n, t + 1, log⟩ P) :
    Wp prog env ⟨pc, r, c, n, t, log⟩ P :=
  .step hi rfl h

theorem wp_load {sp : Space} {k : Nat} (hi : prog[pc]? = some (.load d sp o k))
    (h : Wp prog env ⟨pc + 1, putBytes r d.byte k (env.ans n), c, n + 1, t + (1 + env.lat n),
      log ++ [(t, .load sp (val r o) ((List.range k).map fun j => env.ans n j % 256))]⟩ P) :
    Wp prog env ⟨pc, r, c, n, t, log⟩ P :=
  .step hi rfl h

theorem wp_store {sp : Space} {k : Nat} (hi : prog[pc]? = some (.store d sp o k))
    (h : Wp prog env ⟨pc + 1, r, c, n + 1, t + (1 + env.lat n),
      log ++ [(t, .store sp (val r o) ((List.range k).map fun j => byteOf r (d.byte + j)))]⟩ P) :
    Wp prog env ⟨pc, r, c, n, t, log⟩ P :=
  .step hi rfl h

theorem wp_event {k : Nat} (hi : prog[pc]? = some (.event k))
    (h : Wp prog env ⟨pc + 1, r, c, n, t + 1, log ++ [(t, .event k)]⟩ P) : Wp prog env ⟨pc, r, c, n, t, log⟩ P :=
  .step hi rfl h

end Rules

theorem CodeAt.at {l : List (Instr Nat)} {a : Nat} (h : CodeAt prog a l) (i : Nat) {x : Instr Nat} (hx : l[i]? = some x) :
    prog[a + i]? = some x := by
  rw [h.get i, hx]
  by_contra hn
  rw [List.getElem?_eq_none (by omega)] at hx
  simp at hx

theorem base_lt {p : Nat} (hp : p < 2 ^ 32) : p &&& 0xfffff000 < 2 ^ 32 := Nat.lt_of_le_of_lt Nat.and_le_left hp

theorem mask_lt (p : Nat) : 2 ^ (p &&& 0x1f) < 2 ^ 32 :=
  Nat.pow_lt_pow_right (by decide) (Nat.lt_of_le_of_lt Nat.and_le_right (by decide))

theorem setGPIO_run (k : Nat) (bits : Fld) (bit p : Nat) (s : St) (hbits : bits.r ∉ [4, 5, 6]) (hp : p < 2 ^ 32)
    (hbit : bit < 32) (hpc : s.pc = gpioAt k) (hc : CodeAt prog (gpioAt k) (instrs adr (setGPIO k bits bit p))) :
    Wp prog env s fun s' =>
      Ran s s' (gpioAt k + 9) (gpioOut env p ((get s.r bits).testBit bit) s.t s.n) [4, 5, 6] := by
  obtain ⟨pc, r, c, n, t, log⟩ := s
  simp only at hpc
  subst hpc
  simp only [List.mem_cons, List.not_mem_nil, or_false, not_or] at hbits
  obtain ⟨hb4, hb5, hb6⟩ := hbits
  have hbase := base_lt hp
  have hmask := mask_lt p
  have hkeep : ∀ (x y z : Nat) (q : Nat), q ∉ [4, 5, 6] → put (put (put r r4 x) r5 y) r6 z q = r q := by
    intro x y z q hq
    simp only [List.mem_cons, List.not_mem_nil, or_false, not_or] at hq
    rw [put_other _ _ _ _ hq.2.2, put_other _ _ _ _ hq.2.1, put_other _ _ _ _ hq.1]
  refine wp_movi (hc.at 0 rfl) ?_
  refine wp_qbeq (hc.at 1 rfl) (unmapped p) (by rw [get_put_high]; rfl) ?_
  unfold gpioOut
  cases hu : unmapped p
  · refine wp_movi (hc.at 2 rfl) ?_
    have hbit' : (get (put (put r r4 (p &&& 0xfffff000)) r5 (2 ^ (p &&& 0x1f))) bits).testBit (val (put (put r r4 (p &&& 0xfffff000)) r5 (2 ^ (p &&& 0x1f))) (.imm bit) % 32) =
        (get r bits).testBit bit := by
      rw [get_put_other _ _ _ _ hb5, get_put_other _ _ _ _ hb4]
      simp [val, Nat.mod_eq_of_lt hbit]
    refine wp_qbbs (hc.at 3 rfl) ((get r bits).testBit bit) hbit' ?_
    have hval : ∀ z, z < 2 ^ 32 → get (put (put (put r r4 (p &&& 0xfffff000)) r5 (2 ^ (p &&& 0x1f))) r6 z) r4 +
        val (put (put (put r r4 (p &&& 0xfffff000)) r5 (2 ^ (p &&& 0x1f))) r6 z) (.fld r6) = (p &&& 0xfffff000) + z := by
      intro z hz
      simp only [val]
      rw [get_put_full, get_put_other _ _ _ _ (by decide), get_put_other _ _ _ _ (by decide), get_put_full,
        Nat.mod_eq_of_lt hbase, Nat.mod_eq_of_lt hz]
    have hkeep2 : ∀ z w q, q ∉ [4, 5, 6] →
        put (put (put (put r r4 (p &&& 0xfffff000)) r5 (2 ^ (p &&& 0x1f))) r6 z) r4 w q = r q := by
      intro z w q hq
      rw [put_other _ _ _ _ (by simp at hq; exact hq.1), hkeep _ _ _ _ hq]
    have hmask2 : ∀ z w, put (put (put (put r r4 (p &&& 0xfffff000)) r5 (2 ^ (p &&& 0x1f))) r6 z) r4 w 5 = 2 ^ (p &&& 0x1f) := by
      intro z w
      rw [put_other _ _ _ _ (by decide), put_other _ _ _ _ (by decide), put_full, Nat.mod_eq_of_lt hmask]
    cases hl : (get r bits).testBit bit
    · refine wp_movi (hc.at 4 rfl) ?_
      refine wp_qba (hc.at 5 rfl) ?_
      refine wp_add (hc.at 7 rfl) ?_
      refine wp_store (hc.at 8 rfl) ?_
      refine .here ⟨rfl, ?_, rfl, rfl, hkeep2 _ _⟩
      simp only [val.eq_1 _ r4]
      rw [get_put_full, hval _ (by decide), byteOf_reg _ 5 4 (by decide), hmask2]
      rfl
    · refine wp_movi (hc.at 6 rfl) ?_
      refine wp_add (hc.at 7 rfl) ?_
      refine wp_store (hc.at 8 rfl) ?_
      refine .here ⟨rfl, ?_, rfl, rfl, hkeep2 _ _⟩
      simp only [val.eq_1 _ r4]
      rw [get_put_full, hval _ (by decide), byteOf_reg _ 5 4 (by decide), hmask2]
      rfl
  · refine .here ⟨rfl, ?_, rfl, rfl, ?_⟩
    · simp
    · intro q hq
      exact put_other _ _ _ _ (by simp at hq; exact hq.1)

end BeagleG.Firmware
