import Verif.Hardware.Model
import Mathlib.Tactic.Tauto
import Mathlib.Data.Fin.VecNotation
/-!
# C39: auxiliary outputs

The state of the 16 auxiliary bits after any sequence of commands is compared with a specification
that only looks at the list of commands: the last one that concerns the bit.
-/
namespace BeagleG.Hardware

open Planner (Axis Motor)

variable {F : Type}

/-- Commands for the auxiliary outputs: a single pin (0-based), a named output, all off. -/
inductive AuxCmd where
  | pin (i : Fin 16) (on : Bool)
  | named (o : Output) (on : Bool)
  | off

/-- The function called for a command. -/
def AuxCmd.run (c : Cape) (h : Hw F) : AuxCmd → Hw F
  | .pin i on => updateAuxBits h (i.val + 1) on
  | .named o on => updateAuxBitmap h o on
  | .off => auxOutputsOff c h

/-- Specification: the value a command gives to bit `i`, if it concerns it. `map` says which outputs
are mapped to which pins. -/
def AuxCmd.sets (map : Output → Fin 16 → Bool) (i : Fin 16) : AuxCmd → Option Bool
  | .pin j on => if j = i then some on else none
  | .named o on => if map o i then some on else none
  | .off => some false

/-- Specification: bit `i` after the commands, `before` being its value before. -/
def lastAux (map : Output → Fin 16 → Bool) (i : Fin 16) (before : Bool) (l : List AuxCmd) : Bool :=
  (l.reverse.findSome? (AuxCmd.sets map i)).getD before

/-- The mapping of outputs to pins. -/
def Hw.auxMap (h : Hw F) (o : Output) (i : Fin 16) : Bool := (h.auxOf o).getLsbD i.val

/-- Bit `i` of the auxiliary bits. -/
def Hw.auxBit (h : Hw F) (i : Fin 16) : Bool := h.auxBits.getLsbD i.val

theorem write_auxBits (h : Hw F) (p : Nat) (v : Bool) : (h.write p v).auxBits = h.auxBits := by
  unfold Hw.write; split <;> rfl

theorem write_auxOf (h : Hw F) (p : Nat) (v : Bool) : (h.write p v).auxOf = h.auxOf := by
  unfold Hw.write; split <;> rfl

theorem foldl_write_fields (f : Fin 16 → Nat) (g : Fin 16 → Bool) :
    ∀ (l : List (Fin 16)) (h : Hw F),
      (l.foldl (fun h' i => h'.write (f i) (g i)) h).auxBits = h.auxBits ∧
      (l.foldl (fun h' i => h'.write (f i) (g i)) h).auxOf = h.auxOf := by
  intro l
  induction l with
  | nil => intro h; exact ⟨rfl, rfl⟩
  | cons a l ih =>
    intro h
    rw [List.foldl_cons]
    obtain ⟨h1, h2⟩ := ih (h.write (f a) (g a))
    rw [h1, h2, write_auxBits, write_auxOf]
    exact ⟨rfl, rfl⟩

theorem setAuxOutputs_auxBits (c : Cape) (h : Hw F) : (setAuxOutputs c h).auxBits = h.auxBits := by
  unfold setAuxOutputs
  split
  · rfl
  · exact (foldl_write_fields c.aux (fun i => h.auxBits.getLsbD i.val) (List.finRange 16) h).1

theorem setAuxOutputs_auxOf (c : Cape) (h : Hw F) : (setAuxOutputs c h).auxOf = h.auxOf := by
  unfold setAuxOutputs
  split
  · rfl
  · exact (foldl_write_fields c.aux (fun i => h.auxBits.getLsbD i.val) (List.finRange 16) h).2

theorem bit_shift (i j : Fin 16) : (1#16 <<< i.val).getLsbD j.val = decide (i = j) := by
  revert i j; decide

theorem run_auxMap (c : Cape) (h : Hw F) (k : AuxCmd) : (k.run c h).auxMap = h.auxMap := by
  cases k with
  | pin i on => rfl
  | named o on => rfl
  | off =>
    funext o i
    simp only [Hw.auxMap, AuxCmd.run, auxOutputsOff, setAuxOutputs_auxOf]

theorem bits_on (x y : BitVec 16) (i : Fin 16) :
    (x ||| y).getLsbD i.val = (x.getLsbD i.val || y.getLsbD i.val) := BitVec.getLsbD_or

theorem bits_off (x y : BitVec 16) (i : Fin 16) :
    (x &&& ~~~y).getLsbD i.val = (x.getLsbD i.val && !y.getLsbD i.val) := by
  rw [BitVec.getLsbD_and, BitVec.getLsbD_not, decide_eq_true i.isLt, Bool.true_and]

theorem run_auxBit (c : Cape) (h : Hw F) (k : AuxCmd) (i : Fin 16) :
    (k.run c h).auxBit i = (k.sets h.auxMap i).getD (h.auxBit i) := by
  cases k with
  | pin j on =>
    have hb := bit_shift j i
    simp only [AuxCmd.run, updateAuxBits, Hw.auxBit, AuxCmd.sets, Nat.add_sub_cancel]
    cases on <;> by_cases hj : j = i <;> simp only [hj, Bool.false_eq_true, if_true, if_false] <;>
      first | rw [bits_on] | rw [bits_off]
    all_goals (try rw [hj] at hb)
    all_goals simp only [hb, decide_true, hj, decide_false, Bool.not_true, Bool.not_false,
      Bool.and_true, Bool.and_false, Bool.or_true, Bool.or_false, Option.getD]
  | named o on =>
    simp only [AuxCmd.run, updateAuxBitmap, Hw.auxBit, Hw.auxMap, AuxCmd.sets]
    cases on <;> simp only [Bool.false_eq_true, if_true, if_false] <;>
      first | rw [bits_on] | rw [bits_off]
    all_goals rcases Bool.eq_false_or_eq_true ((h.auxOf o).getLsbD i.val) with hm | hm <;>
      simp only [hm, Bool.not_true, Bool.not_false, Bool.and_true, Bool.and_false, Bool.or_true,
        Bool.or_false, Option.getD, Bool.false_eq_true, if_true, if_false]
  | off =>
    simp only [AuxCmd.run, auxOutputsOff, Hw.auxBit, AuxCmd.sets, setAuxOutputs_auxBits]
    exact BitVec.getLsbD_zero

/-- C39. Each of the 16 bits has the value given by the last command that concerned it; reading the
pin returns it. -/
theorem C39_aux_last_command (c : Cape) (h : Hw F) (l : List AuxCmd) (i : Fin 16) :
    (l.foldl (AuxCmd.run c) h).auxBit i = lastAux h.auxMap i (h.auxBit i) l ∧
    getAuxBit (l.foldl (AuxCmd.run c) h) (i.val + 1) = lastAux h.auxMap i (h.auxBit i) l := by
  have main : (l.foldl (AuxCmd.run c) h).auxBit i = lastAux h.auxMap i (h.auxBit i) l := by
    induction l generalizing h with
    | nil => rfl
    | cons k l ih =>
      rw [List.foldl_cons, ih, run_auxMap, run_auxBit]
      unfold lastAux
      rw [List.reverse_cons, List.findSome?_append]
      cases hf : List.findSome? (AuxCmd.sets h.auxMap i) l.reverse with
      | some v => rfl
      | none =>
        cases hk : AuxCmd.sets h.auxMap i k <;> simp [hk]
  refine ⟨main, ?_⟩
  rw [← main]
  simp [getAuxBit, Hw.auxBit]

/-- C39. A command that does not concern a bit leaves it unchanged, and switching all off clears
every bit. -/
theorem C39_aux_untouched (c : Cape) (h : Hw F) (k : AuxCmd) (i : Fin 16) :
    (k.sets h.auxMap i = none → (k.run c h).auxBit i = h.auxBit i) ∧
    (AuxCmd.off.run c h).auxBit i = false := by
  refine ⟨fun hk => ?_, ?_⟩
  · rw [run_auxBit, hk]; rfl
  · rw [run_auxBit]; rfl

/-- A request to map an output to an auxiliary pin. -/
structure AuxRequest where
  output : Output
  aux : Int

/-- C39. After any sequence of mapping requests an output is mapped to exactly those pins that were
asked for in this sequence (or mapped before) and exist on the cape; out of range requests are
refused and change nothing. -/
theorem C39_aux_mapping (c : Cape) (h : Hw F) (l : List AuxRequest) (o : Output) (i : Fin 16) :
    (l.foldl (fun h r => (addAuxMapping c h r.output r.aux).1) h).auxMap o i = true ↔
      h.auxMap o i = true ∨ (c.aux i ≠ 0 ∧ ∃ r ∈ l, r.output = o ∧ r.aux = (i.val : Int) + 1) := by
  induction l generalizing h with
  | nil => simp
  | cons r l ih =>
    rw [List.foldl_cons, ih]
    have step : (addAuxMapping c h r.output r.aux).1.auxMap o i = true ↔
        h.auxMap o i = true ∨ (c.aux i ≠ 0 ∧ r.output = o ∧ r.aux = (i.val : Int) + 1) := by
      unfold addAuxMapping
      by_cases h0 : r.aux = 0
      · rw [if_pos h0]
        have : ¬ (r.aux = (i.val : Int) + 1) := by omega
        simp [this]
      · rw [if_neg h0]
        by_cases hr : 1 ≤ r.aux ∧ r.aux ≤ 16
        · rw [dif_pos hr]
          obtain ⟨k, hk⟩ : ∃ k : Fin 16, (r.aux - 1).toNat = k.val :=
            ⟨⟨(r.aux - 1).toNat, by omega⟩, rfl⟩
          have hki : (r.aux = (i.val : Int) + 1) ↔ k = i := by
            constructor
            · intro e; apply Fin.ext; omega
            · intro e; subst e; omega
          have hfin : (⟨(r.aux - 1).toNat, by omega⟩ : Fin 16) = k := Fin.ext hk
          rw [hfin]
          by_cases hc : c.aux k = 0
          · rw [if_pos hc]
            constructor
            · exact Or.inl
            · rintro (hm | ⟨hn, _, e⟩)
              · exact hm
              · rw [hki.1 e] at hc; exact absurd hc hn
          · rw [if_neg hc]
            simp only [Hw.auxMap, hk]
            by_cases ho : o = r.output
            · subst ho
              rw [if_pos rfl, BitVec.getLsbD_or, bit_shift, Bool.or_eq_true, decide_eq_true_eq]
              constructor
              · rintro (hm | e)
                · exact Or.inl hm
                · subst e; exact Or.inr ⟨hc, rfl, hki.2 rfl⟩
              · rintro (hm | ⟨_, _, e⟩)
                · exact Or.inl hm
                · exact Or.inr (hki.1 e)
            · rw [if_neg ho]
              constructor
              · exact Or.inl
              · rintro (hm | ⟨_, e, _⟩)
                · exact hm
                · exact absurd e.symm ho
        · rw [dif_neg hr]
          have : ¬ (r.aux = (i.val : Int) + 1) := by have := i.isLt; omega
          simp [this]
    rw [step]
    simp only [List.mem_cons, exists_eq_or_imp]
    tauto

/-- The result of a mapping request: refused exactly if the pin number is out of range. -/
theorem C39_aux_refused (c : Cape) (h : Hw F) (o : Output) (aux : Int) :
    ((addAuxMapping c h o aux).2 = true ↔ 0 ≤ aux ∧ aux ≤ 16) ∧
    ((addAuxMapping c h o aux).2 = false → (addAuxMapping c h o aux).1 = h) := by
  unfold addAuxMapping
  split
  · next h0 => subst h0; simp
  · split
    · next hr => split <;> simp <;> omega
    · next h0 hr => simp; omega

/-- **A request for a PWM timer** is refused exactly if there is no such timer or the output already has one; then
nothing changes. Otherwise the output gets this timer (0: nothing changes), and the others keep theirs. -/
theorem C39_pwm_mapping (c : Cape) (h : Hw F) (o : Output) (pwm : Int) :
    ((addPwmMapping c h o pwm).2 = true ↔ pwm = 0 ∨ (1 ≤ pwm ∧ pwm ≤ 4 ∧ h.pwmOf o = 0)) ∧
    ((addPwmMapping c h o pwm).2 = false → (addPwmMapping c h o pwm).1 = h) ∧
    (∀ i : Fin 4, pwm = (i.val : Int) + 1 → h.pwmOf o = 0 → (addPwmMapping c h o pwm).1 =
      { h with pwmOf := fun o' => if o' = o then c.pwm i else h.pwmOf o' }) := by
  unfold addPwmMapping
  refine ⟨?_, ?_, ?_⟩
  · split
    · next h0 => simp [h0]
    · split
      · next h0 hr => split <;> rename_i hm <;> simp_all
      · next h0 hr => simp [h0]; omega
  · split
    · simp
    · split
      · split <;> simp
      · simp
  · intro i hi hz
    have h0 : pwm ≠ 0 := by omega
    have hr : 1 ≤ pwm ∧ pwm ≤ 4 := by omega
    have hk : ∀ hlt, (⟨(pwm - 1).toNat, hlt⟩ : Fin 4) = i := fun hlt => Fin.ext (by show (pwm - 1).toNat = i.val; omega)
    rw [if_neg h0, dif_pos hr, if_neg (not_not.2 hz), hk]

/-- **An output keeps the first PWM timer it was given**: a later request for it is refused. -/
theorem C39_pwm_first (c : Cape) (h : Hw F) (o o' : Output) (pwm : Int) (hm : h.pwmOf o ≠ 0) :
    (addPwmMapping c h o' pwm).1.pwmOf o = h.pwmOf o := by
  unfold addPwmMapping
  split
  · rfl
  · split
    · split
      · rfl
      · rename_i hz
        show (if o = o' then _ else _) = _
        rw [if_neg]
        rintro rfl
        exact hz hm
    · rfl

theorem write_level (h : Hw F) (p q : Nat) (v : Bool) :
    (h.write p v).level q = if p ≠ 0 ∧ q = p then v else h.level q := by
  unfold Hw.write
  by_cases hp : p = 0
  · simp [hp]
  · by_cases hq : q = p <;> simp [hp, hq]

theorem foldl_write_level (f : Fin 16 → Nat) (g : Fin 16 → Bool) (i : Fin 16) (h0 : f i ≠ 0) :
    ∀ (l : List (Fin 16)) (h : Hw F), (∀ j ∈ l, f j = f i → j = i) →
      (l.foldl (fun h' i => h'.write (f i) (g i)) h).level (f i) =
        if i ∈ l then g i else h.level (f i) := by
  intro l
  induction l with
  | nil => intro h _; simp
  | cons a l ih =>
    intro h hinj
    rw [List.foldl_cons, ih _ (fun j hj => hinj j (List.mem_cons_of_mem _ hj)), write_level]
    by_cases hil : i ∈ l
    · simp [hil]
    · by_cases hia : a = i
      · subst hia; simp [hil, h0]
      · have : ¬ (f i = f a) := fun e => hia (hinj a List.mem_cons_self e.symm)
        simp [hil, this, Ne.symm hia]

theorem foldl_write_level_other (f : Fin 16 → Nat) (g : Fin 16 → Bool) (q : Nat) :
    ∀ (l : List (Fin 16)) (h : Hw F), (∀ j ∈ l, f j ≠ q) →
      (l.foldl (fun h' i => h'.write (f i) (g i)) h).level q = h.level q := by
  intro l
  induction l with
  | nil => intro h _; rfl
  | cons a l ih =>
    intro h hne
    rw [List.foldl_cons, ih _ (fun j hj => hne j (List.mem_cons_of_mem _ hj)), write_level]
    have := hne a List.mem_cons_self
    rw [if_neg]
    rintro ⟨_, e⟩
    exact this e.symm

/-- C39. Setting the outputs gives every pin of an auxiliary output the level of its bit, and
touches no other pin, on every cape that uses different pins for different outputs (true for all
the capes in /repo/hardware). -/
theorem C39_outputs (c : Cape) (h : Hw F) (hi : h.initialized = true)
    (hc : ∀ i j, c.aux i ≠ 0 → c.aux i = c.aux j → i = j) :
    (∀ i, c.aux i ≠ 0 → (setAuxOutputs c h).level (c.aux i) = h.auxBit i) ∧
    (∀ p, (∀ i, c.aux i ≠ p) → (setAuxOutputs c h).level p = h.level p) := by
  unfold setAuxOutputs
  simp only [hi]
  refine ⟨fun i h0 => ?_, fun p hp => ?_⟩
  · have := foldl_write_level c.aux (fun i => h.auxBits.getLsbD i.val) i h0 (List.finRange 16) h
      (fun j _ e => (hc i j h0 e.symm).symm)
    rw [if_pos (List.mem_finRange i)] at this
    exact this
  · exact foldl_write_level_other c.aux (fun i => h.auxBits.getLsbD i.val) p (List.finRange 16) h
      (fun j _ => hp j)

/-- The auxiliary pins of the CRAMPS cape, hardware/CRAMPS/beagleg-pin-mapping.h 45-51: the number of
the connector pin (`PIN_P9_41` is 941). -/
def crampsAux : Fin 16 → Nat :=
  ![941, 922, 929, 930, 0, 0, 0, 0, 0, 0, 0, 0, 0, 826, 923, 925]

/-- The auxiliary pins of the VGEN5 cape, hardware/VGEN5/beagleg-pin-mapping.h 38-52. -/
def vgen5Aux : Fin 16 → Nat :=
  ![807, 808, 809, 810, 914, 917, 918, 921, 922, 924, 926, 928, 929, 931, 0, 826]

/-- The hypothesis of `C39_outputs` holds for these capes. -/
theorem C39_capes :
    (∀ i j, crampsAux i ≠ 0 → crampsAux i = crampsAux j → i = j) ∧
    (∀ i j, vgen5Aux i ≠ 0 → vgen5Aux i = vgen5Aux j → i = j) := by
  constructor <;> decide

/-- A state without any mapping. -/
def Hw.blank (F : Type) [Inhabited F] : Hw F :=
  { auxOf := fun _ => 0, pwmOf := fun _ => 0, axisToDriver := fun _ => 0, driverFlip := fun _ => 0
    minEndstop := fun _ => 0, maxEndstop := fun _ => 0, triggerLevel := fun _ => false
    estopInput := 0, pauseInput := 0, startInput := 0, probeInput := 0
    estop := false, motorsEnabled := false, auxBits := 0, initialized := false
    level := fun _ => false, pwmOn := fun _ => false, duty := fun _ => default }

/-- A cape for examples: the pins of CRAMPS. -/
def cramps : Cape :=
  { aux := crampsAux, pwm := ![811, 915, 927, 921]
    switch := ![808, 810, 913, 807, 809, 911, 817, 0, 0], motorEnable := 914, activeHigh := false }

/-- Mist on pins 1 and 3; M7, then pin 3 off. -/
def exMist : Hw Nat :=
  [(⟨.mist, 1⟩ : AuxRequest), ⟨.mist, 3⟩, ⟨.fan, 5⟩].foldl
    (fun h r => (addAuxMapping cramps h r.output r.aux).1) (Hw.blank Nat)

example : ([AuxCmd.named .mist true, .pin 2 false].foldl (AuxCmd.run cramps) exMist).auxBits
    = 1#16 := by decide

end BeagleG.Hardware
