import Verif.Gpio.Model
import Verif.Firmware.Props
/-!
# Properties of the GPIO outputs and inputs (C68)
-/
namespace BeagleG.Gpio
open Firmware (Cape gpioBase pin notMapped gpioSet gpioClear capes bumps vgen5)

/-! ### Single pins -/

theorem bitmask_get (d : Nat) (i : Fin 32) : (bitmask d).getLsbD i = decide (i = bitOf d) := by
  have h1 := i.isLt
  have h2 := (bitOf d).isLt
  simp only [bitmask, BitVec.getLsbD_shiftLeft, BitVec.getLsbD_one, h1, decide_true, Bool.true_and]
  have : (0 < 32) = True := by simp
  simp only [Fin.ext_iff]
  by_cases h : (i : Nat) = bitOf d
  · simp [h]
  · by_cases h3 : (i : Nat) < bitOf d
    · simp [h, h3]
    · simp [h, h3]
      omega

theorem write_get (b : Bank) (d : Nat) (v : Bool) (i : Fin 32) :
    (b.write (bitmask d) v).out.getLsbD i = if i = bitOf d then v else b.out.getLsbD i := by
  have h1 := i.isLt
  unfold Bank.write
  cases v
  · simp only [Bool.false_eq_true, if_false, BitVec.getLsbD_and, BitVec.getLsbD_not, h1, decide_true, Bool.true_and, bitmask_get]
    split <;> simp_all
  · simp only [if_true, BitVec.getLsbD_or, bitmask_get]
    split <;> simp_all

/-- All banks are accessible. -/
def Mapped (s : St) : Prop := ∀ k, s.ptr k = .mapped

theorem port_mapped {s : St} (h : Mapped s) (d : Nat) : s.port d = match bankOf d with | none => .null | some k => .at k := by
  unfold St.port
  cases bankOf d with
  | none => rfl
  | some k => simp [h k]

/-- C68. `set_gpio` and `clr_gpio` change the level of the pin that the definition names and of no other; directions and inputs stay
as they are. A definition that names no pin, like `GPIO_NOT_MAPPED`, changes nothing. -/
theorem C68_write (s : St) (h : Mapped s) (d : Nat) (v : Bool) :
    ∃ s', s.write d v = some s' ∧ Mapped s' ∧ (∀ q, s'.level q = if pinOf d = some q then v else s.level q) ∧
      (∀ q, s'.isInput q = s.isInput q) ∧ ∀ q, s'.sensed q = s.sensed q := by
  unfold St.write
  rw [port_mapped h]
  unfold pinOf
  cases hb : bankOf d with
  | none => exact ⟨s, rfl, h, fun q => by simp, fun _ => rfl, fun _ => rfl⟩
  | some k =>
    refine ⟨_, rfl, h, ?_, ?_, ?_⟩
    · rintro ⟨j, i⟩
      simp only [St.level, setBank, Option.map_some, Option.some.injEq, Prod.mk.injEq]
      by_cases hj : j = k
      · subst hj
        simp only [if_true, write_get, true_and, eq_comm]
      · simp [hj, Ne.symm hj]
    · rintro ⟨j, i⟩
      simp only [St.isInput, setBank]
      split
      · rename_i hj; subst hj; rfl
      · rfl
    · rintro ⟨j, i⟩
      simp only [St.sensed, setBank]
      split
      · rename_i hj; subst hj; rfl
      · rfl

/-- C68. `get_gpio` returns the level of the pin, and -1 if there is no such pin. -/
theorem C68_read (s : St) (h : Mapped s) (d : Nat) :
    s.get d = some (match pinOf d with | none => -1 | some q => if s.sensed q then 1 else 0) := by
  unfold St.get
  rw [port_mapped h]
  unfold pinOf
  cases hb : bankOf d with
  | none => rfl
  | some k =>
    simp only [Option.map_some]
    congr 1
    have : ((s.bank k).inp &&& bitmask d ≠ 0) ↔ (s.bank k).inp.getLsbD (bitOf d) = true := by
      constructor
      · intro hne
        by_contra hc
        apply hne
        apply BitVec.eq_of_getLsbD_eq
        intro i hi
        have := bitmask_get d ⟨i, hi⟩
        simp only at this
        rw [BitVec.getLsbD_and, this]
        by_cases he : (⟨i, hi⟩ : Fin 32) = bitOf d
        · rw [← he] at hc
          simp only [Bool.not_eq_true] at hc
          simp [hc]
        · simp [he]
      · intro hb hz
        have := congrArg (fun w => w.getLsbD (bitOf d)) hz
        simp only [BitVec.getLsbD_and, bitmask_get, hb] at this
        simp at this
    by_cases hb : (s.bank k).inp.getLsbD (bitOf d) = true
    · rw [if_pos (this.mpr hb), if_pos (show s.sensed (k, bitOf d) = true from hb)]
    · rw [if_neg (fun h => hb (this.mp h)), if_neg (show ¬ s.sensed (k, bitOf d) = true from hb)]

/-- C68. Before the banks are mapped and after they are unmapped nothing is written and nothing read. -/
theorem C68_unmapped (s : St) (h : ∀ k, s.ptr k = .null) (d : Nat) (v : Bool) : s.write d v = some s ∧ s.get d = some (-1) := by
  have : s.port d = .null := by
    unfold St.port
    cases bankOf d with
    | none => rfl
    | some k => simp [h k]
  simp [St.write, St.get, this]

theorem pinOf_notMapped : pinOf notMapped = none := by decide

theorem pinOf_pin (k : Fin 4) (i : Fin 32) : pinOf (pin k i) = some (k, i) := by
  revert k i
  decide

example : pinOf (Firmware.p9 12) = some (1, 28) := by decide

/-! ### Directions -/

theorem setMask_get (m : Fin 4 → Word) (d : Nat) (q : Pin) :
    (setMask m d q.1).getLsbD q.2 = (decide (pinOf d = some q) || (m q.1).getLsbD q.2) := by
  obtain ⟨j, i⟩ := q
  unfold setMask pinOf
  cases hb : bankOf d with
  | none => simp
  | some k =>
    simp only [Option.map_some, Option.some.injEq, Prod.mk.injEq]
    by_cases hj : j = k
    · subst hj
      simp only [if_true, BitVec.getLsbD_or, bitmask_get, true_and]
      rw [Bool.or_comm]
      simp only [eq_comm]
    · simp [hj, Ne.symm hj]

theorem masks_get (l : List Nat) (q : Pin) : ∀ m : Fin 4 → Word,
    (l.foldl setMask m q.1).getLsbD q.2 = (decide (some q ∈ l.map pinOf) || (m q.1).getLsbD q.2) := by
  induction l with
  | nil => intro m; simp
  | cons d l ih =>
    intro m
    rw [List.foldl_cons, ih, setMask_get]
    by_cases h1 : some q ∈ l.map pinOf
    · simp only [h1, decide_true, Bool.true_or, List.map_cons, List.mem_cons, or_true]
    · simp only [h1, List.map_cons, List.mem_cons, or_false, decide_false, Bool.false_or, eq_comm]

theorem updateOe_mapped {s : St} (h : Mapped s) (k : Fin 4) (f : Word → Word) :
    ∃ s', s.updateOe k f = some s' ∧ Mapped s' ∧
      ∀ j, s'.bank j = if j = k then { s.bank k with oe := f (s.bank k).oe } else s.bank j := by
  unfold St.updateOe
  rw [h k]
  exact ⟨_, rfl, h, fun j => rfl⟩

theorem updates_mapped (g : Fin 4 → Word → Word) {s : St} (h : Mapped s) :
    ∃ s', [0, 1, 2, 3].foldlM (fun (s : St) k => s.updateOe k (g k)) s = some s' ∧ Mapped s' ∧
      ∀ j, s'.bank j = { s.bank j with oe := g j (s.bank j).oe } := by
  obtain ⟨s0, e0, h0, b0⟩ := updateOe_mapped h 0 (g 0)
  obtain ⟨s1, e1, h1, b1⟩ := updateOe_mapped h0 1 (g 1)
  obtain ⟨s2, e2, h2, b2⟩ := updateOe_mapped h1 2 (g 2)
  obtain ⟨s3, e3, h3, b3⟩ := updateOe_mapped h2 3 (g 3)
  refine ⟨s3, by simp [List.foldlM, e0, e1, e2, e3], h3, ?_⟩
  intro j
  match j with
  | 0 => rw [b3, if_neg (by decide), b2, if_neg (by decide), b1, if_neg (by decide), b0, if_pos rfl]
  | 1 => rw [b3, if_neg (by decide), b2, if_neg (by decide), b1, if_pos rfl, b0, if_neg (by decide)]
  | 2 => rw [b3, if_neg (by decide), b2, if_pos rfl, b1, if_neg (by decide), b0, if_neg (by decide)]
  | 3 => rw [b3, if_pos rfl, b2, if_neg (by decide), b1, if_neg (by decide), b0, if_neg (by decide)]

/-- C68. `cfg_gpio_io` makes the inputs of the cape inputs, its outputs outputs, and leaves all other pins alone. It writes no
levels: an output gets the level that its latch had before. -/
theorem C68_directions (c : Cape) (s : St) (h : Mapped s) :
    ∃ s', cfgGpioIo c s = some s' ∧ Mapped s' ∧
      (∀ q, s'.isInput q = if some q ∈ (inputs c).map pinOf then true else if some q ∈ (outputs c).map pinOf then false else s.isInput q) ∧
      (∀ q, s'.level q = s.level q) ∧ ∀ q, s'.sensed q = s.sensed q := by
  unfold cfgGpioIo
  obtain ⟨s1, e1, h1, b1⟩ := updates_mapped (fun k w => w &&& ~~~((outputs c).foldl setMask (fun _ => 0) k)) h
  obtain ⟨s2, e2, h2, b2⟩ := updates_mapped (fun k w => w ||| (inputs c).foldl setMask (fun _ => 0) k) h1
  refine ⟨s2, ?_, h2, ?_, ?_, ?_⟩
  · simp only [e1, Option.bind_some, e2]
  · intro q
    have h32 := q.2.isLt
    simp only [St.isInput, b2, b1, BitVec.getLsbD_or, BitVec.getLsbD_and, BitVec.getLsbD_not, masks_get, h32]
    by_cases hi : some q ∈ (inputs c).map pinOf
    · simp [hi]
    · by_cases ho : some q ∈ (outputs c).map pinOf
      · simp [hi, ho]
      · simp [hi, ho]
  · intro q; simp only [St.level, b2, b1]
  · intro q; simp only [St.sensed, b2, b1]

/-! ### The capes -/

/-- What a cape has to satisfy. -/
structure Cape.Sound (c : Cape) : Prop where
  /-- a definition names a pin or is `GPIO_NOT_MAPPED` -/
  pins : ∀ d ∈ outputs c ++ inputs c, pinOf d = none → d = notMapped
  /-- no pin is both an input and an output -/
  apart : ∀ d ∈ outputs c, ∀ e ∈ inputs c, pinOf d = pinOf e → d = notMapped
  /-- the outputs that are not for PWM are different pins -/
  outs : (((outputs c).take 33).filterMap pinOf).Nodup
  /-- the inputs are different pins -/
  ins : ((inputs c).filterMap pinOf).Nodup

/-- C68. The four capes are sound. -/
theorem C68_capes : ∀ c ∈ capes, Cape.Sound c := by
  intro c hc
  simp only [capes, List.mem_cons, List.not_mem_nil, or_false] at hc
  rcases hc with rfl | rfl | rfl | rfl <;> exact ⟨by decide, by decide, by decide, by decide⟩

/-- C68. So with one of them every output is an output and every input is an input. -/
theorem C68_capes_directions {c : Cape} (hc : Cape.Sound c) (s : St) (h : Mapped s) :
    ∃ s', cfgGpioIo c s = some s' ∧ (∀ d ∈ outputs c, ∀ q, pinOf d = some q → s'.isInput q = false) ∧
      ∀ d ∈ inputs c, ∀ q, pinOf d = some q → s'.isInput q = true := by
  obtain ⟨s', h1, -, h2, -⟩ := C68_directions c s h
  refine ⟨s', h1, ?_, ?_⟩
  · intro d hd q hq
    rw [h2, if_neg, if_pos (List.mem_map.mpr ⟨d, hd, hq⟩)]
    intro hm
    obtain ⟨e, he, heq⟩ := List.mem_map.mp hm
    have := hc.apart d hd e he (by rw [hq, heq])
    rw [this, pinOf_notMapped] at hq
    simp at hq
  · intro d hd q hq
    rw [h2, if_pos (List.mem_map.mpr ⟨d, hd, hq⟩)]

/-! ### Motors and auxiliary outputs -/

/-- The motor drivers are enabled: the level of the enable pin. -/
def enabled (c : Cape) (s : St) (q : Pin) : Bool := s.level q == c.enableHigh

/-- C68. `EnableMotors` switches the enable pin and no other; the drivers are enabled exactly if asked for, on capes with either
polarity. -/
theorem C68_enable (c : Cape) (on : Bool) (s : St) (h : Mapped s) :
    ∃ s', enableMotors c on s = some s' ∧ Mapped s' ∧ (∀ q, pinOf c.enable = some q → enabled c s' q = on) ∧
      ∀ q, pinOf c.enable ≠ some q → s'.level q = s.level q := by
  obtain ⟨s', h1, h2, h3, -⟩ := C68_write s h c.enable (!(on ^^ c.enableHigh))
  refine ⟨s', h1, h2, ?_, ?_⟩
  · intro q hq
    simp only [enabled, h3, hq, if_true]
    cases on <;> cases c.enableHigh <;> rfl
  · intro q hq
    rw [h3, if_neg hq]

theorem writes (l : List (Nat × Bool)) : ∀ (s : St), Mapped s →
    ∃ s', l.foldlM (fun (s : St) x => s.write x.1 x.2) s = some s' ∧ Mapped s' ∧
      (∀ q, s'.level q = ((l.reverse.find? fun x => decide (pinOf x.1 = some q)).map Prod.snd).getD (s.level q)) ∧
      (∀ q, s'.isInput q = s.isInput q) ∧ ∀ q, s'.sensed q = s.sensed q := by
  induction l with
  | nil => intro s h; exact ⟨s, rfl, h, fun _ => rfl, fun _ => rfl, fun _ => rfl⟩
  | cons x l ih =>
    intro s h
    obtain ⟨s1, e1, h1, w1, i1, n1⟩ := C68_write s h x.1 x.2
    obtain ⟨s2, e2, h2, w2, i2, n2⟩ := ih s1 h1
    refine ⟨s2, by rw [List.foldlM_cons, e1]; exact e2, h2, ?_, fun q => by rw [i2, i1], fun q => by rw [n2, n1]⟩
    intro q
    rw [w2, w1, List.reverse_cons, List.find?_append]
    cases List.find? (fun x => decide (pinOf x.1 = some q)) l.reverse with
    | some y => rfl
    | none =>
      by_cases hx : pinOf x.1 = some q
      · simp [hx]
      · simp [hx]

theorem setAux_eq (c : Cape) (bits : BitVec 16) (s : St) :
    setAux c bits s = ((List.finRange 16).map fun i => (c.aux i, bits.getLsbD i)).foldlM (fun (s : St) x => s.write x.1 x.2) s := by
  rw [List.foldlM_map]
  rfl

theorem aux_distinct {c : Cape} (hc : Cape.Sound c) (i j : Fin 16) (q : Pin) (h1 : pinOf (c.aux i) = some q)
    (h2 : pinOf (c.aux j) = some q) : i = j := by
  have hn := hc.outs
  have hsub : (((List.finRange 16).map c.aux).filterMap pinOf).Sublist (((outputs c).take 33).filterMap pinOf) := by
    apply List.Sublist.filterMap
    have : (outputs c).take 33 = (outputs c).take 17 ++ (List.finRange 16).map c.aux := rfl
    rw [this]
    exact List.sublist_append_right _ _
  have hn := hn.sublist hsub
  rw [List.filterMap_map, List.Nodup, List.pairwise_filterMap] at hn
  rw [List.pairwise_iff_getElem] at hn
  rcases Nat.lt_trichotomy i j with hlt | heq | hgt
  · exact absurd rfl (hn i j (by simp) (by simp) hlt q (by simpa using h1) q (by simpa using h2))
  · exact Fin.ext heq
  · exact absurd rfl (hn j i (by simp) (by simp) hgt q (by simpa using h2) q (by simpa using h1))

/-- C68. After `SetAuxOutputs` every auxiliary output has the level of its bit, and no other pin has changed. -/
theorem C68_aux {c : Cape} (hc : Cape.Sound c) (bits : BitVec 16) (s : St) (h : Mapped s) :
    ∃ s', setAux c bits s = some s' ∧ Mapped s' ∧ (∀ i q, pinOf (c.aux i) = some q → s'.level q = bits.getLsbD i) ∧
      (∀ q, (∀ i, pinOf (c.aux i) ≠ some q) → s'.level q = s.level q) ∧ ∀ q, s'.isInput q = s.isInput q := by
  rw [setAux_eq]
  obtain ⟨s', e, h1, h2, h3, -⟩ := writes ((List.finRange 16).map fun i => (c.aux i, bits.getLsbD i)) s h
  refine ⟨s', e, h1, ?_, ?_, h3⟩
  · intro i q hq
    rw [h2]
    cases hf : List.find? (fun x => decide (pinOf x.1 = some q)) ((List.finRange 16).map fun i => (c.aux i, bits.getLsbD i)).reverse with
    | none =>
      rw [List.find?_eq_none] at hf
      have := hf (c.aux i, bits.getLsbD i) (List.mem_reverse.mpr (List.mem_map.mpr ⟨i, List.mem_finRange i, rfl⟩))
      simp [hq] at this
    | some x =>
      have hm := List.mem_of_find?_eq_some hf
      have hp := List.find?_some hf
      simp only [List.mem_reverse, List.mem_map, List.mem_finRange, true_and] at hm
      obtain ⟨j, rfl⟩ := hm
      simp only [decide_eq_true_eq] at hp
      rw [aux_distinct hc i j q hq hp]
      rfl
  · intro q hq
    rw [h2, List.find?_eq_none.mpr]
    · rfl
    · intro x hx
      simp only [List.mem_reverse, List.mem_map, List.mem_finRange, true_and] at hx
      obtain ⟨j, rfl⟩ := hx
      simpa using hq j

end BeagleG.Gpio
