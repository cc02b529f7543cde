import Verif.Gpio.Props
/-!
# Host and firmware write to the same banks (C68)

Both write single bits through the set and clear registers, in any order.
-/
namespace BeagleG.Gpio
open Firmware (Cape gpioBase pin notMapped gpioSet gpioClear gpioOe gpioDataout capes bumps vgen5 Ev Allowed unmapped bytesOf firmware Star)

/-- The word that is stored, lowest byte first. The stores of pru-generic-io-routines.hp 33-47. -/
def wordOf (bytes : List Nat) : Word := BitVec.ofNat 32 (Firmware.word fun j => bytes.getD j 0)

/-- A word is stored at an address of the bus: the registers of a bank, motor-interface-constants.h 41-52. -/
def busStore (f : Fin 4 → Bank) (a : Nat) (m : Word) : Fin 4 → Bank := fun k =>
  if a = gpioBase k + gpioSet then (f k).write m true
  else if a = gpioBase k + gpioClear then (f k).write m false
  else if a = gpioBase k + gpioDataout then { f k with out := m }
  else if a = gpioBase k + gpioOe then { f k with oe := m }
  else f k

/-- What happens to the banks. generic-gpio.cc 74-84; pru-generic-io-routines.hp 45. -/
inductive Op where
  /-- the host calls `set_gpio` or `clr_gpio` -/
  | host (d : Nat) (v : Bool)
  /-- something the firmware does -/
  | firmware (e : Ev)

/-- Its effect. generic-gpio.cc 74-84; pru-generic-io-routines.hp 45. -/
def Op.run (s : St) : Op → Option St
  | .host d v => s.write d v
  | .firmware (.store .bus a bytes) => some { s with bank := busStore s.bank a (wordOf bytes) }
  | .firmware _ => some s

/-- The level that an operation is meant to give a pin. Specification; no code of its own. -/
def Op.sets (q : Pin) : Op → Option Bool
  | .host d v => if pinOf d = some q then some v else none
  | .firmware (.store .bus a bytes) =>
    if (wordOf bytes).getLsbD q.2 then
      if a = gpioBase q.1 + gpioSet then some true else if a = gpioBase q.1 + gpioClear then some false else none
    else none
  | .firmware _ => none

theorem bankOf_base {d : Nat} {k : Fin 4} (h : bankOf d = some k) : d &&& 0xfffff000 = gpioBase k := by
  unfold bankOf at h
  simp only at h
  split at h
  · rename_i he; simp only [Option.some.injEq] at h; rw [← h]; exact he
  · split at h
    · rename_i he; simp only [Option.some.injEq] at h; rw [← h]; exact he
    · split at h
      · rename_i he; simp only [Option.some.injEq] at h; rw [← h]; exact he
      · split at h
        · rename_i he; simp only [Option.some.injEq] at h; rw [← h]; exact he
        · simp at h

theorem pinOf_some {d : Nat} {q : Pin} (h : pinOf d = some q) : bankOf d = some q.1 ∧ bitOf d = q.2 := by
  unfold pinOf at h
  cases hb : bankOf d with
  | none => rw [hb] at h; simp at h
  | some k =>
    rw [hb] at h
    simp only [Option.map_some, Option.some.injEq] at h
    rw [← h]
    exact ⟨rfl, rfl⟩

theorem wordOf_bit (i : Fin 32) : wordOf (bytesOf 4 (2 ^ i.val)) = 1#32 <<< i.val := by
  revert i
  decide

theorem wordOf_mask (d : Nat) : wordOf (bytesOf 4 (2 ^ (d &&& 0x1f))) = bitmask d := wordOf_bit (bitOf d)

theorem bus_addr (k j : Fin 4) (v : Bool) : (gpioBase k + if v then gpioSet else gpioClear) % 2 ^ 32 = gpioBase j + gpioSet ↔ j = k ∧ v = true := by
  revert k j v
  decide

theorem bus_addr' (k j : Fin 4) (v : Bool) : (gpioBase k + if v then gpioSet else gpioClear) % 2 ^ 32 = gpioBase j + gpioClear ↔ j = k ∧ v = false := by
  revert k j v
  decide

theorem bus_addr_out (k j : Fin 4) (v : Bool) : (gpioBase k + if v then gpioSet else gpioClear) % 2 ^ 32 ≠ gpioBase j + gpioDataout ∧
    (gpioBase k + if v then gpioSet else gpioClear) % 2 ^ 32 ≠ gpioBase j + gpioOe := by
  revert k j v
  decide

/-- The store that the firmware makes for a pin is what the host does for it. -/
theorem busStore_pin (f : Fin 4 → Bank) (d : Nat) (v : Bool) (k : Fin 4) (h : bankOf d = some k) :
    busStore f (((d &&& 0xfffff000) + if v then gpioSet else gpioClear) % 2 ^ 32) (wordOf (bytesOf 4 (2 ^ (d &&& 0x1f)))) =
      setBank f k ((f k).write (bitmask d) v) := by
  funext j
  rw [bankOf_base h, wordOf_mask]
  unfold busStore setBank
  have h1 := bus_addr k j v
  have h2 := bus_addr' k j v
  have h3 := bus_addr_out k j v
  by_cases hj : j = k
  · subst hj
    cases v
    · rw [if_neg (by rw [h1]; simp), if_pos (h2.mpr ⟨rfl, rfl⟩), if_pos rfl]
    · rw [if_pos (h1.mpr ⟨rfl, rfl⟩), if_pos rfl]
  · rw [if_neg (by rw [h1]; simp [hj]), if_neg (by rw [h2]; simp [hj]), if_neg h3.1, if_neg h3.2, if_neg hj]

/-- C68. A firmware's store to a pin does the same as the call of the host. -/
theorem C68_same (s : St) (h : Mapped s) (d : Nat) (v : Bool) (q : Pin) (hq : pinOf d = some q) :
    Op.run s (.firmware (.store .bus (((d &&& 0xfffff000) + if v then gpioSet else gpioClear) % 2 ^ 32) (bytesOf 4 (2 ^ (d &&& 0x1f))))) =
      Op.run s (.host d v) := by
  have hb := (pinOf_some hq).1
  simp only [Op.run, busStore_pin _ _ _ _ hb, St.write, port_mapped h, hb]

/-- The pins the firmware may write. The pins of pru-generic-io-routines.hp 50-92. -/
def driven (c : Cape) (q : Pin) : Prop := (∃ i, pinOf (c.step i) = some q) ∨ (∃ i, pinOf (c.dir i) = some q) ∨ ∃ i, pinOf (c.aux i) = some q

theorem step_mem (c : Cape) (i : Fin 8) : c.step i ∈ outputs c := by
  match i with
  | 0 | 1 | 2 | 3 | 4 | 5 | 6 | 7 => simp [outputs]

theorem dir_mem (c : Cape) (i : Fin 8) : c.dir i ∈ outputs c := by
  match i with
  | 0 | 1 | 2 | 3 | 4 | 5 | 6 | 7 => simp [outputs]

theorem aux_mem (c : Cape) (i : Fin 16) : c.aux i ∈ outputs c := by
  have e : outputs c = (outputs c).take 17 ++ (List.finRange 16).map c.aux ++ (List.finRange 4).map c.pwm := rfl
  rw [e]
  exact List.mem_append_left _ (List.mem_append_right _ (List.mem_map.mpr ⟨i, List.mem_finRange i, rfl⟩))

theorem unmapped_notMapped : unmapped notMapped = true := by decide

/-- What the firmware does: nothing to the banks, or a write to one of its pins. -/
theorem allowed_cases {c : Cape} (hc : Cape.Sound c) {e : Ev} (he : Allowed c e) :
    (∃ (d : Nat) (v : Bool) (q : Pin), pinOf d = some q ∧ driven c q ∧
      e = .store .bus (((d &&& 0xfffff000) + if v then gpioSet else gpioClear) % 2 ^ 32) (bytesOf 4 (2 ^ (d &&& 0x1f)))) ∨
    ∀ a bytes, e ≠ .store .bus a bytes := by
  cases he with
  | pin p level hp hm =>
    left
    have hmem : p ∈ outputs c := by
      rcases hp with ⟨i, rfl⟩ | ⟨i, rfl⟩ | ⟨i, rfl⟩
      · exact step_mem c i
      · exact dir_mem c i
      · exact aux_mem c i
    cases hq : pinOf p with
    | none =>
      have := hc.pins p (List.mem_append_left _ hmem) hq
      rw [this, unmapped_notMapped] at hm
      simp at hm
    | some q =>
      refine ⟨p, level, q, hq, ?_, rfl⟩
      rcases hp with ⟨i, rfl⟩ | ⟨i, rfl⟩ | ⟨i, rfl⟩
      · exact .inl ⟨i, hq⟩
      · exact .inr (.inl ⟨i, hq⟩)
      · exact .inr (.inr ⟨i, hq⟩)
  | _ => right; intro a bytes h; simp [Firmware.statusWrite] at h

theorem sets_same (d : Nat) (v : Bool) (p q : Pin) (hq : pinOf d = some p) :
    Op.sets q (.firmware (.store .bus (((d &&& 0xfffff000) + if v then gpioSet else gpioClear) % 2 ^ 32) (bytesOf 4 (2 ^ (d &&& 0x1f))))) =
      Op.sets q (.host d v) := by
  obtain ⟨hb, hi⟩ := pinOf_some hq
  simp only [Op.sets, wordOf_mask, bitmask_get, bankOf_base hb, bus_addr, bus_addr', hq, hi, Option.some.injEq, decide_eq_true_eq]
  obtain ⟨p1, p2⟩ := p
  obtain ⟨q1, q2⟩ := q
  simp only [Prod.mk.injEq]
  by_cases h1 : q1 = p1 <;> by_cases h2 : q2 = p2 <;> cases v <;> simp_all [eq_comm]

/-- Something the firmware may do, or a call of the host. generic-gpio.cc 74-84; motor-interface-pru.p. -/
def Op.Ok (c : Cape) : Op → Prop
  | .host _ _ => True
  | .firmware e => Allowed c e

theorem op_run {c : Cape} (hc : Cape.Sound c) (s : St) (h : Mapped s) (o : Op) (ho : o.Ok c) :
    ∃ s', o.run s = some s' ∧ Mapped s' ∧ (∀ q, s'.level q = (o.sets q).getD (s.level q)) ∧
      (∀ q, s'.isInput q = s.isInput q) ∧ ∀ q, s'.sensed q = s.sensed q := by
  have host : ∀ d v, ∃ s', (Op.host d v).run s = some s' ∧ Mapped s' ∧ (∀ q, s'.level q = ((Op.host d v).sets q).getD (s.level q)) ∧
      (∀ q, s'.isInput q = s.isInput q) ∧ ∀ q, s'.sensed q = s.sensed q := by
    intro d v
    obtain ⟨s', h1, h2, h3, h4, h5⟩ := C68_write s h d v
    refine ⟨s', h1, h2, fun q => ?_, h4, h5⟩
    rw [h3]
    simp only [Op.sets]
    split <;> rfl
  cases o with
  | host d v => exact host d v
  | firmware e =>
    rcases allowed_cases hc ho with ⟨d, v, q, hq, -, rfl⟩ | hn
    · obtain ⟨s', h1, h2, h3, h4, h5⟩ := host d v
      exact ⟨s', by rw [C68_same s h d v q hq]; exact h1, h2, fun p => by rw [h3, sets_same d v q p hq], h4, h5⟩
    · refine ⟨s, ?_, h, fun q => ?_, fun _ => rfl, fun _ => rfl⟩
      · match e, hn with
        | .store .bus a b, hn => exact absurd rfl (hn a b)
        | .store .dram a b, _ | .store .cfg a b, _ | .load _ _ _, _ | .event _, _ => rfl
      · match e, hn with
        | .store .bus a b, hn => exact absurd rfl (hn a b)
        | .store .dram a b, _ | .store .cfg a b, _ | .load _ _ _, _ | .event _, _ => rfl

/-- C68. Whatever the order in which host and firmware write: the level of a pin is that of the last write to this pin. Writes to other
pins of the same bank do not disturb it, and the directions do not change. -/
theorem C68_last_write {c : Cape} (hc : Cape.Sound c) (ops : List Op) : ∀ (s : St), Mapped s → (∀ o ∈ ops, o.Ok c) →
    ∃ s', ops.foldlM Op.run s = some s' ∧ Mapped s' ∧ (∀ q, s'.level q = (ops.reverse.findSome? (Op.sets q)).getD (s.level q)) ∧
      (∀ q, s'.isInput q = s.isInput q) ∧ ∀ q, s'.sensed q = s.sensed q := by
  induction ops with
  | nil => intro s h _; exact ⟨s, rfl, h, fun _ => rfl, fun _ => rfl, fun _ => rfl⟩
  | cons o ops ih =>
    intro s h ho
    obtain ⟨s1, e1, h1, w1, i1, n1⟩ := op_run hc s h o (ho o (by simp))
    obtain ⟨s2, e2, h2, w2, i2, n2⟩ := ih s1 h1 (fun o ho' => ho o (by simp [ho']))
    refine ⟨s2, by rw [List.foldlM_cons, e1]; exact e2, h2, ?_, fun q => by rw [i2, i1], fun q => by rw [n2, n1]⟩
    intro q
    rw [w2, w1, List.reverse_cons, List.findSome?_append]
    cases List.findSome? (Op.sets q) ops.reverse with
    | some y => rfl
    | none =>
      simp only [Option.getD_none, Option.none_or, List.findSome?_cons, List.findSome?_nil]
      cases Op.sets q o <;> rfl

/-- C68. The firmware writes step, direction and auxiliary pins only. -/
theorem C68_driven {c : Cape} (hc : Cape.Sound c) {e : Ev} (he : Allowed c e) (q : Pin) (h : Op.sets q (.firmware e) ≠ none) : driven c q := by
  rcases allowed_cases hc he with ⟨d, v, p, hp, hd, rfl⟩ | hn
  · rw [sets_same d v p q hp] at h
    simp only [Op.sets, hp, Option.some.injEq] at h
    split at h
    · rename_i heq; rw [← heq]; exact hd
    · exact absurd rfl h
  · match e, hn with
    | .store .bus a b, hn => exact absurd rfl (hn a b)
    | .store .dram a b, _ | .store .cfg a b, _ | .load _ _ _, _ | .event _, _ => exact absurd rfl h

/-- The enable pin is none of these. -/
theorem enable_not_driven {c : Cape} (hc : Cape.Sound c) (q : Pin) (hq : pinOf c.enable = some q) : ¬ driven c q := by
  have hn := hc.outs
  have e : (outputs c).take 33 = ((List.finRange 8).map c.step ++ (List.finRange 8).map c.dir) ++ (c.enable :: (List.finRange 16).map c.aux) := rfl
  rw [e, List.filterMap_append, List.filterMap_cons, hq] at hn
  simp only at hn
  rw [List.nodup_append, List.nodup_cons] at hn
  obtain ⟨-, ⟨h2, -⟩, h3⟩ := hn
  have mem : ∀ {n : Nat} (f : Fin n → Nat) (i : Fin n), pinOf (f i) = some q → q ∈ ((List.finRange n).map f).filterMap pinOf := by
    intro n f i hi
    exact List.mem_filterMap.mpr ⟨f i, List.mem_map.mpr ⟨i, List.mem_finRange i, rfl⟩, hi⟩
  rintro (⟨i, hi⟩ | ⟨i, hi⟩ | ⟨i, hi⟩)
  · exact h3 q (by rw [List.filterMap_append]; exact List.mem_append_left _ (mem _ i hi)) q (by simp) rfl
  · exact h3 q (by rw [List.filterMap_append]; exact List.mem_append_right _ (mem _ i hi)) q (by simp) rfl
  · exact h2 (mem _ i hi)

theorem input_not_driven {c : Cape} (hc : Cape.Sound c) (i : Fin 9) (q : Pin) (hq : pinOf (c.input i) = some q) : ¬ driven c q := by
  have hin : c.input i ∈ inputs c := by
    match i with
    | 0 | 1 | 2 | 3 | 4 | 5 | 6 | 7 | 8 => simp [inputs]
  have key : ∀ d ∈ outputs c, pinOf d ≠ some q := by
    intro d hd h
    have := hc.apart d hd _ hin (by rw [h, hq])
    rw [this, pinOf_notMapped] at h
    simp at h
  rintro (⟨i, hi⟩ | ⟨i, hi⟩ | ⟨i, hi⟩)
  · exact key _ (step_mem c i) hi
  · exact key _ (dir_mem c i) hi
  · exact key _ (aux_mem c i) hi

/-- A call that `HardwareMapping` makes for the auxiliary outputs. hardware-mapping.cc 243-256. -/
def Op.IsAux (c : Cape) : Op → Prop
  | .host d _ => ∃ i, d = c.aux i
  | .firmware _ => False

/-- C68. Once the host has disabled the motors they stay disabled until it enables them: whatever the firmware does, from its start on,
and whatever the host does with the auxiliary outputs in between. -/
theorem C68_stays_off {c : Cape} (hok : c.Ok) (hc : Cape.Sound c) (s s' : St) (h : Mapped s) (hoff : enableMotors c false s = some s')
    {env : Firmware.Env} (f f' : Firmware.St) (hpc : f.pc = 0) (hlog : f.log = []) (hrun : Star (firmware c) env f f')
    (ops : List Op) (hops : ∀ o ∈ ops, o.IsAux c ∨ ∃ e ∈ f'.log, o = .firmware e.2) :
    ∃ s'', ops.foldlM Op.run s' = some s'' ∧ ∀ q, pinOf c.enable = some q → enabled c s'' q = false := by
  obtain ⟨s1, e1, h1, h2, -⟩ := C68_enable c false s h
  rw [hoff, Option.some.injEq] at e1
  subst e1
  have hall := Firmware.C69_writes_only hok f f' hpc hlog hrun
  obtain ⟨s'', k1, -, k3, -⟩ := C68_last_write hc ops s' h1 (by
    intro o ho
    rcases hops o ho with h | ⟨e, he, rfl⟩
    · match o, h with
      | .host _ _, _ => trivial
    · exact hall e he)
  refine ⟨s'', k1, ?_⟩
  intro q hq
  have hn : ops.reverse.findSome? (Op.sets q) = none := by
    rw [List.findSome?_eq_none_iff]
    intro o ho
    rcases hops o (List.mem_reverse.mp ho) with h | ⟨e, he, rfl⟩
    · match o, h with
      | .host d v, ⟨i, hi⟩ =>
        simp only [Op.sets]
        rw [if_neg]
        intro hd
        exact enable_not_driven hc q hq (.inr (.inr ⟨i, by rw [← hi]; exact hd⟩))
    · by_contra hne
      exact enable_not_driven hc q hq (C68_driven hc (hall e he) q hne)
  have := h2 q hq
  simp only [enabled, k3, hn, Option.getD_none] at this ⊢
  exact this

/-- C68. No input pin is ever written, by neither side. -/
theorem C68_inputs_untouched {c : Cape} (hc : Cape.Sound c) (i : Fin 9) (q : Pin) (hq : pinOf (c.input i) = some q) (o : Op)
    (ho : o.IsAux c ∨ (∃ v, o = .host c.enable v) ∨ ∃ e, Allowed c e ∧ o = .firmware e) : o.sets q = none := by
  have hin : c.input i ∈ inputs c := by
    match i with
    | 0 | 1 | 2 | 3 | 4 | 5 | 6 | 7 | 8 => simp [inputs]
  rcases ho with h | ⟨v, rfl⟩ | ⟨e, he, rfl⟩
  · match o, h with
    | .host d v, ⟨j, hj⟩ =>
      simp only [Op.sets]
      rw [if_neg]
      intro hd
      exact input_not_driven hc i q hq (.inr (.inr ⟨j, by rw [← hj]; exact hd⟩))
  · simp only [Op.sets]
    rw [if_neg]
    intro hd
    have := hc.apart c.enable (by simp [outputs]) _ hin (by rw [hd, hq])
    rw [this, pinOf_notMapped] at hd
    simp at hd
  · by_contra hne
    exact input_not_driven hc i q hq (C68_driven hc he q hne)

/-- The step and direction pins belong to the firmware alone: neither the enable pin nor an auxiliary output. -/
theorem C68_steps_untouched {c : Cape} (hc : Cape.Sound c) (q : Pin) (hq : (∃ i, pinOf (c.step i) = some q) ∨ ∃ i, pinOf (c.dir i) = some q)
    (o : Op) (ho : o.IsAux c ∨ ∃ v, o = .host c.enable v) : o.sets q = none := by
  have hn := hc.outs
  have e : (outputs c).take 33 = ((List.finRange 8).map c.step ++ (List.finRange 8).map c.dir) ++ (c.enable :: (List.finRange 16).map c.aux) := rfl
  rw [e, List.filterMap_append, List.nodup_append] at hn
  obtain ⟨-, -, h3⟩ := hn
  have mem : ∀ {n : Nat} (f : Fin n → Nat) (i : Fin n), pinOf (f i) = some q → q ∈ ((List.finRange n).map f).filterMap pinOf := by
    intro n f i hi
    exact List.mem_filterMap.mpr ⟨f i, List.mem_map.mpr ⟨i, List.mem_finRange i, rfl⟩, hi⟩
  have h1 : q ∈ ((List.finRange 8).map c.step ++ (List.finRange 8).map c.dir).filterMap pinOf := by
    rw [List.filterMap_append]
    rcases hq with ⟨i, hi⟩ | ⟨i, hi⟩
    · exact List.mem_append_left _ (mem _ i hi)
    · exact List.mem_append_right _ (mem _ i hi)
  have h4 : ∀ d ∈ c.enable :: (List.finRange 16).map c.aux, pinOf d ≠ some q := fun d hd hp =>
    h3 q h1 q (List.mem_filterMap.mpr ⟨d, hd, hp⟩) rfl
  rcases ho with h | ⟨v, rfl⟩
  · match o, h with
    | .host d v, ⟨j, hj⟩ =>
      simp only [Op.sets]
      rw [if_neg (h4 d (by rw [hj]; simp))]
  · simp only [Op.sets]
    rw [if_neg (h4 _ (by simp))]

end BeagleG.Gpio
