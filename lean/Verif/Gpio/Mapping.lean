import Verif.Gpio.Shared
/-!
# Mapping the banks, start and end of the hardware (C68)
-/
namespace BeagleG.Gpio
open Firmware (Cape notMapped capes bumps)

/-! ### Clocks -/

/-- C68. `ena_gpio_clk` returns when the clock is reported running and not before. It writes the register only if the clock was not
running, and then sets one bit of it. -/
theorem C68_clock (reads : Nat → Word) :
    (reads 0 &&& 0x30000 = 0 → ∀ fuel, enaGpioClk reads fuel = some []) ∧
    (reads 0 &&& 0x30000 ≠ 0 → ∀ fuel, enaGpioClk reads fuel = some [reads 0 ||| 2] ↔ ∃ j < fuel, reads (j + 1) &&& 0x30000 = 0) ∧
    (reads 0 &&& 0x30000 ≠ 0 → (∀ j, reads (j + 1) &&& 0x30000 ≠ 0) → ∀ fuel, enaGpioClk reads fuel = none) := by
  unfold enaGpioClk
  refine ⟨fun h fuel => ?_, fun h fuel => ?_, fun h hj fuel => ?_⟩
  · simp only [h, if_true]
  · simp only [h, if_false]
    constructor
    · intro he
      by_contra hn
      rw [if_neg hn] at he
      simp at he
    · intro he
      rw [if_pos he]
  · simp only [h, if_false]
    rw [if_neg]
    rintro ⟨j, -, hz⟩
    exact hj j hz

/-! ### Mapping -/

theorem mapBanks_all (ok : Fin 4 → Bool) (h : ∀ k, ok k = true) (s : St) :
    (mapBanks ok s [0, 1, 2, 3]).2.1 = true ∧ Mapped (mapBanks ok s [0, 1, 2, 3]).1 ∧
      (mapBanks ok s [0, 1, 2, 3]).1.bank = s.bank ∧ (mapBanks ok s [0, 1, 2, 3]).2.2 = [.mmap 0, .mmap 1, .mmap 2, .mmap 3] := by
  simp only [mapBanks, h, if_true, true_and, and_true]
  intro k
  match k with
  | 0 | 1 | 2 | 3 => rfl

theorem mapBanks_result (ok : Fin 4 → Bool) (s : St) : (mapBanks ok s [0, 1, 2, 3]).2.1 = true ↔ ∀ k, ok k = true := by
  constructor
  · intro h k
    unfold mapBanks at h
    by_contra hn
    match k, hn with
    | 0, hn => simp [hn] at h
    | 1, hn =>
      simp only [mapBanks] at h
      split at h <;> simp [hn] at h
    | 2, hn =>
      simp only [mapBanks] at h
      split at h
      · split at h <;> simp [hn] at h
      · simp at h
    | 3, hn =>
      simp only [mapBanks] at h
      split at h
      · split at h
        · split at h <;> simp [hn] at h
        · simp at h
      · simp at h
  · intro h
    exact (mapBanks_all ok h s).1

theorem unmapBank_ptr (s : St) (k : Fin 4) : (∀ j, (unmapBank s k).1.ptr j = if j = k then .null else s.ptr j) ∧ (unmapBank s k).1.bank = s.bank := by
  unfold unmapBank
  cases h : s.ptr k with
  | null =>
    refine ⟨fun j => ?_, rfl⟩
    by_cases hj : j = k
    · rw [if_pos hj, hj]; exact h
    · rw [if_neg hj]
  | failed => exact ⟨fun j => rfl, rfl⟩
  | mapped => exact ⟨fun j => rfl, rfl⟩

theorem unmap_null (s : St) : (∀ k, (unmapGpio s).1.ptr k = .null) ∧ (unmapGpio s).1.bank = s.bank := by
  unfold unmapGpio
  simp only [List.foldl]
  obtain ⟨p0, b0⟩ := unmapBank_ptr s 0
  generalize (unmapBank s 0).1 = s0 at *
  obtain ⟨p1, b1⟩ := unmapBank_ptr s0 1
  generalize (unmapBank s0 1).1 = s1 at *
  obtain ⟨p2, b2⟩ := unmapBank_ptr s1 2
  generalize (unmapBank s1 2).1 = s2 at *
  obtain ⟨p3, b3⟩ := unmapBank_ptr s2 3
  refine ⟨fun k => ?_, by rw [b3, b2, b1, b0]⟩
  match k with
  | 0 => rw [p3, if_neg (by decide), p2, if_neg (by decide), p1, if_neg (by decide), p0, if_pos rfl]
  | 1 => rw [p3, if_neg (by decide), p2, if_neg (by decide), p1, if_pos rfl]
  | 2 => rw [p3, if_neg (by decide), p2, if_pos rfl]
  | 3 => rw [p3, if_pos rfl]

/-- Every bank that was mapped is unmapped afterwards. Specification; no code of its own. -/
def Balanced (l : List Call) : Prop := ∀ k, l.count (.munmap k) = l.count (.mmap k)

/-- C68. `map_gpio` returns true exactly if all calls succeed; then all banks are mapped and the directions are set. Otherwise no
pointer is left behind, every bank that was mapped is unmapped, and no register of a bank has been written. -/
theorem C68_map_partial (c : Cape) (openOk en : Bool) (ok : Fin 4 → Bool) (s : St) (hs : ∀ k, s.ptr k = .null) :
    ∃ r s' l, mapGpio c openOk (some en) ok s = some (r, s', l) ∧ (r = true ↔ openOk = true ∧ en = true ∧ ∀ k, ok k = true) ∧
      l.count Call.close = l.count Call.openMem ∧
      (r = true → Mapped s' ∧ (∀ q, s'.level q = s.level q) ∧
        ∀ q, s'.isInput q = if some q ∈ (inputs c).map pinOf then true else if some q ∈ (outputs c).map pinOf then false else s.isInput q) ∧
      (r = false → (∀ k, s'.ptr k = .null) ∧ s'.bank = s.bank ∧ Balanced l) := by
  unfold mapGpio
  cases openOk with
  | false =>
    refine ⟨false, s, [], rfl, by simp, rfl, by simp, fun _ => ⟨hs, rfl, fun k => rfl⟩⟩
  | true =>
    cases en with
    | false =>
      simp only [if_true, Option.bind_some, Bool.false_eq_true, if_false]
      have hu : (unmapGpio s).2 = [] := by simp [unmapGpio, unmapBank, hs]
      refine ⟨false, _, _, rfl, by simp, by rw [hu]; rfl, by simp, fun _ => ⟨(unmap_null s).1, (unmap_null s).2, ?_⟩⟩
      rw [hu]
      intro k
      rfl
    | true =>
      simp only [if_true, Option.bind_some]
      by_cases hall : ∀ k, ok k = true
      · obtain ⟨h1, h2, h3, h4⟩ := mapBanks_all ok hall s
        rw [h1, h4]
        obtain ⟨s', e, m, d, lv, -⟩ := C68_directions c _ h2
        refine ⟨true, s', [.openMem, .mmap 0, .mmap 1, .mmap 2, .mmap 3, .close], by simp [e], by simp [hall], by decide, fun _ => ⟨m, ?_, ?_⟩, by simp⟩
        · intro q; rw [lv]; simp only [St.level, h3]
        · intro q; rw [d]; simp only [St.isInput, h3]
      · have hr : (mapBanks ok s [0, 1, 2, 3]).2.1 = false := by
          rw [← Bool.not_eq_true, mapBanks_result]; exact hall
        rw [hr]
        simp only [Bool.false_eq_true, if_false]
        have key : ∀ r, r = mapBanks ok s [0, 1, 2, 3] → r.1.bank = s.bank ∧
            (Call.openMem :: r.2.2 ++ [Call.close] ++ (unmapGpio r.1).2).count Call.close = (Call.openMem :: r.2.2 ++ [Call.close] ++ (unmapGpio r.1).2).count Call.openMem ∧
            Balanced (Call.openMem :: r.2.2 ++ [Call.close] ++ (unmapGpio r.1).2) := by
          intro r he
          by_cases h0 : ok 0 = true
          · by_cases h1 : ok 1 = true
            · by_cases h2 : ok 2 = true
              · have h3 : ok 3 = false := by
                  by_contra h3
                  apply hall
                  intro k
                  match k with
                  | 0 => exact h0
                  | 1 => exact h1
                  | 2 => exact h2
                  | 3 => simpa using h3
                simp only [mapBanks, h0, h1, h2, h3, if_true, Bool.false_eq_true, if_false] at he
                subst he
                refine ⟨rfl, ?_, fun k => ?_⟩
                · simp [unmapGpio, unmapBank]
                · simp [unmapGpio, unmapBank]
                  revert k
                  decide
              · simp only [mapBanks, h0, h1, h2, if_true, Bool.false_eq_true, if_false] at he
                subst he
                refine ⟨rfl, ?_, fun k => ?_⟩
                · simp [unmapGpio, unmapBank, hs]
                · simp [unmapGpio, unmapBank, hs]
                  revert k
                  decide
            · simp only [mapBanks, h0, h1, if_true, Bool.false_eq_true, if_false] at he
              subst he
              refine ⟨rfl, ?_, fun k => ?_⟩
              · simp [unmapGpio, unmapBank, hs]
              · simp [unmapGpio, unmapBank, hs]
                revert k
                decide
          · simp only [mapBanks, h0, Bool.false_eq_true, if_false] at he
            subst he
            refine ⟨rfl, ?_, fun k => ?_⟩
            · simp [unmapGpio, unmapBank, hs]
            · simp [unmapGpio, unmapBank, hs]
        obtain ⟨k1, k2, k3⟩ := key _ rfl
        exact ⟨false, _, _, rfl, by simp [hall], k2, by simp, fun _ => ⟨(unmap_null _).1, by rw [(unmap_null _).2, k1], k3⟩⟩

/-- C68. But `munmap` is called with `MAP_FAILED`, an address it was not given: the pointer is not `NULL` when `mmap` failed. -/
theorem C68_unmaps_failed (c : Cape) (s : St) (hs : ∀ k, s.ptr k = .null) :
    ∃ s' l, mapGpio c true (some true) (fun k => k ≠ 2) s = some (false, s', l) ∧ Call.munmapFailed ∈ l := by
  refine ⟨_, _, rfl, ?_⟩
  simp [mapBanks, unmapGpio, unmapBank, hs]

/-! ### Start and end -/

theorem reset_run {c : Cape} (hc : Cape.Sound c) (s : St) (h : Mapped s) :
    ∃ s', reset c s = some s' ∧ Mapped s' ∧ (∀ q, pinOf c.enable = some q → enabled c s' q = false) ∧
      (∀ i q, pinOf (c.aux i) = some q → s'.level q = false) ∧
      ∀ q, pinOf c.enable ≠ some q → (∀ i, pinOf (c.aux i) ≠ some q) → s'.level q = s.level q := by
  unfold reset
  obtain ⟨s1, e1, h1, w1, u1, -⟩ := C68_aux hc 0 s h
  obtain ⟨s2, e2, h2, w2, u2⟩ := C68_enable c false s1 h1
  refine ⟨s2, by rw [e1]; exact e2, h2, w2, ?_, ?_⟩
  · intro i q hq
    rw [u2 q, w1 i q hq]
    · simp
    · intro he
      exact enable_not_driven hc q he (.inr (.inr ⟨i, hq⟩))
  · intro q hq ha
    rw [u2 q hq, u1 q ha]

/-- C68. If the hardware is initialized, all auxiliary outputs are off and the motors are disabled, at the end of `InitializeHardware` and
after the destructor; then no bank is mapped any more. -/
theorem C68_start_end {c : Cape} (hc : Cape.Sound c) (ok : Fin 4 → Bool) (openOk en pwmOk : Bool) (s : St) (hs : ∀ k, s.ptr k = .null) :
    ∃ b s', initHardware c openOk (some en) ok pwmOk s = some (b, s') ∧
      (b = true ↔ openOk = true ∧ en = true ∧ (∀ k, ok k = true) ∧ pwmOk = true) ∧
      (b = true → Mapped s' ∧ (∀ q, pinOf c.enable = some q → enabled c s' q = false) ∧ ∀ i q, pinOf (c.aux i) = some q → s'.level q = false) ∧
      (b = true → ∀ s'', Mapped s'' → ∃ t, destroy c true s'' = some t ∧ (∀ k, t.ptr k = .null) ∧
        (∀ q, pinOf c.enable = some q → enabled c t q = false) ∧ ∀ i q, pinOf (c.aux i) = some q → t.level q = false) := by
  obtain ⟨r, s1, l, e, hr, -, h1, -⟩ := C68_map_partial c openOk en ok s hs
  unfold initHardware
  rw [e]
  simp only [Option.bind_some]
  have fin : ∀ s'', Mapped s'' → ∃ t, destroy c true s'' = some t ∧ (∀ k, t.ptr k = .null) ∧
        (∀ q, pinOf c.enable = some q → enabled c t q = false) ∧ ∀ i q, pinOf (c.aux i) = some q → t.level q = false := by
    intro s'' hm
    obtain ⟨s2, e2, m2, w2, u2, -⟩ := reset_run hc s'' hm
    refine ⟨(unmapGpio s2).1, by simp [destroy, e2], (unmap_null s2).1, ?_, ?_⟩
    · intro q hq
      have := w2 q hq
      simp only [enabled, St.level, (unmap_null s2).2] at this ⊢
      exact this
    · intro i q hq
      have := u2 i q hq
      simp only [St.level, (unmap_null s2).2] at this ⊢
      exact this
  cases r with
  | false =>
    refine ⟨false, s1, rfl, ?_, by simp, by simp⟩
    simp only [Bool.false_eq_true, false_iff] at hr ⊢
    tauto
  | true =>
    obtain ⟨m1, -, -⟩ := h1 rfl
    cases pwmOk with
    | false => exact ⟨false, s1, rfl, by simp, by simp, by simp⟩
    | true =>
      obtain ⟨s2, e2, m2, w2, u2, -⟩ := reset_run hc s1 m1
      refine ⟨true, s2, by simp [e2], ?_, fun _ => ⟨m2, w2, u2⟩, fun _ => fin⟩
      tauto

/-- The banks after power up: all pins inputs, all latches 0. The hardware before hardware-mapping.cc 136-194 runs. -/
def powerUp : St := ⟨fun _ => .null, fun _ => ⟨BitVec.allOnes 32, 0, 0⟩⟩

/-- C68. `map_gpio` makes the enable pin an output before its level is set: after power up the motors of a cape with an active low enable
pin are enabled until `ResetHardware`. If the PWM timers cannot be mapped, `InitializeHardware` fails, but nothing disables the motors
or unmaps the banks, not even the destructor. -/
theorem C68_enabled_at_start : ∃ s' q, initHardware bumps true (some true) (fun _ => true) false powerUp = some (false, s') ∧
    pinOf bumps.enable = some q ∧ s'.isInput q = false ∧ enabled bumps s' q = true ∧
    destroy bumps false s' = some s' ∧ Mapped s' := by
  obtain ⟨r, s1, l, e, hr, -, h1, -⟩ := C68_map_partial bumps true true (fun _ => true) powerUp (fun _ => rfl)
  have hr : r = true := hr.mpr ⟨rfl, rfl, fun _ => rfl⟩
  subst hr
  obtain ⟨m1, lv, d⟩ := h1 rfl
  refine ⟨s1, (1, 28), by simp [initHardware, e], by decide, ?_, ?_, rfl, m1⟩
  · rw [d, if_neg (by decide), if_pos (by decide)]
  · simp only [enabled, lv]
    decide

example : ∀ c ∈ capes, ∃ s', initHardware c true (some true) (fun _ => true) true powerUp = some (true, s') ∧ Mapped s' := by
  intro c hc
  obtain ⟨b, s', h1, h2, h3, -⟩ := C68_start_end (C68_capes c hc) (fun _ => true) true true true powerUp (fun _ => rfl)
  have hb : b = true := h2.mpr ⟨rfl, rfl, fun _ => rfl, rfl⟩
  subst hb
  exact ⟨s', h1, (h3 rfl).1⟩

end BeagleG.Gpio
