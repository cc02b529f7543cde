import Verif.Hardware.AuxProps
/-!
# C41: debounced switches
-/
namespace BeagleG.Hardware

variable {F : Type}

/-- What the loop has used: the samples before the rest end with `2 - n` equal samples. -/
theorem debounce_spec : ∀ (l : List Bool) (state : Bool) (n : Nat) (r : Bool) (rest : List Bool),
    n < 2 → debounce state n l = some (r, rest) →
    ∃ pre, l = pre ++ rest ∧ ∃ u, List.replicate (n + 1) state ++ pre = u ++ [r, r, r] := by
  intro l
  induction l with
  | nil => intro s n r rest _ h; simp [debounce] at h
  | cons x xs ih =>
    intro s n r rest hn h
    unfold debounce at h
    by_cases hx : x = s
    · rw [if_pos hx] at h
      subst hx
      by_cases h2 : n + 1 = 2
      · rw [if_pos h2] at h
        injection h with h
        injection h with h3 h4
        subst h3 h4
        have : n = 1 := by omega
        subst this
        exact ⟨[x], rfl, [], rfl⟩
      · rw [if_neg h2] at h
        obtain ⟨pre, e, u, hu⟩ := ih x (n + 1) r rest (by omega) h
        refine ⟨x :: pre, by rw [e]; rfl, u, ?_⟩
        rw [← hu]
        rw [List.replicate_succ' (n := n + 1), List.append_assoc]
        rfl
    · rw [if_neg hx] at h
      obtain ⟨pre, e, u, hu⟩ := ih x 0 r rest (by omega) h
      refine ⟨x :: pre, by rw [e]; rfl, List.replicate (n + 1) s ++ u, ?_⟩
      have : [x] ++ pre = u ++ [r, r, r] := hu
      rw [List.append_assoc, ← this]
      rfl

/-- C41. A test of a mapped switch on initialised hardware that answers `r` has read at least three
samples, and the last three were equal: the trigger level if `r` is true, the other one if not. -/
theorem C41_debounced (c : Cape) (h : Hw F) (n : Nat) (dflt : Bool) (samples rest : List Bool)
    (r : Bool) (hi : h.initialized = true) (hn : n - 1 < 9) (hp : c.switchPin n ≠ 0)
    (ht : testSwitch c h n dflt samples = some (r, rest)) :
    ∃ before v, samples = before ++ [v, v, v] ++ rest ∧
      (r = true ↔ v = h.triggerLevel ⟨n - 1, hn⟩) := by
  unfold testSwitch at ht
  simp only [hi, Bool.not_true, Bool.false_eq_true, if_false, hp] at ht
  cases samples with
  | nil => simp at ht
  | cons x xs =>
    simp only at ht
    cases hd : debounce x 0 xs with
    | none => rw [hd] at ht; simp at ht
    | some p =>
      obtain ⟨state, rest'⟩ := p
      rw [hd] at ht
      simp only [hn, dif_pos, Option.some.injEq, Prod.mk.injEq] at ht
      obtain ⟨h1, h2⟩ := ht
      subst h2
      obtain ⟨pre, e, u, hu⟩ := debounce_spec xs x 0 state rest' (by omega) hd
      refine ⟨u, state, ?_, ?_⟩
      · rw [e, ← hu]; rfl
      · rw [← h1]; simp

/-- C41. A stable input is recognised after three samples, whatever was seen before is not needed:
the test does not wait longer than necessary. -/
theorem C41_stable (c : Cape) (h : Hw F) (n : Nat) (dflt v : Bool) (rest : List Bool)
    (hi : h.initialized = true) (hn : n - 1 < 9) (hp : c.switchPin n ≠ 0) :
    testSwitch c h n dflt (v :: v :: v :: rest) =
      some (decide (v = h.triggerLevel ⟨n - 1, hn⟩), rest) := by
  unfold testSwitch
  simp only [hi, Bool.not_true, Bool.false_eq_true, if_false, hp, debounce, if_true]
  simp only [hn, dif_pos]
  cases v <;> cases h.triggerLevel ⟨n - 1, hn⟩ <;> rfl

/-- C41. A switch that is not mapped, or hardware that is not initialised, gives the default without
looking at any pin. -/
theorem C41_unmapped (c : Cape) (h : Hw F) (n : Nat) (dflt : Bool) (samples : List Bool)
    (hu : h.initialized = false ∨ c.switchPin n = 0) :
    testSwitch c h n dflt samples = some (dflt, samples) := by
  unfold testSwitch
  rcases hu with hu | hu
  · simp [hu]
  · cases h.initialized <;> simp [hu]

/-- Switch 0 ("none configured") is never mapped. -/
theorem C41_no_switch (c : Cape) : c.switchPin 0 = 0 := by
  unfold Cape.switchPin
  simp

/-- The loop can wait for ever only if the input never shows three equal samples in a row. -/
theorem C41_waits (c : Cape) (h : Hw F) (n : Nat) (dflt : Bool) (samples : List Bool)
    (ht : testSwitch c h n dflt samples = none) :
    ¬ ∃ before v after, samples = before ++ [v, v, v] ++ after := by
  have key : ∀ (l : List Bool) (s : Bool) (k : Nat), k < 2 → debounce s k l = none →
      ¬ ∃ before v after, List.replicate (k + 1) s ++ l = before ++ [v, v, v] ++ after := by
    intro l
    induction l with
    | nil =>
      intro s k hk _
      rintro ⟨b, v, a, e⟩
      have := congrArg List.length e
      simp at this
      omega
    | cons x xs ih =>
      intro s k hk hd
      unfold debounce at hd
      by_cases hx : x = s
      · rw [if_pos hx] at hd
        subst hx
        by_cases h2 : k + 1 = 2
        · rw [if_pos h2] at hd; simp at hd
        · rw [if_neg h2] at hd
          have := ih x (k + 1) (by omega) hd
          rw [List.replicate_succ' (n := k + 1), List.append_assoc] at this
          exact this
      · rw [if_neg hx] at hd
        have ih' := ih x 0 (by omega) hd
        rintro ⟨b, v, a, e⟩
        apply ih'
        have hkl : k = 0 ∨ k = 1 := by omega
        rcases hkl with hk | hk
        · subst hk
          rcases b with _ | ⟨b0, b⟩
          · simp only [List.replicate, List.cons_append, List.nil_append, List.cons.injEq] at e
            exact absurd (e.2.1.trans e.1.symm) hx
          · simp only [List.replicate, List.cons_append, List.nil_append, List.cons.injEq] at e
            exact ⟨b, v, a, by simpa using e.2⟩
        · subst hk
          rcases b with _ | ⟨b0, b⟩
          · simp only [List.replicate, List.cons_append, List.nil_append, List.cons.injEq] at e
            exact absurd (e.2.2.1.trans e.1.symm) hx
          · rcases b with _ | ⟨b1, b⟩
            · simp only [List.replicate, List.cons_append, List.nil_append, List.cons.injEq] at e
              exact absurd (e.2.2.1.trans e.2.1.symm) hx
            · simp only [List.replicate, List.cons_append, List.nil_append, List.cons.injEq] at e
              exact ⟨b, v, a, by simpa using e.2.2⟩
  unfold testSwitch at ht
  by_cases h1 : (!h.initialized) = true
  · rw [if_pos h1] at ht; simp at ht
  · rw [if_neg h1] at ht
    by_cases h2 : c.switchPin n = 0
    · rw [if_pos h2] at ht; simp at ht
    · rw [if_neg h2] at ht
      cases samples with
      | nil => rintro ⟨b, v, a, e⟩; have := congrArg List.length e; simp at this
      | cons x xs =>
        simp only at ht
        cases hd : debounce x 0 xs with
        | none => exact key xs x 0 (by omega) hd
        | some p => rw [hd] at ht; simp at ht

/-- The hardware with switch 1 active high. -/
def exSwitch : Hw Nat :=
  { Hw.blank Nat with initialized := true, triggerLevel := fun i => i = 0 }

/-- A bouncing contact: false false true false true true true. -/
example : testSwitch cramps exSwitch 1 false [false, false, true, false, true, true, true, false] =
    some (true, [false]) := by decide

end BeagleG.Hardware
