import Verif.RingDeque.Lemmas
/-!
# C01: `RingDeque` behaves like a bounded double-ended queue
-/
namespace BeagleG.RingDeque

variable {α : Type}

/-- **C01.** For every template argument allowed by the `static_assert` and every
sequence of calls: either both the ring and the ideal bounded list reject the
sequence, or both accept it and every observer of the ring answers what the
list answers. -/
theorem C01_refines_bounded_list (cap : Nat) (h1 : 1 < cap) (h2 : cap < 2 ^ 31)
    (ops : List (Op α)) :
    match (Ring.init α).run cap ops, specRun (cap - 1) [] ops with
    | some s, some l =>
        s.size cap = l.length ∧
        s.empty = l.isEmpty ∧
        (∀ i, s.get cap i = if h : i < l.length then some (some l[i]) else none) ∧
        (s.back cap = l.getLast?.map some) ∧
        l.length ≤ capacity cap
    | none, none => True
    | _, _ => False := by
  have h := run_refines h1 h2 ops (Ring.init α) [] (abs_init cap h1)
  cases e1 : (Ring.init α).run cap ops <;> cases e2 : specRun (cap - 1) [] ops <;>
    simp only [e1, e2] at h ⊢
  exact ⟨h.size h1 h2, h.empty h1, h.get h1 h2, h.back h1 h2, h.len⟩

/-- Non-vacuity: a sequence that wraps around the end of a 3-slot ring is accepted
and leaves two elements. -/
example : (specRun 2 [] [.append 1, .append 2, .popFront, .append 3, .popFront, .append 4,
    .assign 0 7] = some [7, 4]) := by decide

/-- **C01, capacity.** Exactly `CAPACITY - 1` elements fit: appending that many to a new
ring succeeds, one more is rejected. -/
theorem C01_capacity_exact (cap : Nat) (h1 : 1 < cap) (h2 : cap < 2 ^ 31) (xs : List α) :
    ((Ring.init α).run cap (xs.map .append)).isSome = true ↔ xs.length ≤ cap - 1 := by
  have key : ∀ (xs l : List α), (l.length ≤ cap - 1) →
      ((specRun (cap - 1) l (xs.map Op.append)).isSome = true ↔ l.length + xs.length ≤ cap - 1) := by
    intro xs
    induction xs with
    | nil => intro l hl; simpa [specRun] using hl
    | cons x xs ih =>
      intro l hl
      simp only [List.map_cons, specRun, specStep]
      by_cases hc : l.length < cap - 1
      · simp only [hc, if_true, Option.bind_some]
        rw [ih _ (by simp; omega)]
        simp; omega
      · simp [hc]; omega
  have h := run_refines h1 h2 (xs.map .append) (Ring.init α) [] (abs_init cap h1)
  have hk := key xs [] (by simp)
  simp only [List.length_nil, Nat.zero_add] at hk
  rw [← hk]
  cases e1 : (Ring.init α).run cap (xs.map Op.append) <;>
    cases e2 : specRun (cap - 1) [] (xs.map Op.append) <;> simp [e1, e2] at h ⊢

end BeagleG.RingDeque
