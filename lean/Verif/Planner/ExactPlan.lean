import Verif.Planner.Exact
import Mathlib.Data.List.Chain
/-!
# `UpdateMotionProfile` over the whole queue, in exact arithmetic
-/
set_option linter.unusedSectionVars false

namespace BeagleG.Planner

variable {F : Type} [Field F] [LinearOrder F] [IsStrictOrderedRing F] {A : Arith F}

/-- A segment in the planning buffer. -/
def Planned (seg : Segment F) : Prop := Still seg ∨ ∃ n, Sound seg n

/-- A segment between the two passes. -/
def BOk (seg : Segment F) : Prop := Still seg ∨ ∃ n, BPlanned seg n

/-- A segment that can be planned. -/
def Plannable (seg : Segment F) : Prop := Still seg ∨ ∃ n, Good seg.target n ∧ 0 ≤ seg.planned.v0

/-- What holds at the joint of two segments: the exit speed, converted to the defining axis of the next
segment, is at most the speed allowed at the joint, and the next segment does not start faster than
this one ends. -/
def Joint (A : Arith F) (p s : Segment F) : Prop :=
  p.planned.v2 * speedFactorForAxis A p.target s.target.definingAxis ≤ s.target.startSpeed ∧
  s.planned.v0 ≤ p.planned.v2

/-- The planning buffer as a whole. -/
structure Plan (A : Arith F) (buffer : List (Segment F)) : Prop where
  planned : ∀ seg ∈ buffer, Planned seg
  joints : buffer.IsChain (Joint A)
  ends : ∀ seg ∈ buffer.getLast?, seg.planned.v2 = 0

/-- What the backward pass leaves alone. -/
def sig (seg : Segment F) : AxisTarget F × F := (seg.target, seg.planned.v0)

theorem BOk.nonneg {seg : Segment F} (h : BOk seg) :
    0 ≤ seg.planned.v1 ∧ 0 ≤ seg.target.startSpeed ∧ 0 ≤ seg.planned.v2 ∧ 0 ≤ seg.planned.v0 := by
  rcases h with h | ⟨n, h⟩
  · rw [h.v1, h.start, h.v2, h.v0]; simp
  · exact ⟨h.v1.le, h.good.start, h.v2, h.v0⟩

theorem Planned.plannable {seg : Segment F} (h : Planned seg) : Plannable seg := by
  rcases h with h | ⟨n, h⟩
  · exact .inl h
  · exact .inr ⟨n, h.good, h.v0⟩

theorem Planned.v2_nonneg {seg : Segment F} (h : Planned seg) : 0 ≤ seg.planned.v2 := by
  rcases h with h | ⟨n, h⟩
  · rw [h.v2]
  · exact h.v2

theorem decel_still (ex : Exact A) {seg : Segment F} (h : Still seg) (next : Option (Segment F)) :
    decelerationPlan A seg next = (seg.planned, true) := by
  unfold decelerationPlan
  simp only [h.speed, ex.zero, ex.eq, decide_true, if_true]

theorem backward_spec (ex : Exact A) : ∀ (l done : List (Segment F)), (∀ s ∈ l, Plannable s) →
    (∀ s ∈ done, BOk s) → done.IsChain (Fits A) →
    ∃ x y, l = x ++ (backwardPass A l done).1 ∧ (backwardPass A l done).2 = y ++ done ∧
      y.map sig = x.reverse.map sig ∧ (∀ s ∈ (backwardPass A l done).2, BOk s) ∧
      (backwardPass A l done).2.IsChain (Fits A) ∧
      (l ≠ [] → done = [] → x ≠ [] ∧ ∀ s ∈ (backwardPass A l done).2.getLast?, s.planned.v2 = 0) := by
  intro l
  induction l with
  | nil =>
    intro done _ h2 h3
    exact ⟨[], [], rfl, rfl, rfl, h2, h3, by simp⟩
  | cons seg l ih =>
    intro done h1 h2 h3
    have hn : ∀ s, done.head? = some s → 0 ≤ s.planned.v1 ∧ 0 ≤ s.target.startSpeed := by
      intro s hs
      have := (h2 s (List.mem_of_mem_head? hs)).nonneg
      exact ⟨this.1, this.2.1⟩
    -- one planned segment in front of `done`
    have go : ∀ p : Profile F, decelerationPlan A seg done.head? = (p, true) →
        BOk { seg with planned := p } → p.v0 = seg.planned.v0 → (done = [] → p.v2 = 0) →
        (∀ s, done.head? = some s → Fits A { seg with planned := p } s) →
        ∃ x y, seg :: l = x ++ (backwardPass A (seg :: l) done).1 ∧
          (backwardPass A (seg :: l) done).2 = y ++ done ∧ y.map sig = x.reverse.map sig ∧
          (∀ s ∈ (backwardPass A (seg :: l) done).2, BOk s) ∧
          (backwardPass A (seg :: l) done).2.IsChain (Fits A) ∧
          (seg :: l ≠ [] → done = [] → x ≠ [] ∧
            ∀ s ∈ (backwardPass A (seg :: l) done).2.getLast?, s.planned.v2 = 0) := by
      intro p hp hb hv0 hl hf
      have e : backwardPass A (seg :: l) done = backwardPass A l ({ seg with planned := p } :: done) := by
        simp only [backwardPass, hp]
      rw [e]
      obtain ⟨x, y, e1, e2, e3, e4, e5, -⟩ := ih ({ seg with planned := p } :: done)
        (fun s hs => h1 s (List.mem_cons_of_mem _ hs))
        (by intro s hs; rcases List.mem_cons.1 hs with h | h
            · subst h; exact hb
            · exact h2 s h)
        (List.isChain_cons.2 ⟨hf, h3⟩)
      refine ⟨seg :: x, y ++ [{ seg with planned := p }], ?_, ?_, ?_, e4, e5, ?_⟩
      · rw [List.cons_append, ← e1]
      · rw [e2]; simp
      · simp only [List.map_append, e3, List.reverse_cons, List.map_cons, List.map_nil]
        simp [sig, hv0]
      · intro _ hd
        refine ⟨by simp, ?_⟩
        intro s hs
        rw [e2, hd] at hs
        simp at hs
        rw [← hs]
        exact hl hd
    rcases h1 seg List.mem_cons_self with hst | ⟨n, hg, hv0⟩
    · refine go seg.planned (decel_still ex hst _) (.inl hst) rfl (fun _ => hst.v2) ?_
      intro s hs
      have h0 : Fits A seg s := by
        unfold Fits
        rw [hst.v2]
        simp [hn s hs]
      exact h0
    · obtain ⟨d1, d2⟩ := decel_spec ex hg hv0 done.head? hn
      cases hd : (decelerationPlan A seg done.head?).2
      · have hnz := (d1 hd).1
        have e : backwardPass A (seg :: l) done = (seg :: l, done) := by
          simp only [backwardPass]
          cases hp : decelerationPlan A seg done.head? with
          | mk p b => rw [hp] at hd; simp only at hd; subst hd; rfl
        rw [e]
        refine ⟨[], [], rfl, rfl, rfl, h2, h3, ?_⟩
        intro _ hz
        rw [hz] at hnz
        simp at hnz
      · obtain ⟨b1, b2, b3, b4⟩ := d2 hd
        refine go (decelerationPlan A seg done.head?).1 (by rw [← hd]) (.inr ⟨n, b1⟩) b2 ?_ b4
        intro hz
        exact b3 (by rw [hz]; rfl)

theorem accel_still (ex : Exact A) {seg : Segment F} (h : Still seg) (prev : Option (Segment F)) :
    (accelerationPlan A prev seg).1 = seg.planned := by
  rw [accelerationPlan_eq]
  have hf : speedFactorForAxis A seg.target seg.target.definingAxis = 0 := by
    unfold speedFactorForAxis
    rw [if_pos (h.delta _), ex.zero]
  unfold accelBody
  simp only [hf, h.v1, ex.zero, ex.eq, decide_true, if_true]
  have := h.v0
  have h1 := h.v1
  cases hp : seg.planned
  rw [hp] at this h1
  simp only at this h1
  rw [this, h1]

theorem forward_spec (ex : Exact A) : ∀ (l : List (Segment F)) (prev : Option (Segment F)) (i : Nat),
    (∀ s ∈ l, BOk s) → l.IsChain (Fits A) → (∀ p, prev = some p → 0 ≤ p.planned.v2) →
    (∀ s ∈ (forwardPass A prev i l).1, Planned s) ∧
    (forwardPass A prev i l).1.IsChain (Joint A) ∧
    (∀ s ∈ l.getLast?, s.planned.v2 = 0 → ∀ t ∈ (forwardPass A prev i l).1.getLast?, t.planned.v2 = 0) ∧
    (∀ s ∈ l.head?, ∀ t ∈ (forwardPass A prev i l).1.head?, t.target = s.target ∧
      t.planned.v0 ≤ startOf prev s) ∧
    (∀ j, (forwardPass A prev i l).2 = some j → i ≤ j ∧ j < i + l.length) := by
  intro l
  induction l with
  | nil => intro prev i _ _ _; simp [forwardPass]
  | cons seg l ih =>
    intro prev i h1 h2 h3
    have hb := h1 seg List.mem_cons_self
    have hs0 : 0 ≤ startOf prev seg := by
      cases prev with
      | none => exact hb.nonneg.2.2.2
      | some p => exact h3 p rfl
    have hone : Planned { seg with planned := (accelerationPlan A prev seg).1 } ∧
        (accelerationPlan A prev seg).1.v0 ≤ startOf prev seg ∧
        (accelerationPlan A prev seg).1.v2 ≤ seg.planned.v2 := by
      rcases hb with hst | ⟨n, hb⟩
      · rw [accel_still ex hst]
        exact ⟨.inl hst, by rw [hst.v0]; exact hs0, le_refl _⟩
      · obtain ⟨g1, g2, g3, -⟩ := accel_spec ex hb prev hs0
        exact ⟨.inr ⟨n, g1⟩, g2, g3⟩
    obtain ⟨q1, q2, q3⟩ := hone
    simp only [forwardPass]
    generalize hseg' : ({ seg with planned := (accelerationPlan A prev seg).1 } : Segment F) = seg' at *
    have hv2' : seg'.planned.v2 ≤ seg.planned.v2 := by rw [← hseg']; exact q3
    have htg : seg'.target = seg.target := by rw [← hseg']
    obtain ⟨i1, i2, i3, i4, i5⟩ := ih (some seg') (i + 1) (fun s hs => h1 s (List.mem_cons_of_mem _ hs))
      (List.isChain_cons.1 h2).2 (by intro p hp; injection hp with hp; rw [← hp]; exact q1.v2_nonneg)
    refine ⟨?_, ?_, ?_, ?_, ?_⟩
    · intro s hs
      rcases List.mem_cons.1 hs with h | h
      · rw [h]; exact q1
      · exact i1 s h
    · refine List.isChain_cons.2 ⟨?_, i2⟩
      intro t ht
      cases l with
      | nil => simp [forwardPass] at ht
      | cons s l =>
        obtain ⟨k1, k2⟩ := i4 s rfl t ht
        have hf := (List.isChain_cons.1 h2).1 s rfl
        refine ⟨?_, k2⟩
        rw [k1, htg]
        exact (mul_le_mul_of_nonneg_right hv2' (factor_nonneg ex _ _)).trans hf.1
    · cases l with
      | nil =>
        intro s hs hz t ht
        simp at hs
        simp [forwardPass] at ht
        rw [← ht]
        rw [← hs] at hz
        exact le_antisymm (hv2'.trans hz.le) q1.v2_nonneg
      | cons s l =>
        intro s' hs hz t ht
        rw [List.getLast?_cons_cons] at hs
        refine i3 s' hs hz t ?_
        simp only [forwardPass] at ht ⊢
        rwa [List.getLast?_cons_cons] at ht
    · intro s hs t ht
      simp at hs ht
      rw [← hs, ← ht]
      refine ⟨htg, ?_⟩
      rw [← hseg']
      exact q2
    · intro j hj
      split at hj
      · injection hj with hj; subst hj; simp
      · have := i5 j hj
        simp only [List.length_cons]
        omega

/-- Planning: from a plannable queue whose old part is planned to a planned queue. -/
theorem update_plan (ex : Exact A) (old : List (Segment F)) (new : Segment F) (ready : Nat)
    (hp : ∀ s ∈ old, Planned s) (hn : Plannable new) (hj : (old ++ [new]).IsChain (Joint A))
    (hr : ready ≤ old.length) :
    Plan A (updateMotionProfile A (old ++ [new]) ready).1 ∧
    (updateMotionProfile A (old ++ [new]) ready).2 < (old ++ [new]).length := by
  have hdrop : (old ++ [new]).drop ready = old.drop ready ++ [new] := by
    rw [List.drop_append_of_le_length hr]
  have htake : (old ++ [new]).take ready = old.take ready := by
    rw [List.take_append_of_le_length hr]
  unfold updateMotionProfile
  simp only [hdrop, htake]
  obtain ⟨x, y, e1, e2, e3, e4, e5, e6⟩ := backward_spec ex (old.drop ready ++ [new]).reverse []
    (by
      intro s hs
      simp only [List.mem_reverse, List.mem_append, List.mem_singleton] at hs
      rcases hs with hs | hs
      · exact (hp s (List.mem_of_mem_drop hs)).plannable
      · rw [hs]; exact hn) (by simp) (by simp)
  obtain ⟨hx, hlast⟩ := e6 (by simp) rfl
  generalize backwardPass A (old.drop ready ++ [new]).reverse [] = b at *
  rw [List.append_nil] at e2
  -- the kept part is old
  have hkeep : b.1.reverse ++ x.reverse = old.drop ready ++ [new] := by
    rw [← List.reverse_append, ← e1, List.reverse_reverse]
  have hkold : ∀ s ∈ b.1, s ∈ old := by
    intro s hs
    have : b.1.reverse <+: old.drop ready := by
      have h1 : b.1.reverse <+: old.drop ready ++ [new] := ⟨_, hkeep⟩
      rcases List.prefix_concat_iff.1 h1 with h | h
      · rw [h] at hkeep
        have := congrArg List.length hkeep
        simp at this
        exact absurd this hx
      · exact h
    exact List.mem_of_mem_drop (this.subset (List.mem_reverse.2 hs))
  obtain ⟨f1, f2, f3, f4, f5⟩ := forward_spec ex b.2 none (old.take ready ++ b.1.reverse).length e4 e5
    (by simp)
  have hlen : b.2.length = x.length := by
    have := congrArg List.length e3
    simp only [List.length_map, List.length_reverse] at this
    rw [e2]; exact this
  have hb2 : b.2 ≠ [] := by
    intro h; rw [h] at hlen; simp at hlen; exact hx (List.length_eq_zero_iff.1 hlen.symm)
  have hfl : (forwardPass A none (old.take ready ++ b.1.reverse).length b.2).1.length = b.2.length := by
    have := congrArg List.length (forwardPass_target A b.2 none (old.take ready ++ b.1.reverse).length)
    simpa using this
  have hall : old.take ready ++ b.1.reverse ++ x.reverse = old ++ [new] := by
    rw [List.append_assoc, hkeep, ← List.append_assoc, List.take_append_drop]
  generalize hf : forwardPass A none (old.take ready ++ b.1.reverse).length b.2 = f at *
  have hf1 : f.1 ≠ [] := by intro h; rw [h] at hfl; simp at hfl; exact hb2 (List.length_eq_zero_iff.1 hfl.symm)
  constructor
  · refine ⟨?_, ?_, ?_⟩
    · intro s hs
      simp only [List.mem_append, List.mem_reverse] at hs
      rcases hs with (hs | hs) | hs
      · exact hp s (List.mem_of_mem_take hs)
      · exact hp s (hkold s hs)
      · exact f1 s hs
    · rw [← hall] at hj
      obtain ⟨j1, j2, j3⟩ := List.isChain_append.1 hj
      refine List.isChain_append.2 ⟨j1, f2, ?_⟩
      intro p hp' t ht
      obtain ⟨s, hs⟩ : ∃ s, b.2.head? = some s := by
        cases h : b.2 with
        | nil => exact absurd h hb2
        | cons s l => exact ⟨s, rfl⟩
      obtain ⟨o, ho⟩ : ∃ o, x.reverse.head? = some o := by
        cases h : x.reverse with
        | nil => simp at h; exact absurd h hx
        | cons s l => exact ⟨s, rfl⟩
      have hso : sig s = sig o := by
        have := congrArg List.head? e3
        rw [List.head?_map, List.head?_map, ← e2, hs, ho] at this
        simpa using this
      simp only [sig, Prod.mk.injEq] at hso
      obtain ⟨g1, g2⟩ := f4 s hs t ht
      obtain ⟨g3, g4⟩ := j3 p hp' o ho
      refine ⟨?_, ?_⟩
      · rw [g1, hso.1]; exact g3
      · refine g2.trans ?_
        show s.planned.v0 ≤ _
        rw [hso.2]; exact g4
    · intro s hs
      rw [List.getLast?_append_of_ne_nil _ hf1] at hs
      obtain ⟨s', hs'⟩ : ∃ s', b.2.getLast? = some s' := by
        rw [List.getLast?_eq_some_getLast hb2]; exact ⟨_, rfl⟩
      exact f3 s' hs' (hlast s' hs') s hs
  · have hlen2 := congrArg List.length hall
    simp only [List.length_append, List.length_reverse, List.length_singleton] at hlen2 ⊢
    cases hj2 : f.2 with
    | none => simp; omega
    | some j =>
      have := f5 j hj2
      simp only [List.length_append, List.length_reverse] at this
      simp
      omega

end BeagleG.Planner
