import Verif.MotorOps.StatusSpec
import Verif.MotorOps.Lemmas
/-!
# Helper lemmas for C27
-/
namespace BeagleG.MotorOps

open StepGen (Motor MotionSegment)

/-- The shadow queue mirrors the newest items. -/
structure Tracks (shadow : List HistorySegment) (items : List Item) : Prop where
  ne : shadow ≠ []
  len : shadow.length ≤ items.length + 1
  pos : ∀ j (hj : j < shadow.length) i, (shadow[j].pos i).position = posAfter (items.drop j) i
  enc : ∀ j (hj : j < shadow.length) (hj' : j < items.length), 0 < items[j].D → ∀ i,
    (shadow[j].pos i).fraction = (items[j].steps i).natAbs * maxFraction / items[j].D ∧
    (shadow[j].pos i).sign = if items[j].steps i < 0 then -1 else 1
  aux : ∀ j (hj : j < shadow.length) (hj' : j < items.length), shadow[j].aux = items[j].aux

theorem tracks_init : Tracks [HistorySegment.default] [] := by
  refine ⟨by simp, by simp, ?_, ?_, ?_⟩
  · intro j hj i
    have : j = 0 := by simpa using hj
    subst this
    rfl
  · intro j hj hj'; simp at hj'
  · intro j hj hj'; simp at hj'

theorem tracks_push {last : HistorySegment} {rest : List HistorySegment} {items : List Item}
    (h : Tracks (last :: rest) items) (new : HistorySegment) (it : Item)
    (hpos : ∀ i, (new.pos i).position = (last.pos i).position + it.steps i)
    (henc : 0 < it.D → ∀ i, (new.pos i).fraction = (it.steps i).natAbs * maxFraction / it.D ∧
      (new.pos i).sign = if it.steps i < 0 then -1 else 1)
    (haux : new.aux = it.aux) :
    Tracks (new :: last :: rest) (it :: items) := by
  refine ⟨by simp, ?_, ?_, ?_, ?_⟩
  · have := h.len; simp at this ⊢; omega
  · intro j hj i
    cases j with
    | zero =>
      have := h.pos 0 (by simp) i
      simp only [List.getElem_cons_zero, List.drop_zero] at this ⊢
      rw [hpos i, this]
      simp [posAfter]; omega
    | succ j =>
      have := h.pos j (by simpa using hj) i
      simpa using this
  · intro j hj hj'
    cases j with
    | zero => simpa using henc
    | succ j =>
      have := h.enc j (by simpa using hj) (by simpa using hj')
      simpa using this
  · intro j hj hj'
    cases j with
    | zero => simpa using haux
    | succ j =>
      have := h.aux j (by simpa using hj) (by simpa using hj')
      simpa using this

theorem resize_eq_take (l : List HistorySegment) (m : Nat) (h : m ≤ l.length) :
    resize l m = l.take m := by
  unfold resize
  rw [Nat.sub_eq_zero_of_le h]; simp

theorem tracks_take {sh : List HistorySegment} {items : List Item} (h : Tracks sh items) (m : Nat)
    (h1 : 1 ≤ m) (h2 : m ≤ sh.length) : Tracks (sh.take m) items := by
  refine ⟨?_, ?_, ?_, ?_, ?_⟩
  · intro hc
    have := congrArg List.length hc
    rw [List.length_take, List.length_nil] at this
    omega
  · have := h.len; simp; omega
  · intro j hj i
    have hj2 : j < sh.length := by simp at hj; omega
    rw [List.getElem_take]
    exact h.pos j hj2 i
  · intro j hj hj'
    have hj2 : j < sh.length := by simp at hj; omega
    rw [List.getElem_take]
    exact h.enc j hj2 hj'
  · intro j hj hj'
    have hj2 : j < sh.length := by simp at hj; omega
    rw [List.getElem_take]
    exact h.aux j hj2 hj'

/-- The whole invariant: the shadow queue is never shorter than the pending elements. -/
structure StatusInv (s : State Pend) (items : List Item) : Prop where
  tracks : Tracks s.shadow items
  count : s.backend.count ≤ s.shadow.length

theorem shrink_inv {s : State Pend} {items : List Item} (h : StatusInv s items) :
    StatusInv (shrink tracker s) items ∧
    (shrink tracker s).shadow.length = max s.backend.count 1 ∧
    (shrink tracker s).backend = s.backend := by
  have hne : 1 ≤ s.shadow.length := by
    have := h.tracks.ne
    cases hs : s.shadow with
    | nil => exact absurd hs this
    | cons a b => simp
  have hc := h.count
  have e : (if s.backend.count > 0 then s.backend.count else 1) = max s.backend.count 1 := by
    split <;> omega
  have e2 : (shrink tracker s).shadow = s.shadow.take (max s.backend.count 1) := by
    show resize s.shadow (if s.backend.count > 0 then s.backend.count else 1) = _
    rw [e, resize_eq_take _ _ (by omega)]
  refine ⟨⟨?_, ?_⟩, ?_, rfl⟩
  · rw [e2]; exact tracks_take h.tracks _ (by omega) (by omega)
  · show s.backend.count ≤ _
    rw [e2]; simp; omega
  · rw [e2]; simp; omega

/-- Fraction stored in the history: the truncation to 32 bit has no effect. -/
theorem frac_notrunc (steps : Motor → Int) (h0 : 0 < definingAxisSteps steps) (i : Motor) :
    (steps i).natAbs * maxFraction / definingAxisSteps steps % 2 ^ 32 =
      (steps i).natAbs * maxFraction / definingAxisSteps steps := by
  have := StepGen.frac_bounds _ _ h0 (le_defining steps i) _ rfl
  have e : maxFraction = 2 ^ 31 - 1 := by decide
  rw [e, Nat.mod_eq_of_lt]
  omega

theorem nextHistory_tracks {last : HistorySegment} {rest : List HistorySegment} {items : List Item}
    (h : Tracks (last :: rest) items) (seg : LinearSegment)
    (h0 : 0 < definingAxisSteps seg.steps) :
    Tracks (nextHistory last seg (definingAxisSteps seg.steps) :: last :: rest)
      (⟨seg.steps, definingAxisSteps seg.steps, seg.aux⟩ :: items) := by
  apply tracks_push h
  · intro i; rfl
  · intro _ i
    exact ⟨frac_notrunc seg.steps h0 i, rfl⟩
  · rfl

/-- The splitting loop on an accepting backend pushes one item per part. -/
theorem splitLoop_tracks (flip : Motor → Bool) (timing : Nat → Timing) (seg : LinearSegment)
    (hD : 32767 < definingAxisSteps seg.steps) (hD2 : definingAxisSteps seg.steps < 2 ^ 31) :
    ∀ (n d : Nat) (s : State Pend) (items : List Item) (ret : Bool), StatusInv s items →
      ∃ s' ret', splitLoop tracker flip seg.aux timing
          (fun i => hiresStepsPerDiv (seg.steps i) (divisions (definingAxisSteps seg.steps))) n d
          (fun i => hiresStepsPerDiv (seg.steps i) (divisions (definingAxisSteps seg.steps)) * d)
          (fun i => hiresStepsPerDiv (seg.steps i) (divisions (definingAxisSteps seg.steps)) * d
            / 2 ^ 32) s ret = some (s', ret') ∧
        StatusInv s' (((List.range n).map (fun j =>
          (⟨(partSegment seg (definingAxisSteps seg.steps) (d + j)).steps,
            definingAxisSteps (partSegment seg (definingAxisSteps seg.steps) (d + j)).steps,
            seg.aux⟩ : Item))).reverse ++ items) := by
  intro n
  induction n with
  | zero =>
    intro d s items ret h
    exact ⟨s, ret, by simp [splitLoop], by simpa using h⟩
  | succ n ih =>
    intro d s items ret h
    obtain ⟨last, rest, hsh⟩ : ∃ last rest, s.shadow = last :: rest := by
      cases h' : s.shadow with
      | nil => exact absurd h' h.tracks.ne
      | cons a b => exact ⟨a, b, rfl⟩
    generalize hDD : definingAxisSteps seg.steps = D at *
    have hmul : ∀ i, hiresStepsPerDiv (seg.steps i) (divisions D) * d +
        hiresStepsPerDiv (seg.steps i) (divisions D) =
        hiresStepsPerDiv (seg.steps i) (divisions D) * ((d + 1 : Nat) : Int) := by
      intro i; push_cast; ring
    have hst : (fun i => hiresStepsPerDiv (seg.steps i) (divisions D) * ((d + 1 : Nat) : Int) / 2 ^ 32 -
        hiresStepsPerDiv (seg.steps i) (divisions D) * d / 2 ^ 32) =
        (partSegment seg D d).steps := by
      unfold partSegment part; simp
    rw [splitLoop]
    simp only [hmul, hst]
    unfold enqueueInternal
    simp only [hsh, tracker]
    obtain ⟨p0, -⟩ := partSegment_defining seg d (by rw [hDD]; exact hD) (by rw [hDD]; exact hD2)
    rw [hDD] at p0
    have h' := h.tracks
    rw [hsh] at h'
    have ht := nextHistory_tracks h' (partSegment seg D d) p0
    have hc := h.count
    rw [hsh] at hc
    obtain ⟨s', ret', h1, h2⟩ := ih (d + 1)
      ⟨{ s.backend with count := s.backend.count + 1 },
        nextHistory last (partSegment seg D d) (definingAxisSteps (partSegment seg D d).steps)
          :: last :: rest⟩ _ true ⟨ht, by simp at hc ⊢; omega⟩
    refine ⟨s', ret', h1, ?_⟩
    rw [List.range_succ_eq_map]
    have e : (fun j => (⟨(partSegment seg D (d + 1 + j)).steps,
          definingAxisSteps (partSegment seg D (d + 1 + j)).steps, seg.aux⟩ : Item)) =
        ((fun j => (⟨(partSegment seg D (d + j)).steps,
          definingAxisSteps (partSegment seg D (d + j)).steps, seg.aux⟩ : Item)) ∘ Nat.succ) := by
      funext j
      have : d + 1 + j = d + Nat.succ j := by omega
      simp only [Function.comp, this]
    rw [e] at h2
    have e2 : (partSegment seg D d).aux = seg.aux := rfl
    rw [e2] at h2
    simpa using h2

/-- One request: the items pushed are a break-down of it. -/
theorem enqueue_inv (flip : Motor → Bool) (timing : Nat → Timing) (s : State Pend)
    (items : List Item) (h : StatusInv s items) (seg : LinearSegment)
    (hrange : ∀ i, (seg.steps i).natAbs < 2 ^ 31) :
    ∃ s' ret new, enqueue tracker flip timing s seg = some (s', ret) ∧ Breakdown seg new ∧
      StatusInv s' (new.reverse ++ items) := by
  obtain ⟨last, rest, hsh⟩ : ∃ last rest, s.shadow = last :: rest := by
    cases h' : s.shadow with
    | nil => exact absurd h' h.tracks.ne
    | cons a b => exact ⟨a, b, rfl⟩
  have h' := h.tracks
  rw [hsh] at h'
  have hc := h.count
  rw [hsh] at hc
  by_cases h0 : definingAxisSteps seg.steps = 0
  · have hz : ∀ i, seg.steps i = 0 := by
      intro i; have := le_defining seg.steps i; omega
    have ht : StatusInv ⟨{ s.backend with count := s.backend.count + 1 },
        { last with aux := seg.aux } :: last :: rest⟩ (⟨fun _ => 0, 0, seg.aux⟩ :: items) := by
      refine ⟨tracks_push h' _ _ ?_ ?_ rfl, by simp at hc ⊢; omega⟩
      · intro i; simp
      · intro hh; simp at hh
    refine ⟨shrink tracker ⟨{ s.backend with count := s.backend.count + 1 },
        { last with aux := seg.aux } :: last :: rest⟩, true, [⟨fun _ => 0, 0, seg.aux⟩], ?_, ?_, ?_⟩
    · unfold enqueue
      simp [h0, hsh, tracker]
    · exact ⟨by simp, by intro i; simp [hz i], by simp, by simp⟩
    · exact (shrink_inv ht).1
  · by_cases hbig : definingAxisSteps seg.steps > maxStepsPerSegment
    · have hbig' : 32767 < definingAxisSteps seg.steps := hbig
      have hD2 : definingAxisSteps seg.steps < 2 ^ 31 := by
        obtain ⟨i, hi⟩ := defining_attained seg.steps
        rw [← hi]; exact hrange i
      obtain ⟨n0, n1, -, -⟩ := divisions_bounds _ hbig' hD2
      obtain ⟨s', ret', h1, h2⟩ := splitLoop_tracks flip timing seg hbig' hD2
        (divisions (definingAxisSteps seg.steps)) 0 s items false h
      have hz : (fun i => hiresStepsPerDiv (seg.steps i)
          (divisions (definingAxisSteps seg.steps)) * ((0 : Nat) : Int)) = fun _ => 0 := by
        funext i; simp
      have hz2 : (fun i => hiresStepsPerDiv (seg.steps i)
          (divisions (definingAxisSteps seg.steps)) * ((0 : Nat) : Int) / 2 ^ 32) = fun _ => 0 := by
        funext i; simp
      rw [hz, hz2] at h1
      refine ⟨shrink tracker s', ret', _, ?_, ?_, (shrink_inv h2).1⟩
      · unfold enqueue
        simp only [h0, if_false, hbig, if_true, h1, Option.map_some]
      · refine ⟨?_, ?_, ?_, ?_⟩
        · intro hcontra
          have := congrArg List.length hcontra
          simp at this; omega
        · intro i
          rw [List.map_map]
          have := part_sum (seg.steps i) _ n0 n1
          simpa [Function.comp_def, partSegment] using this
        · intro it hit
          simp only [List.mem_map] at hit
          obtain ⟨j, -, rfl⟩ := hit
          rfl
        · intro it hit
          simp only [List.mem_map] at hit
          obtain ⟨j, -, rfl⟩ := hit
          exact ⟨(partSegment_defining seg (0 + j) hbig' hD2).2, le_defining _⟩
    · have hsmall : definingAxisSteps seg.steps ≤ 32767 := by
        have : maxStepsPerSegment = 32767 := by decide
        omega
      have ht : StatusInv ⟨{ s.backend with count := s.backend.count + 1 },
          nextHistory last seg (definingAxisSteps seg.steps) :: last :: rest⟩
          (⟨seg.steps, definingAxisSteps seg.steps, seg.aux⟩ :: items) :=
        ⟨nextHistory_tracks h' seg (by omega), by simp at hc ⊢; omega⟩
      refine ⟨shrink tracker ⟨{ s.backend with count := s.backend.count + 1 },
          nextHistory last seg (definingAxisSteps seg.steps) :: last :: rest⟩, true,
        [⟨seg.steps, definingAxisSteps seg.steps, seg.aux⟩], ?_, ?_, (shrink_inv ht).1⟩
      · unfold enqueue enqueueInternal
        simp [h0, hbig, hsh, tracker]
      · exact ⟨by simp, by intro i; simp, by simp, by
          intro it hit
          simp only [List.mem_singleton] at hit
          subst hit
          exact ⟨hsmall, le_defining _⟩⟩

theorem posAfter_breakdown {seg : LinearSegment} {new items : List Item} (h : Breakdown seg new)
    (i : Motor) : posAfter (new.reverse ++ items) i = posAfter items i + seg.steps i := by
  have := h.sum i
  simp only [posAfter, List.map_append, List.sum_append, List.map_reverse, List.sum_reverse] at *
  omega

theorem setExternal_inv {s : State Pend} {items : List Item} (h : StatusInv s items)
    (hc : s.backend.count = 0) (axis : Motor) (v : Int) :
    ∃ s' aux, setExternalPosition tracker s axis v = some s' ∧
      StatusInv s' (⟨fun i => if i = axis then v - posAfter items i else 0, 0, aux⟩ :: items) := by
  obtain ⟨last, rest, hsh⟩ : ∃ last rest, s.shadow = last :: rest := by
    cases h' : s.shadow with
    | nil => exact absurd h' h.tracks.ne
    | cons a b => exact ⟨a, b, rfl⟩
  have h' := h.tracks
  rw [hsh] at h'
  refine ⟨_, last.aux, by simp only [setExternalPosition, hsh]; rfl, ?_⟩
  refine (shrink_inv ⟨?_, ?_⟩).1
  · refine tracks_push h' _ _ ?_ ?_ rfl
    · intro i
      have := h'.pos 0 (by simp) i
      simp only [List.getElem_cons_zero, List.drop_zero] at this
      simp only
      split
      · rw [this]; simp only; omega
      · omega
    · intro hh; simp at hh
  · show s.backend.count ≤ _
    omega

theorem runActs_inv (flip : Motor → Bool) (as : List Act) :
    ∀ (s : State Pend) (items : List Item) (s' : State Pend), StatusInv s items →
      (∀ seg, some seg ∈ requests as → ∀ i, (seg.steps i).natAbs < 2 ^ 31) →
      runActs flip s as = some s' →
      ∃ groups, List.Forall₂ Piece (requests as) groups ∧
        StatusInv s' (groups.flatten.reverse ++ items) ∧
        posAfter (groups.flatten.reverse ++ items) = expected (posAfter items) as := by
  induction as with
  | nil =>
    intro s items s' h _ hr
    simp only [runActs, Option.some.injEq] at hr
    subst hr
    exact ⟨[], .nil, by simpa using h, by simp [expected]⟩
  | cons a as ih =>
    intro s items s' h hrange hr
    cases a with
    | enqueue seg timing =>
      obtain ⟨s1, ret, new, h1, h2, h3⟩ := enqueue_inv flip timing s items h seg
        (hrange seg (by simp [requests]))
      simp only [runActs, act, h1, Option.map_some, Option.bind_some] at hr
      obtain ⟨groups, g1, g2, g3⟩ := ih s1 _ s' h3
        (fun sg hsg => hrange sg (by simp [requests, hsg])) hr
      refine ⟨new :: groups, .cons h2 g1, ?_, ?_⟩
      · simpa [List.append_assoc] using g2
      · simp only [expected, List.flatten_cons, List.reverse_append, List.append_assoc]
        rw [g3]
        congr 1
        funext i
        exact posAfter_breakdown h2 i
    | status =>
      simp only [runActs, act, getPhysicalStatus, Option.bind_some] at hr
      exact ih _ items s' (shrink_inv h).1 hrange hr
    | setExternal axis v =>
      simp only [runActs, act] at hr
      split at hr
      · rename_i hc
        obtain ⟨s1, aux, h1, h2⟩ := setExternal_inv h hc axis v
        simp only [h1, Option.bind_some] at hr
        obtain ⟨groups, g1, g2, g3⟩ := ih s1 _ s' h2
          (fun sg hsg => hrange sg (by simp [requests, hsg])) hr
        refine ⟨[⟨fun i => if i = axis then v - posAfter items i else 0, 0, aux⟩] :: groups,
          .cons ⟨_, _, rfl⟩ g1, ?_, ?_⟩
        · simpa [List.append_assoc] using g2
        · simp only [expected, List.flatten_cons, List.singleton_append, List.reverse_cons,
            List.append_assoc]
          rw [g3]
          congr 1
          funext i
          simp only [posAfter, List.map_cons, List.sum_cons]
          split <;> omega
      · simp at hr
    | progress c l =>
      simp only [runActs, act] at hr
      split at hr
      · rename_i hle
        simp only [Option.bind_some] at hr
        exact ih { s with backend := ⟨c, l⟩ } items s'
          ⟨h.tracks, Nat.le_trans hle h.count⟩ hrange hr
      · simp at hr

end BeagleG.MotorOps
