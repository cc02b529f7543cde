import Verif.Planner.ExactPlan
/-!
# The target of a move, in exact arithmetic
-/
set_option linter.unusedSectionVars false

namespace BeagleG.Planner

variable {F : Type} [Field F] [LinearOrder F] [IsStrictOrderedRing F] {A : Arith F} {cfg : Config F}

/-- The defining axis has the most steps. -/
theorem definingAxis_spec (delta : Axis → Int) :
    (definingAxis delta).1 = ((delta (definingAxis delta).2).natAbs : Int) ∧
    ∀ a, (delta a).natAbs ≤ (delta (definingAxis delta).2).natAbs := by
  have key : ∀ (l : List Axis) (acc : Int × Axis),
      (acc.1 = ((delta acc.2).natAbs : Int) ∨ (acc.1 = -1 ∧ l ≠ [])) →
      let r := l.foldl (fun acc a =>
        if ((delta a).natAbs : Int) > acc.1 then (((delta a).natAbs : Int), a) else acc) acc
      r.1 = ((delta r.2).natAbs : Int) ∧ acc.1 ≤ r.1 ∧ ∀ b ∈ l, ((delta b).natAbs : Int) ≤ r.1 := by
    intro l
    induction l with
    | nil =>
      intro acc h
      rcases h with h | h
      · exact ⟨h, le_refl _, by simp⟩
      · exact absurd rfl h.2
    | cons b l ih =>
      intro acc h
      simp only [List.foldl_cons]
      by_cases hc : ((delta b).natAbs : Int) > acc.1
      · rw [if_pos hc]
        obtain ⟨h1, h2, h3⟩ := ih (((delta b).natAbs : Int), b) (.inl rfl)
        refine ⟨h1, by simp only at h2; omega, ?_⟩
        intro c hc'
        rcases List.mem_cons.1 hc' with e | e
        · subst e; exact h2
        · exact h3 c e
      · rw [if_neg hc]
        have h' : acc.1 = ((delta acc.2).natAbs : Int) := by
          rcases h with h | h
          · exact h
          · omega
        obtain ⟨h1, h2, h3⟩ := ih acc (.inl h')
        refine ⟨h1, h2, ?_⟩
        intro c hc'
        rcases List.mem_cons.1 hc' with e | e
        · subst e; omega
        · exact h3 c e
  obtain ⟨h1, -, h3⟩ := key (List.finRange 10) (-1, 0) (.inr ⟨rfl, by simp [List.finRange_succ]⟩)
  refine ⟨h1, fun a => ?_⟩
  have := h3 a (List.mem_finRange a)
  unfold definingAxis
  omega

/-- A configuration whose numbers make sense. Axes that the machine does not have have no steps. -/
structure Config.Positive (cfg : Config F) : Prop where
  spm : ∀ a, 0 ≤ cfg.stepsPerMm a
  feed : ∀ a, 0 < cfg.stepsPerMm a → 0 < cfg.maxFeedrate a
  accel : ∀ a, 0 < cfg.stepsPerMm a → 0 < cfg.acceleration a

/-- A product with the resolution is not negative. -/
theorem mul_spm_nonneg {x s : F} (hs : 0 ≤ s) (h : 0 < s → 0 < x) : 0 ≤ x * s := by
  rcases hs.lt_or_eq with h0 | h0
  · exact (mul_pos (h h0) h0).le
  · rw [← h0, mul_zero]

/-- `clamp_defining_axis_limit`: positive, and no axis exceeds its limit. -/
theorem clamp_spec (ex : Exact A) (steps : Axis → Int) (limits : Axis → F) (d : Axis) (spm : Axis → F)
    (hs : ∀ a, steps a ≠ 0 → 0 < spm a) (hl : ∀ a, steps a ≠ 0 → 0 < limits a) (hls : ∀ a, 0 ≤ limits a * spm a)
    (hd : steps d ≠ 0) :
    0 < clampDefiningAxisLimit A steps limits d spm ∧
    ∀ a, clampDefiningAxisLimit A steps limits d spm * |(steps a : F)| ≤
      limits a * spm a * |(steps d : F)| := by
  have hdF : (0 : F) < |(steps d : F)| := abs_pos.2 (by exact_mod_cast hd)
  have key : ∀ (l : List Axis) (acc : F), 0 < acc →
      let r := l.foldl (fun acc i =>
        if steps i = 0 then acc
        else
          let ratio := A.toFloat (A.abs (A.div
            (A.mul (A.mul (A.ofInt 1) (A.ofInt (steps i))) (spm d))
            (A.mul (A.ofInt (steps d)) (spm i))))
          A.min acc (A.div (limits i) ratio)) acc
      0 < r ∧ r ≤ acc ∧ ∀ a ∈ l, r * spm d * |(steps a : F)| ≤ limits a * spm a * |(steps d : F)| := by
    intro l
    induction l with
    | nil => intro acc h; exact ⟨h, le_refl _, by simp⟩
    | cons i l ih =>
      intro acc hacc
      simp only [List.foldl_cons]
      by_cases hi : steps i = 0
      · rw [if_pos hi]
        obtain ⟨h1, h2, h3⟩ := ih acc hacc
        refine ⟨h1, h2, ?_⟩
        intro a ha
        rcases List.mem_cons.1 ha with e | e
        · subst e
          rw [hi]
          simp only [Int.cast_zero, abs_zero, mul_zero]
          exact mul_nonneg (hls a) (abs_nonneg _)
        · exact h3 a e
      · rw [if_neg hi]
        simp only [ex.toFloat, ex.abs, ex.div, ex.mul, ex.ofInt, ex.min, Int.cast_one, one_mul] at ih ⊢
        have hiF : (0 : F) < |(steps i : F)| := abs_pos.2 (by exact_mod_cast hi)
        have hr : |(steps i : F) * spm d / ((steps d : F) * spm i)| =
            |(steps i : F)| * spm d / (|(steps d : F)| * spm i) := by
          rw [abs_div, abs_mul, abs_mul, abs_of_pos (hs d hd), abs_of_pos (hs i hi)]
        rw [hr]
        have hsd := hs d hd
        have hsi := hs i hi
        have hli := hl i hi
        have hrpos : 0 < |(steps i : F)| * spm d / (|(steps d : F)| * spm i) := by positivity
        obtain ⟨h1, h2, h3⟩ := ih (Min.min acc (limits i / (|(steps i : F)| * spm d / (|(steps d : F)| * spm i))))
          (lt_min hacc (div_pos hli hrpos))
        refine ⟨h1, h2.trans (min_le_left _ _), ?_⟩
        intro a ha
        rcases List.mem_cons.1 ha with e | e
        · subst e
          have h4 := h2.trans (min_le_right _ _)
          rw [le_div_iff₀ hrpos] at h4
          have h5 := mul_le_mul_of_nonneg_right h4 (by positivity : 0 ≤ |(steps d : F)| * spm a)
          clear h1 h2 h3 h4
          generalize List.foldl _ _ l = r at h5 ⊢
          refine le_trans (le_of_eq ?_) (h5.trans (le_of_eq ?_))
          · field_simp
          · ring
        · exact h3 a e
  unfold clampDefiningAxisLimit
  obtain ⟨h1, -, h3⟩ := key (List.finRange 10) (limits d) (hl d hd)
  simp only [ex.mul] at h1 h3 ⊢
  exact ⟨mul_pos h1 (hs d hd), fun a => h3 a (List.mem_finRange a)⟩

/-- The speed allowed at a corner is not negative, unless the cosine is. -/
theorem joining_nonneg (ex : Exact A) (from_ to_ : AxisTarget F) (hf : 0 ≤ from_.speed)
    (ht : 0 ≤ to_.speed)
    (hcos : ∀ x, 0 ≤ x → x < 45 → x ≤ cfg.thresholdAngle → 0 ≤ A.cos (A.mul (A.add x cfg.speedTuneAngle)
      (A.div A.pi (A.ofInt 180)))) :
    0 ≤ determineJoiningSpeed A cfg from_ to_ := by
  have hloop : ∀ (l : List Axis) (first : Bool) (speed : F), 0 ≤ speed →
      0 ≤ joiningLoop A from_ to_ l first speed := by
    intro l
    induction l with
    | nil => intro first speed h; exact h
    | cons a l ih =>
      intro first speed h
      simp only [joiningLoop]
      split
      · exact ih _ _ h
      split
      · rw [ex.zero]
      split
      · rw [ex.zero]
      split
      · rw [ex.zero]
      · rename_i hg
        split
        · apply ih
          rw [ex.min]
          refine le_min ?_ h
          rw [ex.lt, ex.zero] at hg
          simpa using hg
        · rw [ex.zero]
  unfold determineJoiningSpeed
  simp only
  split
  · rw [ex.zero]
  split
  · rw [ex.zero]
  split
  · exact ht
  split
  · rw [ex.zero]
  rename_i h45
  split
  · rename_i hth
    split
    · rw [ex.mul]
      refine mul_nonneg ht (hcos _ ?_ ?_ ?_)
      · rw [ex.abs]; exact abs_nonneg _
      · rw [ex.le, ex.ofInt] at h45
        simpa using h45
      · rw [ex.le] at hth
        simpa using hth
    · exact ht
  · exact hloop _ _ _ hf

/-- Speed and acceleration of a target respect the limits of every axis. -/
def Limited (cfg : Config F) (t : AxisTarget F) : Prop :=
  ∀ a, t.speed * |(t.deltaSteps a : F)| ≤
      cfg.maxFeedrate a * cfg.stepsPerMm a * |(t.deltaSteps t.definingAxis : F)| ∧
    t.accel * |(t.deltaSteps a : F)| ≤
      cfg.acceleration a * cfg.stepsPerMm a * |(t.deltaSteps t.definingAxis : F)|

theorem newTarget_spec (ex : Exact A) (hc : cfg.Positive) (prev : AxisTarget F) (axis : Axis → F)
    (feed : F) (aux : Nat) (hfeed : 0 < feed) (hprev : 0 ≤ prev.speed)
    (hcos : ∀ x, 0 ≤ x → x < 45 → x ≤ cfg.thresholdAngle → 0 ≤ A.cos (A.mul (A.add x cfg.speedTuneAngle)
      (A.div A.pi (A.ofInt 180))))
    (hfix : ∀ a, cfg.stepsPerMm a = 0 → prev.positionSteps a = 0)
    (hmove : (definingAxis (newTarget A cfg prev axis feed aux).deltaSteps).1 ≠ 0)
    (hrange : ∀ a, ((newTarget A cfg prev axis feed aux).deltaSteps a).natAbs < 2 ^ 31) :
    (∃ n, Good (newTarget A cfg prev axis feed aux) n) ∧
    Limited cfg (newTarget A cfg prev axis feed aux) ∧
    (newTarget A cfg prev axis feed aux).speed * (newTarget A cfg prev axis feed aux).len ≤
      feed * |((newTarget A cfg prev axis feed aux).deltaSteps
        (newTarget A cfg prev axis feed aux).definingAxis : F)| := by
  obtain ⟨d1, d2⟩ := definingAxis_spec (newTarget A cfg prev axis feed aux).deltaSteps
  have hda : (newTarget A cfg prev axis feed aux).definingAxis =
      (definingAxis (newTarget A cfg prev axis feed aux).deltaSteps).2 := rfl
  rw [← hda] at d1 d2
  have hnz : (newTarget A cfg prev axis feed aux).deltaSteps
      (newTarget A cfg prev axis feed aux).definingAxis ≠ 0 := by omega
  have hspm : ∀ a, (newTarget A cfg prev axis feed aux).deltaSteps a ≠ 0 → 0 < cfg.stepsPerMm a := by
    intro a ha
    refine (hc.spm a).lt_of_ne fun h0 => ha ?_
    rw [newTarget_delta, hfix a h0.symm, ← h0, ex.mul, mul_zero, ex.lround_zero]; rfl
  have hlen : 0 ≤ (newTarget A cfg prev axis feed aux).len := by
    show 0 ≤ euclidDistance A _ _ _
    unfold euclidDistance
    apply ex.sqrt_nonneg
    simp only [ex.add, ex.mul]
    exact add_nonneg (add_nonneg (mul_self_nonneg _) (mul_self_nonneg _)) (mul_self_nonneg _)
  -- the speed along the path, converted to steps of the defining axis
  have hsp : ∀ t : AxisTarget F, t.deltaSteps t.definingAxis ≠ 0 → 0 < cfg.stepsPerMm t.definingAxis → 0 ≤ t.len →
      0 < euclidianSpeed A cfg { t with speed := A.mul feed (cfg.stepsPerMm t.definingAxis) } ∧
      euclidianSpeed A cfg { t with speed := A.mul feed (cfg.stepsPerMm t.definingAxis) } * t.len ≤
        feed * |(t.deltaSteps t.definingAxis : F)| := by
    intro t hz hs hl
    have hzF : (0 : F) < |(t.deltaSteps t.definingAxis : F)| := abs_pos.2 (by exact_mod_cast hz)
    have hmm : A.abs (axisDeltaToMm A cfg
        { t with speed := A.mul feed (cfg.stepsPerMm t.definingAxis) } t.definingAxis) =
        |(t.deltaSteps t.definingAxis : F)| / cfg.stepsPerMm t.definingAxis := by
      unfold axisDeltaToMm
      rw [ex.eq, ex.zero, ex.abs, ex.div, ex.ofInt]
      rw [if_neg (by simpa using hs.ne'), abs_div, abs_of_pos hs]
    unfold euclidianSpeed
    simp only [hmm]
    simp only [ex.mul, ex.lt, ex.zero, ex.div, ex.ofInt, decide_eq_true_eq, Int.cast_one]
    by_cases hl0 : 0 < t.len
    · rw [if_pos hl0]
      refine ⟨by positivity, le_of_eq ?_⟩
      field_simp
    · rw [if_neg hl0]
      have : t.len = 0 := le_antisymm (not_lt.1 hl0) hl
      rw [this]
      constructor
      · positivity
      · rw [mul_zero]; positivity
  -- the two stages of the speed
  obtain ⟨sp, hsp0, hspl, hspeed, hstart⟩ : ∃ sp : F, 0 < sp ∧
      sp * (newTarget A cfg prev axis feed aux).len ≤ feed *
        |((newTarget A cfg prev axis feed aux).deltaSteps
          (newTarget A cfg prev axis feed aux).definingAxis : F)| ∧
      (newTarget A cfg prev axis feed aux).speed = A.min
        (clampDefiningAxisLimit A (newTarget A cfg prev axis feed aux).deltaSteps cfg.maxFeedrate
          (newTarget A cfg prev axis feed aux).definingAxis cfg.stepsPerMm) sp ∧
      0 ≤ (newTarget A cfg prev axis feed aux).startSpeed := by
    refine ⟨euclidianSpeed A cfg { newTarget A cfg prev axis feed aux with
        speed := A.mul feed (cfg.stepsPerMm (newTarget A cfg prev axis feed aux).definingAxis) },
      ?_, ?_, rfl, ?_⟩
    · exact (hsp _ hnz (hspm _ hnz) hlen).1
    · exact (hsp _ hnz (hspm _ hnz) hlen).2
    · have e : (newTarget A cfg prev axis feed aux).startSpeed = A.min
          (determineJoiningSpeed A cfg prev { newTarget A cfg prev axis feed aux with
            speed := euclidianSpeed A cfg { newTarget A cfg prev axis feed aux with
              speed := A.mul feed (cfg.stepsPerMm (newTarget A cfg prev axis feed aux).definingAxis) }
            startSpeed := euclidianSpeed A cfg { newTarget A cfg prev axis feed aux with
              speed := A.mul feed (cfg.stepsPerMm (newTarget A cfg prev axis feed aux).definingAxis) }
            accel := A.zero })
          (euclidianSpeed A cfg { newTarget A cfg prev axis feed aux with
            speed := A.mul feed
              (cfg.stepsPerMm (newTarget A cfg prev axis feed aux).definingAxis) }) := rfl
      rw [e, ex.min]
      have h0 := (hsp _ hnz (hspm _ hnz) hlen).1.le
      exact le_min (joining_nonneg ex _ _ hprev h0 hcos) h0
  have hacc : (newTarget A cfg prev axis feed aux).accel =
      clampDefiningAxisLimit A (newTarget A cfg prev axis feed aux).deltaSteps cfg.acceleration
        (newTarget A cfg prev axis feed aux).definingAxis cfg.stepsPerMm := rfl
  generalize newTarget A cfg prev axis feed aux = t at *
  obtain ⟨c1, c2⟩ := clamp_spec ex t.deltaSteps cfg.maxFeedrate t.definingAxis cfg.stepsPerMm hspm
    (fun a ha => hc.feed a (hspm a ha)) (fun a => mul_spm_nonneg (hc.spm a) (hc.feed a)) hnz
  obtain ⟨k1, k2⟩ := clamp_spec ex t.deltaSteps cfg.acceleration t.definingAxis cfg.stepsPerMm hspm
    (fun a ha => hc.accel a (hspm a ha)) (fun a => mul_spm_nonneg (hc.spm a) (hc.accel a)) hnz
  rw [ex.min] at hspeed
  refine ⟨⟨_, rfl, by omega, hrange _, ?_, hstart, by rw [hacc]; exact k1⟩, ?_, ?_⟩
  · rw [hspeed]; exact lt_min c1 hsp0
  · intro a
    refine ⟨?_, by rw [hacc]; exact k2 a⟩
    rw [hspeed]
    exact (mul_le_mul_of_nonneg_right (min_le_left _ _) (abs_nonneg _)).trans (c2 a)
  · rw [hspeed]
    exact (mul_le_mul_of_nonneg_right (min_le_right _ _) hlen).trans hspl

end BeagleG.Planner
