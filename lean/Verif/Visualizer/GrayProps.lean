import Verif.Visualizer.TightProps

/-!
# C83: spindle speeds as gray levels
-/

namespace BeagleG.Visualizer

open _root_.BeagleG.Parser (Axis Axes)

/-- The spindle speeds, in their order. -/
def speeds (cs : List Call) : List ℚ := cs.filterMap fun
  | .spindle v => some v
  | _ => none

theorem speeds_append (a b : List Call) : speeds (a ++ b) = speeds a ++ speeds b := by
  simp [speeds]

/-- Of the speeds `l`, `v` is the last and `lo` and `hi` are the bounds; without any speed there are none. -/
structure Speeds (s : State) (l : List ℚ) : Prop where
  last : l ≠ [] → l.getLast? = some s.intensity
  bounds : ∀ v ∈ l, s.laserMin ≤ v ∧ v ≤ s.laserMax
  taken : if l = [] then s.laserMin = 1000000 ∧ s.laserMax = -1000000
    else s.laserMin ∈ l ∧ s.laserMax ∈ l

variable {o : Opts} {origin : Axes ℚ}

theorem doMove_speeds (s : State) (rapid : Bool) (p : Axes ℚ) :
    (doMove o origin s rapid p).1.intensity = s.intensity ∧
      (doMove o origin s rapid p).1.laserMin = s.laserMin ∧
      (doMove o origin s rapid p).1.laserMax = s.laserMax ∧
      (doMove o origin s rapid p).1.pass = s.pass := by
  unfold doMove
  split
  · exact ⟨rfl, rfl, rfl, rfl⟩
  · split <;> exact ⟨rfl, rfl, rfl, rfl⟩

theorem handle_other (s : State) (c : Call) (h : ∀ v, c ≠ .spindle v) :
    (handle o origin s c).1.intensity = s.intensity ∧ (handle o origin s c).1.laserMin = s.laserMin ∧
      (handle o origin s c).1.laserMax = s.laserMax := by
  cases c with
  | spindle v => exact absurd rfl (h v)
  | move rapid p =>
    have := doMove_speeds (o := o) (origin := origin) s rapid p
    exact ⟨this.1, this.2.1, this.2.2.1⟩
  | finished eos => simp only [handle]; split <;> exact ⟨rfl, rfl, rfl⟩
  | commandDone l v =>
    simp only [handle]; split <;> [skip; exact ⟨rfl, rfl, rfl⟩]; split <;> [exact ⟨rfl, rfl, rfl⟩; skip]
    split <;> exact ⟨rfl, rfl, rfl⟩
  | _ => exact ⟨rfl, rfl, rfl⟩

theorem Speeds.handle {s : State} {l : List ℚ} (h : Speeds s l) (c : Call)
    (hu : ∀ v, c = .spindle v → -1000000 ≤ v ∧ v ≤ 1000000) :
    Speeds (handle o origin s c).1 (l ++ speeds [c]) := by
  by_cases hc : ∃ v, c = .spindle v
  · obtain ⟨v, rfl⟩ := hc
    obtain ⟨h1, h2⟩ := hu v rfl
    have hs : speeds [.spindle v] = [v] := rfl
    rw [hs]
    refine ⟨fun _ => by simp [Visualizer.handle], ?_, ?_⟩
    · intro w hw
      simp only [Visualizer.handle]
      rcases List.mem_append.1 hw with hw | hw
      · exact ⟨(min_le_right _ _).trans (h.bounds w hw).1, (h.bounds w hw).2.trans (le_max_right _ _)⟩
      · rw [List.mem_singleton.1 hw]; exact ⟨min_le_left _ _, le_max_left _ _⟩
    · rw [if_neg (by simp)]
      simp only [Visualizer.handle]
      by_cases hl : l = []
      · have ht := h.taken
        rw [if_pos hl] at ht
        subst hl
        rw [ht.1, ht.2, min_eq_left h2, max_eq_left h1]
        simp
      · have ht := h.taken
        rw [if_neg hl] at ht
        constructor
        · rcases le_total v s.laserMin with hv | hv
          · rw [min_eq_left hv]; simp
          · rw [min_eq_right hv]; exact List.mem_append_left _ ht.1
        · rcases le_total v s.laserMax with hv | hv
          · rw [max_eq_right hv]; exact List.mem_append_left _ ht.2
          · rw [max_eq_left hv]; simp
  · have hs : speeds [c] = [] := by
      cases c <;> first | rfl | exact absurd ⟨_, rfl⟩ hc
    rw [hs, List.append_nil]
    obtain ⟨h1, h2, h3⟩ := handle_other (o := o) (origin := origin) s c fun v hv => hc ⟨v, hv⟩
    exact ⟨by rw [h1]; exact h.last, by rw [h2, h3]; exact h.bounds, by rw [h2, h3]; exact h.taken⟩

theorem Speeds.run (cs : List Call) : ∀ {s : State} {l : List ℚ}, Speeds s l →
    (∀ v ∈ speeds cs, -1000000 ≤ v ∧ v ≤ 1000000) →
    Speeds (run o origin s cs).1 (l ++ speeds cs) := by
  induction cs with
  | nil => intro s l h _; simpa [Visualizer.run, speeds] using h
  | cons c cs ih =>
    intro s l h hu
    have hsp : speeds (c :: cs) = speeds [c] ++ speeds cs := speeds_append [c] cs
    rw [hsp] at hu ⊢
    have h1 := h.handle (o := o) (origin := origin) c fun v hv => hu v (by subst hv; simp [speeds])
    have h2 := ih h1 fun v hv => hu v (List.mem_append_right _ hv)
    rw [← List.append_assoc]
    exact h2

theorem Speeds.setPass {s : State} {l : List ℚ} (h : Speeds s l) (p : Pass) : Speeds (s.setPass p) l :=
  ⟨h.last, h.bounds, h.taken⟩

/-- The state of the second pass before its calls `rest`, when `pre` have been made. -/
def stateAt (o : Opts) (origin moveRange : Axes ℚ) (first reset pre : List Call) : State :=
  let s1 := (run o origin ((initial o moveRange).setPass .preprocess) first).1
  let s2 := (run o origin (s1.setPass .init) reset).1
  (run o origin (s2.setPass .generate) pre).1

theorem run_pass (cs : List Call) : ∀ s : State, (run o origin s cs).1.pass = s.pass := by
  induction cs with
  | nil => intro s; rfl
  | cons c cs ih =>
    intro s
    refine (ih _).trans ?_
    cases c with
    | move rapid p => exact (doMove_speeds s rapid p).2.2.2
    | finished eos => simp only [handle]; split <;> rfl
    | commandDone l v =>
      simp only [handle]; split <;> [skip; rfl]; split <;> [rfl; skip]; split <;> rfl
    | _ => rfl

theorem stateAt_pass (moveRange : Axes ℚ) (first reset pre : List Call) :
    (stateAt o origin moveRange first reset pre).pass = .generate := run_pass _ _

theorem stateAt_speeds (moveRange : Axes ℚ) (first reset pre : List Call)
    (hu : ∀ v ∈ speeds (first ++ reset ++ pre), -1000000 ≤ v ∧ v ≤ 1000000) :
    Speeds (stateAt o origin moveRange first reset pre) (speeds (first ++ reset ++ pre)) := by
  rw [speeds_append, speeds_append] at hu ⊢
  have h0 : Speeds ((initial o moveRange).setPass .preprocess) [] :=
    ⟨fun h => absurd rfl h, by simp, by simp [initial, State.setPass]⟩
  have h1 := h0.run (o := o) (origin := origin) first fun v hv => hu v (by simp [hv])
  have h2 := (h1.setPass .init).run (o := o) (origin := origin) reset fun v hv => hu v (by simp [hv])
  have h3 := (h2.setPass .generate).run (o := o) (origin := origin) pre fun v hv => hu v (by simp [hv])
  simpa [stateAt] using h3

/-- The visualizer draws what its calls draw. -/
theorem visualize_split (moveRange : Axes ℚ) (first reset pre post : List Call) (c : Call) :
    ∃ before behind, (visualize o origin moveRange first reset (pre ++ c :: post)).2 =
      before ++ (handle o origin (stateAt o origin moveRange first reset pre) c).2 ++ behind := by
  unfold visualize stateAt
  dsimp only
  generalize (run o origin (((run o origin ((initial o moveRange).setPass .preprocess) first).1).setPass
    .init) reset).1.setPass .generate = s
  induction pre generalizing s with
  | nil => exact ⟨[], _, by simp [run]; rfl⟩
  | cons d ds ih =>
    obtain ⟨b, e, h⟩ := ih (handle o origin s d).1
    exact ⟨(handle o origin s d).2 ++ b, e, by simp only [List.cons_append, run, h]; simp⟩

/-- The gray of the speed `v` between the speeds `lo` (white) and `hi` (black). -/
def shade (lo hi v : ℚ) : ℚ := 1 - (v - lo) / (hi - lo)

theorem shade_range {lo hi v : ℚ} (h : lo < hi) (h1 : lo ≤ v) (h2 : v ≤ hi) :
    0 ≤ shade lo hi v ∧ shade lo hi v ≤ 1 := by
  have hd : 0 < hi - lo := by linarith
  have ha : 0 ≤ (v - lo) / (hi - lo) := div_nonneg (by linarith) hd.le
  have hb : (v - lo) / (hi - lo) ≤ 1 := by rw [div_le_one hd]; linarith
  unfold shade
  constructor <;> linarith

/-- A gray level that the second pass sets at a move is that of the last spindle speed, on a scale from the
slowest to the fastest of the file; so it is between 0 and 1. -/
theorem C83_gray_partial (o : Opts) (origin moveRange : Axes ℚ) (first reset pre post : List Call)
    (rapid : Bool) (p : Axes ℚ)
    (hu : ∀ v ∈ speeds (first ++ reset), -1000000 ≤ v ∧ v ≤ 1000000)
    (hsame : ∀ v ∈ speeds (pre ++ .move rapid p :: post), v ∈ speeds (first ++ reset)) (g : ℚ)
    (hg : Draw.gray g ∈
      (handle o origin (stateAt o origin moveRange first reset pre) (.move rapid p)).2) :
    ∃ lo hi v, (lo ∈ speeds (first ++ reset) ∧ ∀ w ∈ speeds (first ++ reset), lo ≤ w) ∧
      (hi ∈ speeds (first ++ reset) ∧ ∀ w ∈ speeds (first ++ reset), w ≤ hi) ∧
      (speeds (first ++ reset ++ pre)).getLast? = some v ∧ g = shade lo hi v ∧ 0 ≤ g ∧ g ≤ 1 := by
  have hpre : ∀ v ∈ speeds pre, v ∈ speeds (first ++ reset) := fun v hv =>
    hsame v (by rw [speeds_append]; exact List.mem_append_left _ hv)
  have hall : ∀ v, v ∈ speeds (first ++ reset ++ pre) ↔ v ∈ speeds (first ++ reset) := by
    intro v
    rw [speeds_append (first ++ reset), List.mem_append]
    exact ⟨fun h => h.elim id (hpre v), .inl⟩
  have hs := stateAt_speeds (o := o) (origin := origin) moveRange first reset pre
    (fun v hv => hu v ((hall v).1 hv))
  have hps := stateAt_pass (o := o) (origin := origin) moveRange first reset pre
  generalize stateAt o origin moveRange first reset pre = s at hs hps hg
  have hnp : ¬ s.pass = .preprocess := by rw [hps]; decide
  simp only [handle, doMove] at hg
  split at hg
  · simp at hg
  simp only [List.mem_append, List.mem_singleton] at hg
  have hshow : (o.showLaser && decide (s.laserMin < s.laserMax) && decide (s.intensity ≠ s.lastIntensity)) = true ∧
      g = shade s.laserMin s.laserMax s.intensity := by
    rcases hg with (hg | hg) | hg
    · split at hg <;> simp at hg
    · split at hg
      · rename_i hsh
        exact ⟨hsh, by simpa [shade] using hg⟩
      · simp at hg
    · split at hg <;> cases hg
  have hlt : s.laserMin < s.laserMax := by
    have := hshow.1
    simp only [Bool.and_eq_true, decide_eq_true_eq] at this
    exact this.1.2
  have hne : speeds (first ++ reset ++ pre) ≠ [] := by
    intro he
    have ht := hs.taken
    rw [if_pos he] at ht
    rw [ht.1, ht.2] at hlt
    norm_num at hlt
  have ht := hs.taken
  rw [if_neg hne] at ht
  have hlast := hs.last hne
  have hmem : s.intensity ∈ speeds (first ++ reset ++ pre) := List.mem_of_getLast? hlast
  have hr := shade_range hlt (hs.bounds _ hmem).1 (hs.bounds _ hmem).2
  refine ⟨s.laserMin, s.laserMax, s.intensity,
    ⟨(hall _).1 ht.1, fun w hw => (hs.bounds w ((hall w).2 hw)).1⟩,
    ⟨(hall _).1 ht.2, fun w hw => (hs.bounds w ((hall w).2 hw)).2⟩, hlast, hshow.2, ?_⟩
  rw [hshow.2]; exact hr

theorem run_quiet (mid : List Call) (hm : ∀ r p, Call.move r p ∉ mid) :
    ∀ s : State, (run o origin s mid).1.lastIntensity = s.lastIntensity := by
  induction mid with
  | nil => intro s; rfl
  | cons c cs ih =>
    intro s
    refine (ih (fun r p h => hm r p (List.mem_cons_of_mem _ h)) _).trans ?_
    cases c with
    | move rapid p => exact absurd List.mem_cons_self (hm rapid p)
    | finished eos => simp only [handle]; split <;> rfl
    | commandDone l v =>
      simp only [handle]; split <;> [skip; rfl]; split <;> [rfl; skip]; split <;> rfl
    | _ => rfl

/-- Between two moves of the second pass the speed changes: then the gray level is set before the line of
the second one. -/
theorem C83_change_partial (o : Opts) (origin moveRange : Axes ℚ) (first reset pre mid : List Call)
    (ra rb : Bool) (pa pb : Axes ℚ) (hlaser : o.showLaser = true)
    (hu : ∀ v ∈ speeds (first ++ reset), -1000000 ≤ v ∧ v ≤ 1000000)
    (hpre : ∀ v ∈ speeds (pre ++ mid), v ∈ speeds (first ++ reset))
    (hm : ∀ r p, Call.move r p ∉ mid)
    (ha : ¬ Omits o origin pa) (hb : ¬ Omits o origin pb)
    {va vb : ℚ} (hva : (speeds (first ++ reset ++ pre)).getLast? = some va)
    (hvb : (speeds (first ++ reset ++ pre ++ mid)).getLast? = some vb) (hne : va ≠ vb) :
    ∃ g, ∃ style path, (handle o origin (stateAt o origin moveRange first reset (pre ++ .move ra pa :: mid))
      (.move rb pb)).2 = style ++ [Draw.gray g, path] ∧ (path = .lineTo pb ∨ path = .moveTo pb) := by
  have hsub : ∀ v ∈ speeds (first ++ reset ++ (pre ++ .move ra pa :: mid)),
      v ∈ speeds (first ++ reset) := by
    intro v hv
    rw [speeds_append, List.mem_append] at hv
    rcases hv with hv | hv
    · exact hv
    · refine hpre v ?_
      rw [speeds_append] at hv ⊢
      simpa [speeds] using hv
  have hspe : speeds (first ++ reset ++ (pre ++ .move ra pa :: mid)) =
      speeds (first ++ reset ++ pre ++ mid) := by simp [speeds]
  have hs := stateAt_speeds (o := o) (origin := origin) moveRange first reset
    (pre ++ .move ra pa :: mid) (fun v hv => hu v (hsub v hv))
  have hps := stateAt_pass (o := o) (origin := origin) moveRange first reset (pre ++ .move ra pa :: mid)
  have hs0 := stateAt_speeds (o := o) (origin := origin) moveRange first reset pre
    (fun v hv => hu v (hsub v (by
      rw [speeds_append] at hv ⊢
      rw [speeds_append pre]
      exact (List.mem_append.1 hv).elim (fun h => List.mem_append_left _ h)
        fun h => List.mem_append_right _ (List.mem_append_left _ h))))
  have hps0 := stateAt_pass (o := o) (origin := origin) moveRange first reset pre
  have hstep : stateAt o origin moveRange first reset (pre ++ .move ra pa :: mid) =
      (run o origin (handle o origin (stateAt o origin moveRange first reset pre) (.move ra pa)).1 mid).1 := by
    unfold stateAt; dsimp only; rw [run_append]; rfl
  rw [hspe] at hs
  -- two different speeds: the scale has a length
  have hnb : speeds (first ++ reset ++ pre ++ mid) ≠ [] := by intro h; rw [h] at hvb; cases hvb
  have hna : speeds (first ++ reset ++ pre) ≠ [] := by intro h; rw [h] at hva; cases hva
  have hib := hs.last hnb
  rw [hvb] at hib
  injection hib with hib
  have hia := hs0.last hna
  rw [hva] at hia
  injection hia with hia
  have hmema : va ∈ speeds (first ++ reset ++ pre) := List.mem_of_getLast? hva
  have scale : ∀ {l : List ℚ} {s : State}, Speeds s l → va ∈ l → vb ∈ l → s.laserMin < s.laserMax := by
    intro l s h h1 h2
    rcases lt_or_gt_of_ne hne with hlt | hlt
    · exact lt_of_le_of_lt (h.bounds _ h1).1 (lt_of_lt_of_le hlt (h.bounds _ h2).2)
    · exact lt_of_le_of_lt (h.bounds _ h2).1 (lt_of_lt_of_le hlt (h.bounds _ h1).2)
  have hmemb : vb ∈ speeds (first ++ reset ++ pre ++ mid) := List.mem_of_getLast? hvb
  have hmema' : va ∈ speeds (first ++ reset ++ pre ++ mid) := by
    rw [speeds_append]; exact List.mem_append_left _ hmema
  have hsc := scale hs hmema' hmemb
  -- the file had both before
  have hsub0 : vb ∈ speeds (first ++ reset ++ pre) := by
    rw [speeds_append]; exact List.mem_append_left _ (hsub vb (by rw [hspe]; exact hmemb))
  have hsc0 := scale hs0 hmema hsub0
  have hlastA : (stateAt o origin moveRange first reset (pre ++ .move ra pa :: mid)).lastIntensity = va := by
    rw [hstep, run_quiet mid hm]
    generalize stateAt o origin moveRange first reset pre = s at hs0 hps0 hia hsc0
    have hnp : ¬ s.pass = .preprocess := by rw [hps0]; decide
    have hom : ¬ ((!o.includeOrigin) = true ∧ ∀ a ∈ Parser.allAxes, pa a = origin a) :=
      fun h => ha ⟨by simpa using h.1, h.2⟩
    simp only [handle, doMove, if_neg hom, if_neg hnp, hlaser, hsc0, Bool.true_and, decide_true]
    by_cases he : s.intensity = s.lastIntensity
    · simp only [he, ne_eq, not_true_eq_false, decide_false, Bool.false_eq_true, if_false]
      rw [← he, hia]
    · simp only [ne_eq, he, not_false_eq_true, decide_true, if_true]
      exact hia.symm
  generalize stateAt o origin moveRange first reset (pre ++ .move ra pa :: mid) = s at hs hps hib hsc hlastA
  have hnp : ¬ s.pass = .preprocess := by rw [hps]; decide
  have hom : ¬ ((!o.includeOrigin) = true ∧ ∀ a ∈ Parser.allAxes, pb a = origin a) :=
    fun h => hb ⟨by simpa using h.1, h.2⟩
  have hdiff : s.intensity ≠ s.lastIntensity := by rw [hlastA, ← hib]; exact hne.symm
  simp only [handle, doMove, if_neg hom, if_neg hnp, hlaser, hsc, Bool.true_and, decide_true, hdiff,
    ne_eq, not_false_eq_true, if_true]
  refine ⟨_, _, _, by rw [List.append_assoc]; rfl, ?_⟩
  split
  · exact .inr rfl
  · exact .inl rfl

end BeagleG.Visualizer
