import Mathlib.Tactic.Ring
import Mathlib.Tactic.Linarith
import Mathlib.Tactic.NormNum
import Mathlib.Tactic.Positivity
import Mathlib.Tactic.FieldSimp
import Mathlib.Order.Basic
import Verif.Visualizer.Model

/-!
# C82: the picture is within its frame
-/

namespace BeagleG.Visualizer

open _root_.BeagleG.Parser (Axis Axes)

/-! ## Ranges -/

/-- The position is in the range. -/
def Range.Has (r : Range) (p : Axes ℚ) : Prop := ∀ i, r.lo i ≤ xyz p i ∧ xyz p i ≤ r.hi i

/-- Nothing gets lost. -/
def Range.Keeps (r r' : Range) : Prop := ∀ p, r.Has p → r'.Has p

theorem Range.Keeps.refl (r : Range) : r.Keeps r := fun _ h => h

theorem Range.Keeps.trans {a b c : Range} (h : a.Keeps b) (h' : b.Keeps c) : a.Keeps c :=
  fun p hp => h' p (h p hp)

theorem Range.update_keeps (r : Range) (p : Axes ℚ) : r.Keeps (r.update p) := fun _ h i =>
  ⟨(min_le_right _ _).trans (h i).1, (h i).2.trans (le_max_right _ _)⟩

theorem Range.update_has (r : Range) (p : Axes ℚ) : (r.update p).Has p := fun _ =>
  ⟨min_le_left _ _, le_max_left _ _⟩

theorem Range.zeroUnused_keeps (r : Range) : r.Keeps r.zeroUnused := by
  intro p h i
  have : ¬ r.hi i < r.lo i := not_lt.2 ((h i).1.trans (h i).2)
  simp only [Range.zeroUnused, if_neg this]
  exact h i

/-! ## The path -/

/-- The lines of the path, with the pen at `pen` before: PostScript's `moveto` and `lineto`.  Help lines
and marks return to the point where they began. -/
def paths : Axes ℚ → List Draw → List (Axes ℚ × Axes ℚ)
  | _, [] => []
  | _, .moveTo p :: ds => paths p ds
  | pen, .lineTo p :: ds => (pen, p) :: paths p ds
  | pen, _ :: ds => paths pen ds

/-- Where the pen is afterwards. -/
def penAfter : Axes ℚ → List Draw → Axes ℚ
  | pen, [] => pen
  | _, .moveTo p :: ds => penAfter p ds
  | _, .lineTo p :: ds => penAfter p ds
  | pen, _ :: ds => penAfter pen ds

theorem paths_append (ds es : List Draw) :
    ∀ pen, paths pen (ds ++ es) = paths pen ds ++ paths (penAfter pen ds) es := by
  induction ds with
  | nil => intro pen; rfl
  | cons d ds ih => intro pen; cases d <;> simp [paths, penAfter, ih]

theorem penAfter_append (ds es : List Draw) :
    ∀ pen, penAfter pen (ds ++ es) = penAfter (penAfter pen ds) es := by
  induction ds with
  | nil => intro pen; rfl
  | cons d ds ih => intro pen; cases d <;> simp [penAfter, ih]

variable {o : Opts} {origin : Axes ℚ}

/-- The visualizer leaves out this position. -/
def Omits (o : Opts) (origin p : Axes ℚ) : Prop :=
  o.includeOrigin = false ∧ ∀ a ∈ Parser.allAxes, p a = origin a

/-- What a call of the first pass does to the range. -/
theorem handle_preprocess (s : State) (hp : s.pass = .preprocess) (c : Call) :
    (handle o origin s c).1.pass = .preprocess ∧ s.range.Keeps (handle o origin s c).1.range ∧
      ∀ rapid p, c = .move rapid p → ¬ Omits o origin p → (handle o origin s c).1.range.Has p := by
  cases c with
  | move rapid p =>
    by_cases h : (!o.includeOrigin) = true ∧ ∀ a ∈ Parser.allAxes, p a = origin a
    · have hr : handle o origin s (.move rapid p) = (s, []) := by simp only [handle, doMove, if_pos h]
      rw [hr]
      refine ⟨hp, Range.Keeps.refl _, ?_⟩
      intro rapid' p' he hom
      injection he with _ he
      subst he
      exact absurd ⟨by simpa using h.1, h.2⟩ hom
    · have hr : handle o origin s (.move rapid p) =
          ({ s with range := s.range.update p, justHomed := false }, []) := by
        simp only [handle, doMove, if_neg h, if_pos hp]
      rw [hr]
      refine ⟨hp, Range.update_keeps _ _, ?_⟩
      intro rapid' p' he _
      injection he with _ he
      subst he
      exact Range.update_has _ _
  | home =>
    refine ⟨hp, ?_, fun _ _ h => by cases h⟩
    simp only [handle, goHome]
    split
    · exact Range.update_keeps _ _
    · exact Range.Keeps.refl _
  | finished eos =>
    refine ⟨?_, ?_, fun _ _ h => by cases h⟩
    · simp only [handle, if_pos hp]; exact hp
    · simp only [handle, if_pos hp]; exact Range.zeroUnused_keeps _
  | commandDone l v =>
    refine ⟨?_, ?_, fun _ _ h => by cases h⟩
    · simp only [handle]; split <;> [skip; exact hp]; split <;> [exact hp; skip]; split <;> exact hp
    · simp only [handle]
      split <;> [skip; exact Range.Keeps.refl _]
      split <;> [exact Range.Keeps.refl _; skip]
      split <;> exact Range.Keeps.refl _
  | _ => exact ⟨hp, Range.Keeps.refl _, fun _ _ h => by cases h⟩

theorem run_preprocess (first : List Call) : ∀ (s : State), s.pass = .preprocess →
    (run o origin s first).1.pass = .preprocess ∧ s.range.Keeps (run o origin s first).1.range ∧
      ∀ rapid p, Call.move rapid p ∈ first → ¬ Omits o origin p →
        (run o origin s first).1.range.Has p := by
  induction first with
  | nil => intro s hp; exact ⟨hp, Range.Keeps.refl _, by simp⟩
  | cons c cs ih =>
    intro s hp
    obtain ⟨h1, h2, h3⟩ := handle_preprocess (o := o) (origin := origin) s hp c
    obtain ⟨k1, k2, k3⟩ := ih _ h1
    refine ⟨k1, h2.trans k2, ?_⟩
    intro rapid p hm hom
    rcases List.mem_cons.1 hm with hm | hm
    · exact k2 p (h3 rapid p hm.symm hom)
    · exact k3 rapid p hm hom

/-- The calls of `Reset`: no moves, and the machine goes home. -/
def Resets (reset : List Call) : Prop := Call.home ∈ reset ∧ ∀ rapid p, Call.move rapid p ∉ reset

theorem handle_init (s : State) (hp : s.pass = .init) (c : Call) (hm : ∀ rapid p, c ≠ .move rapid p) :
    (handle o origin s c).1.pass = .init ∧ s.range.Keeps (handle o origin s c).1.range ∧
      (s.justHomed = true → (handle o origin s c).1.justHomed = true) ∧
      (c = .home → (handle o origin s c).1.justHomed = true ∧
        (o.includeOrigin = true → (handle o origin s c).1.range.Has origin)) := by
  cases c with
  | move rapid p => exact absurd rfl (hm rapid p)
  | home =>
    refine ⟨hp, ?_, fun _ => rfl, fun _ => ⟨rfl, fun hi => ?_⟩⟩
    · simp only [handle, goHome]
      split
      · exact Range.update_keeps _ _
      · exact Range.Keeps.refl _
    · simp only [handle, goHome, if_pos hi]; exact Range.update_has _ _
  | finished eos =>
    have : ¬ s.pass = .preprocess := by rw [hp]; decide
    refine ⟨?_, ?_, ?_, fun h => by cases h⟩
    · simp only [handle, if_neg this]; exact hp
    · simp only [handle, if_neg this]; exact Range.Keeps.refl _
    · simp only [handle, if_neg this]; exact id
  | commandDone l v =>
    refine ⟨?_, ?_, ?_, fun h => by cases h⟩
    · simp only [handle]; split <;> [skip; exact hp]; split <;> [exact hp; skip]; split <;> exact hp
    · simp only [handle]
      split <;> [skip; exact Range.Keeps.refl _]
      split <;> [exact Range.Keeps.refl _; skip]
      split <;> exact Range.Keeps.refl _
    · simp only [handle]; split <;> [skip; exact id]; split <;> [exact id; skip]; split <;> exact id
  | _ => exact ⟨hp, Range.Keeps.refl _, id, fun h => by cases h⟩

theorem run_init (reset : List Call) : ∀ (s : State), s.pass = .init →
    (∀ rapid p, Call.move rapid p ∉ reset) →
    s.range.Keeps (run o origin s reset).1.range ∧
      (s.justHomed = true ∨ Call.home ∈ reset → (run o origin s reset).1.justHomed = true) ∧
      (Call.home ∈ reset → o.includeOrigin = true → (run o origin s reset).1.range.Has origin) := by
  induction reset with
  | nil => intro s hp _; exact ⟨Range.Keeps.refl _, by simp [run], by simp⟩
  | cons c cs ih =>
    intro s hp hm
    obtain ⟨h1, h2, h3, h4⟩ := handle_init (o := o) (origin := origin) s hp c
      (fun r p h => hm r p (by rw [h]; exact List.mem_cons_self))
    obtain ⟨k1, k2, k3⟩ := ih _ h1 (fun r p h => hm r p (List.mem_cons_of_mem _ h))
    refine ⟨h2.trans k1, ?_, ?_⟩
    · rintro (hj | hh)
      · exact k2 (.inl (h3 hj))
      · rcases List.mem_cons.1 hh with hh | hh
        · exact k2 (.inl (h4 hh.symm).1)
        · exact k2 (.inr hh)
    · intro hh hi
      rcases List.mem_cons.1 hh with hh | hh
      · exact k1 _ ((h4 hh.symm).2 hi)
      · exact k3 hh hi

/-- The second pass: the pen is where it may begin a line, or no line begins there. -/
def Ready (o : Opts) (r : Range) (s : State) (pen : Axes ℚ) : Prop :=
  if o.includeOrigin then r.Has pen else s.justHomed = true ∨ r.Has pen

theorem handle_generate {r : Range} (ho : o.includeOrigin = true → r.Has origin) (s : State)
    (hp : s.pass = .generate) (c : Call) (pen : Axes ℚ) (hr : Ready o r s pen)
    (hm : ∀ rapid p, c = .move rapid p → ¬ Omits o origin p → r.Has p) :
    (handle o origin s c).1.pass = .generate ∧
      Ready o r (handle o origin s c).1 (penAfter pen (handle o origin s c).2) ∧
      ∀ e ∈ paths pen (handle o origin s c).2, r.Has e.1 ∧ r.Has e.2 := by
  have hnp : ¬ s.pass = .preprocess := by rw [hp]; decide
  cases c with
  | start =>
    cases hi : o.includeOrigin with
    | true => simpa [handle, hp, hi, Ready, paths, penAfter] using ho hi
    | false => simpa [handle, hp, hi, Ready, paths, penAfter] using hr
  | finished eos =>
    refine ⟨by simp [handle, hp], ?_, ?_⟩
    · by_cases he : eos = true <;> simpa [handle, hp, he, Ready, penAfter] using hr
    · by_cases he : eos = true <;> simp [handle, hp, he, paths]
  | home =>
    refine ⟨hp, ?_, by simp [handle, goHome, hp, paths]⟩
    cases hi : o.includeOrigin with
    | true => simpa [handle, goHome, hp, hi, Ready, penAfter] using ho hi
    | false => simp [handle, goHome, hi, Ready]
  | arcHelp c t =>
    refine ⟨hp, ?_, ?_⟩
    · by_cases he : o.showIjk = true <;> simpa [handle, hp, he, Ready, penAfter] using hr
    · by_cases he : o.showIjk = true <;> simp [handle, hp, he, paths]
  | splineHelp a b c d =>
    refine ⟨hp, ?_, ?_⟩
    · by_cases he : o.showIjk = true <;> simpa [handle, hp, he, Ready, penAfter] using hr
    · by_cases he : o.showIjk = true <;> simp [handle, hp, he, paths]
  | spindle v => exact ⟨hp, by simpa [handle, Ready, penAfter] using hr, by simp [handle, paths]⟩
  | origin p => exact ⟨hp, by simpa [handle, hp, Ready, penAfter] using hr, by simp [handle, hp, paths]⟩
  | other => exact ⟨hp, hr, by simp [handle, paths]⟩
  | commandDone l v =>
    have : (handle o origin s (.commandDone l v)).1.justHomed = s.justHomed ∧
        (handle o origin s (.commandDone l v)).1.pass = s.pass := by
      simp only [handle]; split <;> [skip; exact ⟨rfl, rfl⟩]; split <;> [exact ⟨rfl, rfl⟩; skip]
      split <;> exact ⟨rfl, rfl⟩
    refine ⟨this.2.trans hp, ?_, by simp [handle, paths]⟩
    unfold Ready at hr ⊢
    rw [this.1]
    simpa [handle, penAfter] using hr
  | move rapid p =>
    by_cases h : (!o.includeOrigin) = true ∧ ∀ a ∈ Parser.allAxes, p a = origin a
    · have he : handle o origin s (.move rapid p) = (s, []) := by simp only [handle, doMove, if_pos h]
      rw [he]
      exact ⟨hp, hr, by simp [paths]⟩
    · have hin : r.Has p := hm rapid p rfl fun hom => h ⟨by simpa using hom.1, hom.2⟩
      have skip : ∀ (a b : List Draw), (a = [] ∨ ∃ q, a = [Draw.style q]) →
          (b = [] ∨ ∃ q, b = [Draw.gray q]) → ∀ d,
            paths pen (a ++ b ++ [d]) = paths pen [d] ∧ penAfter pen (a ++ b ++ [d]) = penAfter pen [d] := by
        rintro a b (rfl | ⟨q, rfl⟩) (rfl | ⟨q', rfl⟩) d <;> cases d <;> exact ⟨rfl, rfl⟩
      have hready : ∀ s' : State, Ready o r s' p := by
        intro s'; unfold Ready; split
        · exact hin
        · exact .inr hin
      simp only [handle, doMove, if_neg h, if_neg hnp]
      generalize hst : (if rapid = s.lastRapid then [] else [Draw.style rapid]) = st
      generalize hsh : (o.showLaser && decide (s.laserMin < s.laserMax) &&
        decide (s.intensity ≠ s.lastIntensity)) = sh
      generalize hg : (if sh = true then
        [Draw.gray (1 - (s.intensity - s.laserMin) / (s.laserMax - s.laserMin))] else []) = gr
      have hst' : st = [] ∨ ∃ q, st = [Draw.style q] := by
        rw [← hst]; split <;> [exact .inl rfl; exact .inr ⟨_, rfl⟩]
      have hgr' : gr = [] ∨ ∃ q, gr = [Draw.gray q] := by
        rw [← hg]; split <;> [exact .inr ⟨_, rfl⟩; exact .inl rfl]
      cases hj : (s.justHomed && !o.includeOrigin) with
      | true =>
        simp only [if_true]
        rw [(skip st gr hst' hgr' _).1, (skip st gr hst' hgr' _).2]
        exact ⟨hp, hready _, by simp [paths]⟩
      | false =>
        simp only [Bool.false_eq_true, if_false]
        rw [(skip st gr hst' hgr' _).1, (skip st gr hst' hgr' _).2]
        refine ⟨hp, hready _, ?_⟩
        intro e he
        simp only [paths, List.mem_singleton] at he
        subst he
        refine ⟨?_, hin⟩
        unfold Ready at hr
        cases hi : o.includeOrigin with
        | true => simpa [hi] using hr
        | false =>
          rw [hi] at hj
          have hnj : s.justHomed = false := by simpa using hj
          simpa [hi, hnj] using hr

theorem run_generate {r : Range} (ho : o.includeOrigin = true → r.Has origin) (second : List Call) :
    ∀ (s : State) (pen : Axes ℚ), s.pass = .generate → Ready o r s pen →
      (∀ rapid p, Call.move rapid p ∈ second → ¬ Omits o origin p → r.Has p) →
      ∀ e ∈ paths pen (run o origin s second).2, r.Has e.1 ∧ r.Has e.2 := by
  induction second with
  | nil => intro s pen _ _ _ e he; simp [run, paths] at he
  | cons c cs ih =>
    intro s pen hp hr hm e he
    obtain ⟨h1, h2, h3⟩ := handle_generate ho s hp c pen hr
      (fun rapid p h => hm rapid p (by rw [h]; exact List.mem_cons_self))
    simp only [run, paths_append, List.mem_append] at he
    rcases he with he | he
    · exact h3 e he
    · exact ih _ _ h1 h2 (fun rapid p h => hm rapid p (List.mem_cons_of_mem _ h)) e he

/-! ## C82 -/

/-- If the second pass moves to no position that the first has not seen, all lines of the path are within
the range that the frame has been drawn for.  With the machine origin in the picture the second pass has to
begin with the start of the program, which brings the pen there; otherwise the pen may be anywhere. -/
theorem C82_box (o : Opts) (origin moveRange pen : Axes ℚ) (first reset second : List Call)
    (hreset : Resets reset)
    (hstart : o.includeOrigin = true → ∃ rest, second = .start :: rest)
    (hsame : ∀ rapid p, Call.move rapid p ∈ second → ∃ rapid', Call.move rapid' p ∈ first) :
    ∀ e ∈ paths pen (visualize o origin moveRange first reset second).2,
      (shownRange o origin moveRange first reset).Has e.1 ∧
        (shownRange o origin moveRange first reset).Has e.2 := by
  unfold visualize shownRange
  dsimp only
  obtain ⟨_, _, h3⟩ := run_preprocess (o := o) (origin := origin) first
    ((initial o moveRange).setPass .preprocess) rfl
  generalize (run o origin ((initial o moveRange).setPass .preprocess) first).1 = s1 at h3 ⊢
  obtain ⟨k1, k2, k3⟩ := run_init (o := o) (origin := origin) reset (s1.setPass .init) rfl hreset.2
  generalize (run o origin (s1.setPass .init) reset).1 = s2 at k1 k2 k3 ⊢
  have ho : o.includeOrigin = true → s2.range.Has origin := k3 hreset.1
  have hm : ∀ rapid p, Call.move rapid p ∈ second → ¬ Omits o origin p → s2.range.Has p := by
    intro rapid p hin hom
    obtain ⟨rapid', h⟩ := hsame rapid p hin
    exact k1 _ (h3 rapid' p h hom)
  cases hi : o.includeOrigin with
  | false =>
    refine run_generate ho second _ pen rfl ?_ hm
    simp only [Ready, hi]
    exact .inl (k2 (.inr hreset.1))
  | true =>
    obtain ⟨rest, rfl⟩ := hstart hi
    intro e he
    have hrun : paths pen (run o origin (s2.setPass .generate) (.start :: rest)).2 =
        paths origin (run o origin (s2.setPass .generate) rest).2 := by
      simp only [run, handle, State.setPass, if_true, hi]
      rfl
    rw [hrun] at he
    refine run_generate ho rest _ origin rfl ?_
      (fun rapid p h => hm rapid p (List.mem_cons_of_mem _ h)) e he
    simp only [Ready, hi, if_true]
    exact ho hi

end BeagleG.Visualizer
