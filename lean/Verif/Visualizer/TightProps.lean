import Verif.Visualizer.Props

/-!
# C82: the frame is not larger than needed
-/

namespace BeagleG.Visualizer

open _root_.BeagleG.Parser (Axis Axes)

/-- The position that a call adds to the picture. -/
def counted (o : Opts) (origin : Axes ℚ) : Call → Option (Axes ℚ)
  | .move _ p => if o.includeOrigin = false ∧ (∀ a ∈ Parser.allAxes, p a = origin a) then none else some p
  | .home => if o.includeOrigin then some origin else none
  | _ => none

/-- The end of a program or of the file. -/
def Call.ends : Call → Bool
  | .finished _ => true
  | _ => false

/-- The bounds are taken from the positions `S`. -/
def Range.From (r : Range) (S : List (Axes ℚ)) : Prop :=
  (∀ p ∈ S, r.Has p) ∧
    if S = [] then r = Range.empty
    else ∀ i, (∃ p ∈ S, r.lo i = xyz p i) ∧ ∃ p ∈ S, r.hi i = xyz p i

/-- Within the bounds that the range begins with. -/
def Usual (p : Axes ℚ) : Prop := ∀ i, -1000000 ≤ xyz p i ∧ xyz p i ≤ 1000000

theorem Range.From.update {r : Range} {S : List (Axes ℚ)} (h : r.From S) {p : Axes ℚ} (hp : Usual p) :
    (r.update p).From (S ++ [p]) := by
  refine ⟨?_, ?_⟩
  · intro q hq
    rcases List.mem_append.1 hq with hq | hq
    · exact Range.update_keeps _ _ _ (h.1 q hq)
    · rw [List.mem_singleton.1 hq]; exact Range.update_has _ _
  · rw [if_neg (by simp)]
    intro i
    by_cases hS : S = []
    · have hr : r = Range.empty := by simpa [hS] using h.2
      subst hS hr
      refine ⟨⟨p, by simp, ?_⟩, ⟨p, by simp, ?_⟩⟩
      · exact min_eq_left (hp i).2
      · exact max_eq_left (hp i).1
    · have hr := h.2
      rw [if_neg hS] at hr
      obtain ⟨⟨a, ha, hlo⟩, ⟨b, hb, hhi⟩⟩ := hr i
      refine ⟨?_, ?_⟩
      · rcases le_total (xyz p i) (r.lo i) with hl | hl
        · exact ⟨p, by simp, min_eq_left hl⟩
        · exact ⟨a, by simp [ha], (min_eq_right hl).trans hlo⟩
      · rcases le_total (xyz p i) (r.hi i) with hl | hl
        · exact ⟨b, by simp [hb], (max_eq_right hl).trans hhi⟩
        · exact ⟨p, by simp, max_eq_left hl⟩

theorem Range.From.zeroUnused {r : Range} {S : List (Axes ℚ)} (h : r.From S) (hS : S ≠ []) :
    r.zeroUnused.From S := by
  obtain ⟨p, hp⟩ := List.exists_mem_of_ne_nil S hS
  have : r.zeroUnused = r := by
    have hn : ∀ i, ¬ r.hi i < r.lo i := fun i => not_lt.2 (((h.1 p hp) i).1.trans ((h.1 p hp) i).2)
    cases r with
    | mk lo hi =>
      simp only [Range.zeroUnused, Range.mk.injEq]
      exact ⟨funext fun i => if_neg (hn i), funext fun i => if_neg (hn i)⟩
  rw [this]; exact h

variable {o : Opts} {origin : Axes ℚ}

/-- The range after a call that is not a move of the second pass. -/
theorem handle_range (s : State) (c : Call) (hp : s.pass = .preprocess ∨ s.pass = .init ∧ ∀ r p, c ≠ .move r p) :
    (handle o origin s c).1.pass = s.pass ∧
      (handle o origin s c).1.range =
        match counted o origin c with
        | some p => s.range.update p
        | none => if s.pass = .preprocess ∧ c.ends = true then s.range.zeroUnused else s.range := by
  cases c with
  | move rapid p =>
    have hpre : s.pass = .preprocess := by
      rcases hp with hp | hp
      · exact hp
      · exact absurd rfl (hp.2 rapid p)
    by_cases h : o.includeOrigin = false ∧ ∀ a ∈ Parser.allAxes, p a = origin a
    · have h' : (!o.includeOrigin) = true ∧ ∀ a ∈ Parser.allAxes, p a = origin a := ⟨by simp [h.1], h.2⟩
      simp only [handle, doMove, if_pos h', counted, if_pos h]
      exact ⟨trivial, by simp [Call.ends]⟩
    · have h' : ¬ ((!o.includeOrigin) = true ∧ ∀ a ∈ Parser.allAxes, p a = origin a) :=
        fun hh => h ⟨by simpa using hh.1, hh.2⟩
      simp only [handle, doMove, if_neg h', if_pos hpre, counted, if_neg h]
      exact ⟨trivial, trivial⟩
  | home =>
    refine ⟨rfl, ?_⟩
    cases hi : o.includeOrigin <;> simp [handle, goHome, counted, hi, Call.ends]
  | finished eos =>
    by_cases hpre : s.pass = .preprocess
    · simp only [handle, if_pos hpre, counted]
      exact ⟨trivial, by simp [hpre, Call.ends]⟩
    · simp only [handle, if_neg hpre, counted]
      exact ⟨trivial, by simp [hpre, Call.ends]⟩
  | commandDone l v =>
    refine ⟨?_, ?_⟩
    · simp only [handle]; split <;> [skip; rfl]; split <;> [rfl; skip]; split <;> rfl
    · have hn : ¬ (s.pass = .preprocess ∧ (Call.commandDone l v).ends = true) := by simp [Call.ends]
      simp only [handle, counted, if_neg hn]
      try (split <;> [skip; rfl]; split <;> [rfl; skip]; split <;> rfl)
  | _ => exact ⟨rfl, by simp [handle, counted, Call.ends]⟩

theorem run_from (cs : List Call) : ∀ (s : State) (S : List (Axes ℚ)), s.range.From S →
    (s.pass = .preprocess ∧ (S ≠ [] ∨ ∀ eos, Call.finished eos ∉ cs) ∨
      s.pass = .init ∧ ∀ r p, Call.move r p ∉ cs) →
    (∀ c ∈ cs, ∀ p, counted o origin c = some p → Usual p) →
    (run o origin s cs).1.pass = s.pass ∧
      (run o origin s cs).1.range.From (S ++ cs.filterMap (counted o origin)) := by
  induction cs with
  | nil => intro s S h _ _; exact ⟨rfl, by simpa [run] using h⟩
  | cons c cs ih =>
    intro s S h hp hu
    obtain ⟨h1, h2⟩ := handle_range (o := o) (origin := origin) s c
      (hp.imp (·.1) fun hh => ⟨hh.1, fun r p hc => hh.2 r p (by rw [hc]; exact List.mem_cons_self)⟩)
    have hu' : ∀ c ∈ cs, ∀ p, counted o origin c = some p → Usual p :=
      fun c hc => hu c (List.mem_cons_of_mem _ hc)
    cases hc : counted o origin c with
    | some p =>
      rw [hc] at h2
      obtain ⟨k1, k2⟩ := ih (handle o origin s c).1 (S ++ [p])
        (by rw [h2]; exact h.update (hu c List.mem_cons_self p hc))
        (hp.imp (fun hh => ⟨h1.trans hh.1, .inl (by simp)⟩)
          fun hh => ⟨h1.trans hh.1, fun r q hq => hh.2 r q (List.mem_cons_of_mem _ hq)⟩) hu'
      refine ⟨k1.trans h1, ?_⟩
      rw [List.filterMap_cons_some hc]
      simpa [run] using k2
    | none =>
      rw [hc] at h2
      have hr : (handle o origin s c).1.range.From S := by
        rw [h2]
        dsimp only
        split
        · rename_i hf
          obtain ⟨hpre, he⟩ := hf
          obtain ⟨eos, rfl⟩ : ∃ eos, c = .finished eos := by
            cases c <;> first | exact ⟨_, rfl⟩ | simp [Call.ends] at he
          rcases hp with hp | hp
          · rcases hp.2 with hS | hno
            · exact h.zeroUnused hS
            · exact absurd List.mem_cons_self (hno eos)
          · rw [hpre] at hp; exact absurd hp.1 (by decide)
        · exact h
      obtain ⟨k1, k2⟩ := ih (handle o origin s c).1 S hr
        (hp.imp (fun hh => ⟨h1.trans hh.1, hh.2.imp id fun hno eos hm => hno eos (List.mem_cons_of_mem _ hm)⟩)
          fun hh => ⟨h1.trans hh.1, fun r q hq => hh.2 r q (List.mem_cons_of_mem _ hq)⟩) hu'
      refine ⟨k1.trans h1, ?_⟩
      rw [List.filterMap_cons_none hc]
      simpa [run] using k2

theorem run_append (s : State) (a b : List Call) :
    (run o origin s (a ++ b)).1 = (run o origin (run o origin s a).1 b).1 := by
  induction a generalizing s with
  | nil => rfl
  | cons c cs ih => simp only [List.cons_append, run]; exact ih _

/-- Every bound of the frame is the coordinate of a position of the path or of the origin, if the first
program of the file has one at all (before its end) and coordinates stay below 10⁶. -/
theorem C82_tight_partial (o : Opts) (origin moveRange : Axes ℚ) (a b reset : List Call)
    (hbox : o.includeBox = false) (hreset : ∀ r p, Call.move r p ∉ reset)
    (hno : ∀ eos, Call.finished eos ∉ a) (hsome : a.filterMap (counted o origin) ≠ [])
    (hu : ∀ c ∈ a ++ b ++ reset, ∀ p, counted o origin c = some p → Usual p) :
    ∀ i, (∃ p ∈ (a ++ b ++ reset).filterMap (counted o origin),
        (shownRange o origin moveRange (a ++ b) reset).lo i = xyz p i) ∧
      ∃ p ∈ (a ++ b ++ reset).filterMap (counted o origin),
        (shownRange o origin moveRange (a ++ b) reset).hi i = xyz p i := by
  unfold shownRange
  dsimp only
  obtain ⟨p1, h1⟩ := run_from (o := o) (origin := origin) a ((initial o moveRange).setPass .preprocess) []
    ⟨by simp, by simp [State.setPass, initial, hbox]⟩ (.inl ⟨rfl, .inr hno⟩)
    (fun c hc => hu c (by simp [hc]))
  obtain ⟨p2, h2⟩ := run_from (o := o) (origin := origin) b _ _ h1 (.inl ⟨p1, .inl (by simpa using hsome)⟩)
    (fun c hc => hu c (by simp [hc]))
  rw [← run_append] at h2
  obtain ⟨_, h3⟩ := run_from (o := o) (origin := origin) reset
    ((run o origin ((initial o moveRange).setPass .preprocess) (a ++ b)).1.setPass .init) _ h2
    (.inr ⟨rfl, hreset⟩) (fun c hc => hu c (by simp [hc]))
  have h4 := h3.2
  rw [if_neg (by simp [hsome])] at h4
  simpa [List.filterMap_append] using h4

end BeagleG.Visualizer
