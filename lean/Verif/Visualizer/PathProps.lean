import Mathlib.Tactic.Ring
import Mathlib.Tactic.Linarith
import Mathlib.Tactic.NormNum
import Mathlib.Tactic.FieldSimp
import Mathlib.Tactic.Positivity
import Mathlib.Data.List.Forall2
import Verif.Visualizer.Path

/-!
# gcode2ps: the path of the machine (C86)
-/

namespace BeagleG.Visualizer.Path

/-! ## Colours -/

theorem colourIndex_range {s : State} {v : ℚ} {k : Int} (h : colourIndex s v = some k) : 0 ≤ k ∧ k < 256 := by
  unfold colourIndex at h
  split at h
  · injection h with h; omega
  · split at h
    · injection h with h; omega
    · split at h
      · exact absurd h (by simp)
      · dsimp only at h
        split at h
        · rename_i hk
          injection h with h
          rw [← h]; exact hk
        · exact absurd h (by simp)

theorem roundf_range {x : ℚ} (h0 : 0 ≤ x) (h1 : x ≤ 255) : 0 ≤ roundf x ∧ roundf x < 256 := by
  unfold roundf
  rw [if_pos h0]
  constructor
  · exact Int.floor_nonneg.2 (by linarith)
  · rw [Int.floor_lt]; push_cast; linarith

/-- There is a colour for every speed, if the speeds that were counted are not all the same. -/
theorem C86_colour_defined {s : State} (h : s.minColour ≠ s.maxColour) (v : ℚ) :
    ∃ k, colourIndex s v = some k := by
  unfold colourIndex
  split
  · exact ⟨_, rfl⟩
  · split
    · exact ⟨_, rfl⟩
    · rename_i h1 h2
      have hlt : s.minColour < s.maxColour := lt_of_le_of_ne (by linarith) h
      have hd : 0 < s.maxColour - s.minColour := by linarith
      rw [if_neg (ne_of_gt hd)]
      have hx0 : 0 ≤ 255 * (v - s.minColour) / (s.maxColour - s.minColour) :=
        div_nonneg (by linarith) hd.le
      have hx1 : 255 * (v - s.minColour) / (s.maxColour - s.minColour) ≤ 255 := by
        rw [div_le_iff₀ hd]; linarith
      dsimp only
      rw [if_pos (roundf_range hx0 hx1)]
      exact ⟨_, rfl⟩

/-- Faster is not a lower colour. -/
theorem C86_colour_monotone {s : State} {v w : ℚ} {j k : Int} (hvw : v ≤ w)
    (hv : colourIndex s v = some j) (hw : colourIndex s w = some k) : j ≤ k := by
  have rj := colourIndex_range hv
  have rk := colourIndex_range hw
  unfold colourIndex at hv hw
  split at hv
  · injection hv with hv; omega
  · rename_i h1
    split at hw
    · exact absurd (lt_of_le_of_lt hvw ‹_›) h1
    · split at hw
      · injection hw with hw; omega
      · rename_i h2 h3
        split at hv
        · exact absurd (lt_of_lt_of_le ‹_› hvw) h3
        · split at hv
          · exact absurd hv (by simp)
          · rename_i h4 h5
            rw [if_neg h5] at hw
            dsimp only at hv hw
            split at hv
            · split at hw
              · injection hv with hv
                injection hw with hw
                rw [← hv, ← hw]
                have hd : 0 < s.maxColour - s.minColour :=
                  lt_of_le_of_ne (by linarith) (Ne.symm h5)
                have hx0 : 0 ≤ 255 * (v - s.minColour) / (s.maxColour - s.minColour) :=
                  div_nonneg (by linarith) hd.le
                have hxy : 255 * (v - s.minColour) / (s.maxColour - s.minColour) ≤
                    255 * (w - s.minColour) / (s.maxColour - s.minColour) := by
                  apply div_le_div_of_nonneg_right _ hd.le
                  linarith
                unfold roundf
                rw [if_pos hx0, if_pos (hx0.trans hxy)]
                exact Int.floor_le_floor (by linarith)
              · exact absurd hw (by simp)
            · exact absurd hv (by simp)

/-! ## The motor with the most steps -/

theorem dominant_most (steps : Fin 8 → Int) (m : Fin 8) :
    (steps m).natAbs ≤ (steps (dominant steps)).natAbs := by
  have key : ∀ (l : List (Fin 8)) (d : Fin 8),
      let r := l.foldl (fun d i => if (steps d).natAbs < (steps i).natAbs then i else d) d
      (steps d).natAbs ≤ (steps r).natAbs ∧ ∀ i ∈ l, (steps i).natAbs ≤ (steps r).natAbs := by
    intro l
    induction l with
    | nil => intro d; simp
    | cons a l ih =>
      intro d
      obtain ⟨h1, h2⟩ := ih (if (steps d).natAbs < (steps a).natAbs then a else d)
      dsimp only [List.foldl_cons] at *
      have hd : (steps d).natAbs ≤ (steps (if (steps d).natAbs < (steps a).natAbs then a else d)).natAbs := by
        split <;> omega
      have ha : (steps a).natAbs ≤ (steps (if (steps d).natAbs < (steps a).natAbs then a else d)).natAbs := by
        split <;> omega
      refine ⟨hd.trans h1, ?_⟩
      intro i hi
      rcases List.mem_cons.1 hi with rfl | hi
      · exact ha.trans h1
      · exact h2 i hi
  exact (key (List.finRange 8) 0).2 m (List.mem_finRange m)

/-- The motors that move have a number of steps per millimeter: motor and axis are the same. -/
def Segment.Mapped (c : Config) (p : Segment) : Prop := ∀ m, p.steps m ≠ 0 → c.perMm m ≠ 0

theorem idle_still {c : Config} {p : Segment} (hm : p.Mapped c) (h : idle c p = true) (m : Fin 8) :
    p.steps m = 0 := by
  have hd : p.steps (dominant p.steps) = 0 := by
    by_contra hne
    simp only [idle, Bool.or_eq_true, decide_eq_true_eq] at h
    rcases h with h | h
    · exact hm _ hne h
    · exact hne h
  have := dominant_most p.steps m
  rw [hd] at this
  simpa using this

/-! ## What has to be drawn -/

/-- The place (in millimeters) and colour for part `i` of `n` of a segment that begins at `pos`. -/
def PartIs (c : Config) (s : State) (pos : Fin 8 → Int) (p : Segment) (len : ℚ) (n i : Nat)
    (w : (ℚ × ℚ × ℚ) × Colour) : Prop :=
  w.1 = (partEnd pos p n i 0 / c.perMm 0, partEnd pos p n i 1 / c.perMm 1, partEnd pos p n i 2 / c.perMm 2) ∧
    ∃ k : Int, colourIndex s (shownSpeed c p len n i) = some k ∧ w.2 = .scale k

/-- The lines with their colours for a sequence of calls, if the motors are at `pos` before. -/
inductive Paints (sqrt : ℚ → ℚ) (c : Config) (s : State) :
    (Fin 8 → Int) → List Call → List ((ℚ × ℚ × ℚ) × Colour) → Prop where
  | nil (pos) : Paints sqrt c s pos [] []
  | external (pos m x l w) : Paints sqrt c s (fun k => if k = m then x else pos k) l w →
      Paints sqrt c s pos (.external m x :: l) w
  | still (pos p l w) : p.steps 0 = 0 → p.steps 1 = 0 → p.steps 2 = 0 → Paints sqrt c s pos l w →
      Paints sqrt c s pos (.enqueue p :: l) w
  | segment (pos p l w len n v) : length sqrt c p.steps = some len → 0 < n → partCount s p len = some n →
      List.Forall₂ (PartIs c s pos p len n) (List.range n) v → Paints sqrt c s (advance pos p) l w →
      Paints sqrt c s pos (.enqueue p :: l) (v ++ w)

theorem seen_switch (a : Paper) (c : Colour) : (paint a (.switchColour c)).seen = a.seen := by
  simp [paint, Paper.seen]

theorem seen_line (a : Paper) (x y z : ℚ) : (paint a (.line x y z)).seen = a.seen ++ [((x, y, z), a.ink)] := by
  simp [paint, Paper.seen]

/-- `last_color_index_` is the colour in force, or none yet. -/
def Ink (last : Int) (a : Paper) : Prop := last = -1 ∨ a.ink = .scale last

theorem place_some {c : Config} {pos : Fin 3 → ℚ} {q} (h : place c pos = some q) :
    (c.perMm 0 ≠ 0 ∧ c.perMm 1 ≠ 0 ∧ c.perMm 2 ≠ 0) ∧
      q = (pos 0 / c.perMm 0, pos 1 / c.perMm 1, pos 2 / c.perMm 2) := by
  unfold place at h
  split at h
  · exact absurd h (by simp)
  · rename_i hne
    injection h with h
    simp only [not_or] at hne
    exact ⟨hne, h.symm⟩

theorem part_paints {c : Config} {s : State} {p : Segment} {len : ℚ} {n i : Nat} {last : Int} {r}
    (h : part c s p len true n i last = some r) {a : Paper} (ha : Ink last a) :
    ∃ w, PartIs c s s.pos p len n i w ∧ (r.2.foldl paint a).seen = a.seen ++ [w] ∧
      Ink r.1 (r.2.foldl paint a) := by
  unfold part at h
  obtain ⟨q, hq, h⟩ := Option.bind_eq_some_iff.1 h
  obtain ⟨_, hq⟩ := place_some hq
  simp only [if_true] at h
  obtain ⟨k, hk, h⟩ := Option.map_eq_some_iff.1 h
  have rk := colourIndex_range hk
  refine ⟨(q, .scale k), ⟨hq, k, hk, rfl⟩, ?_⟩
  by_cases hl : k = last
  · rw [if_neg (by simpa using hl)] at h
    subst h
    have hi : a.ink = .scale k := by
      rcases ha with ha | ha
      · omega
      · rw [hl]; exact ha
    simp only [List.foldl_cons, List.foldl_nil, seen_line, hi]
    exact ⟨trivial, .inr (by rw [← hl]; exact hi)⟩
  · rw [if_pos (by simpa using hl)] at h
    subst h
    simp only [List.foldl_cons, List.foldl_nil, seen_line, seen_switch]
    exact ⟨rfl, .inr rfl⟩

theorem parts_paint {c : Config} {s : State} {p : Segment} {len : ℚ} {n : Nat} :
    ∀ (l : List Nat) {last : Int} {r}, parts c s p len true n l last = some r → ∀ {a : Paper}, Ink last a →
    ∃ v, List.Forall₂ (PartIs c s s.pos p len n) l v ∧ (r.2.foldl paint a).seen = a.seen ++ v ∧
      Ink r.1 (r.2.foldl paint a) := by
  intro l
  induction l with
  | nil =>
    intro last r h a ha
    injection h with h
    subst h
    exact ⟨[], .nil, by simp, ha⟩
  | cons i l ih =>
    intro last r h a ha
    simp only [parts] at h
    obtain ⟨x, hx, h⟩ := Option.bind_eq_some_iff.1 h
    obtain ⟨y, hy, h⟩ := Option.map_eq_some_iff.1 h
    subst h
    obtain ⟨w, hw, e1, i1⟩ := part_paints hx ha
    obtain ⟨v, hv, e2, i2⟩ := ih hy i1
    refine ⟨w :: v, .cons hw hv, ?_, ?_⟩
    · rw [List.foldl_append, e2, e1]; simp
    · rw [List.foldl_append]; exact i2

theorem length_pos {sqrt : ℚ → ℚ} (hsqrt : ∀ x, 0 < x → 0 < sqrt x) {c : Config} {steps : Fin 8 → Int} {len : ℚ}
    (h : length sqrt c steps = some len) (hne : ¬ (steps 0 = 0 ∧ steps 1 = 0 ∧ steps 2 = 0)) : 0 < len := by
  unfold length at h
  obtain ⟨q, hq, rfl⟩ := Option.map_eq_some_iff.1 h
  obtain ⟨⟨h0, h1, h2⟩, rfl⟩ := place_some hq
  apply hsqrt
  have sq : ∀ (x : Int) {k : ℚ}, k ≠ 0 → x ≠ 0 → 0 < (x : ℚ) / k * ((x : ℚ) / k) := by
    intro x k hk hx
    exact mul_self_pos.2 (div_ne_zero (by exact_mod_cast hx) hk)
  have nn : ∀ y : ℚ, 0 ≤ y * y := mul_self_nonneg
  have e0 : xyz steps 0 = steps 0 := rfl
  have e1 : xyz steps 1 = steps 1 := rfl
  have e2 : xyz steps 2 = steps 2 := rfl
  simp only [e0, e1, e2]
  have n0 := nn ((steps 0 : ℚ) / c.perMm 0)
  have n1 := nn ((steps 1 : ℚ) / c.perMm 1)
  have n2 := nn ((steps 2 : ℚ) / c.perMm 2)
  by_cases z0 : steps 0 = 0
  · by_cases z1 : steps 1 = 0
    · have z2 : steps 2 ≠ 0 := fun z2 => hne ⟨z0, z1, z2⟩
      have := sq _ h2 z2
      linarith
    · have := sq _ h1 z1
      linarith
  · have := sq _ h0 z0
    linarith

theorem partCount_pos {s : State} {p : Segment} {len : ℚ} {n : Nat} (h : partCount s p len = some n) : 0 < n := by
  unfold partCount at h
  split at h
  · injection h with h; omega
  · split at h
    · exact absurd h (by simp)
    · dsimp only at h
      injection h with h
      split at h <;> omega

theorem advance_still {pos : Fin 8 → Int} {p : Segment} (h : p.steps 0 = 0 ∧ p.steps 1 = 0 ∧ p.steps 2 = 0) :
    advance pos p = pos := by
  funext m
  unfold advance
  have : m.val < 3 → p.steps m = 0 := by
    intro hm
    obtain ⟨h0, h1, h2⟩ := h
    have : m = 0 ∨ m = 1 ∨ m = 2 := by revert hm; revert m; decide
    rcases this with rfl | rfl | rfl <;> assumption
  split
  · rw [this ‹_›]; omega
  · rfl

/-- `PartIs` and `partCount` depend on the range of colours and the length only, which do not change. -/
def State.Same (s t : State) : Prop :=
  s.minColour = t.minColour ∧ s.maxColour = t.maxColour ∧ s.colourLength = t.colourLength

theorem colourIndex_same {s t : State} (h : s.Same t) (v : ℚ) : colourIndex s v = colourIndex t v := by
  unfold colourIndex
  rw [h.1, h.2.1]

theorem partCount_same {s t : State} (h : s.Same t) (p : Segment) (len : ℚ) :
    partCount s p len = partCount t p len := by
  unfold partCount
  rw [h.2.2]

theorem PartIs.same {c : Config} {s t : State} (h : s.Same t) {pos p len n i w}
    (hp : PartIs c s pos p len n i w) : PartIs c t pos p len n i w := by
  obtain ⟨h1, k, hk, h2⟩ := hp
  exact ⟨h1, k, by rw [← colourIndex_same h]; exact hk, h2⟩

/-- With speeds: what is on the paper in the end is, for each segment from where the one before ended (or from
where the position was set), the parts of the way, evenly spaced up to its end, each in the colour of its
speed; and nothing else. -/
theorem C86_path_partial {sqrt : ℚ → ℚ} (hsqrt : ∀ x, 0 < x → 0 < sqrt x) {o : Opts} (ho : o.showSpeeds = true)
    (hr : o.showOutOfRange = false) {c : Config} {s0 : State} :
    ∀ (calls : List Call) {s : State} {r}, (∀ p, .enqueue p ∈ calls → p.Mapped c) →
    drawAll sqrt o c s calls = some r → s.Same s0 → ∀ {a : Paper}, Ink s.lastColour a →
    ∃ w, Paints sqrt c s0 s.pos calls w ∧ (r.2.foldl paint a).seen = a.seen ++ w := by
  intro calls
  induction calls with
  | nil =>
    intro s r _ h _ a _
    injection h with h
    subst h
    exact ⟨[], .nil _, by simp⟩
  | cons call calls ih =>
    intro s r hm h hs a ha
    simp only [drawAll] at h
    obtain ⟨x, hx, h⟩ := Option.bind_eq_some_iff.1 h
    obtain ⟨y, hy, h⟩ := Option.map_eq_some_iff.1 h
    subst h
    have hm' : ∀ p, .enqueue p ∈ calls → p.Mapped c := fun p hp => hm p (List.mem_cons_of_mem _ hp)
    simp only [List.foldl_append]
    cases call with
    | external m pos =>
      simp only [draw, emitMove] at hx
      obtain ⟨out, hout, rfl⟩ := Option.map_eq_some_iff.1 hx
      obtain ⟨q, _, rfl⟩ := Option.map_eq_some_iff.1 hout
      obtain ⟨w, hw, e⟩ := ih hm' hy (a := a) hs ha
      exact ⟨w, .external _ _ _ _ _ hw, e⟩
    | enqueue p =>
      have hp : p.Mapped c := hm p List.mem_cons_self
      simp only [draw] at hx
      by_cases hidle : idle c p = true
      · rw [if_pos hidle] at hx
        injection hx with hx
        subst hx
        obtain ⟨w, hw, e⟩ := ih hm' hy (a := a) hs ha
        exact ⟨w, .still _ _ _ _ (idle_still hp hidle _) (idle_still hp hidle _) (idle_still hp hidle _) hw, e⟩
      · rw [if_neg hidle] at hx
        unfold printSegment at hx
        split at hx
        · rename_i hz
          injection hx with hx
          subst hx
          obtain ⟨w, hw, e⟩ := ih hm' hy (a := a) hs ha
          exact ⟨w, .still _ _ _ _ hz.1 hz.2.1 hz.2.2 hw, e⟩
        · rename_i hz
          dsimp only at hx
          have hv : within o c (advance s.pos p) = true := by simp [within, hr]
          rw [hv] at hx
          obtain ⟨len, hlen, hx⟩ := Option.bind_eq_some_iff.1 hx
          have hpos := length_pos hsqrt hlen hz
          rw [if_neg (ne_of_gt hpos)] at hx
          obtain ⟨n, hn, hx⟩ := Option.bind_eq_some_iff.1 hx
          obtain ⟨t, ht, rfl⟩ := Option.map_eq_some_iff.1 hx
          obtain ⟨v, fv, ev, iv⟩ := parts_paint _ ht ha
          obtain ⟨w, hw, e⟩ := ih hm' hy hs (a := t.2.foldl paint a) iv
          refine ⟨v ++ w, .segment _ _ _ _ len n v hlen (partCount_pos hn)
            (by rw [← partCount_same hs]; exact hn) (fv.imp fun _ _ => PartIs.same hs) hw, ?_⟩
          rw [e, ev, List.append_assoc]

/-- The last part of a segment ends where the segment ends. -/
theorem C86_end (pos : Fin 8 → Int) (p : Segment) {n : Nat} (hn : 0 < n) :
    partEnd pos p n (n - 1) = xyz (advance pos p) := by
  funext a
  have : ((n - 1 + 1 : Nat) : ℚ) = n := by rw [Nat.sub_add_cancel hn]
  have hn' : (n : ℚ) ≠ 0 := by exact_mod_cast hn.ne'
  unfold partEnd
  rw [this, mul_div_assoc, mul_comm, div_mul_cancel₀ _ hn']
  simp [xyz, advance]

/-- Nothing goes wrong, if the three axes are configured, colours are for different speeds, and the length for
colours is not zero. -/
theorem C86_defined {sqrt : ℚ → ℚ} {o : Opts} {c : Config}
    (hc : c.perMm 0 ≠ 0 ∧ c.perMm 1 ≠ 0 ∧ c.perMm 2 ≠ 0) :
    ∀ (calls : List Call) {s : State}, s.minColour ≠ s.maxColour → s.colourLength ≠ 0 →
    ∃ r, drawAll sqrt o c s calls = some r := by
  have hplace : ∀ pos, ∃ q, place c pos = some q := by
    intro pos
    unfold place
    rw [if_neg (by simp [hc.1, hc.2.1, hc.2.2])]
    exact ⟨_, rfl⟩
  have hparts : ∀ {s : State} (_ : s.minColour ≠ s.maxColour) p len valid n l last,
      ∃ r, parts c s p len valid n l last = some r := by
    intro s hcol p len valid n l
    induction l with
    | nil => intro last; exact ⟨_, rfl⟩
    | cons i l ih =>
      intro last
      obtain ⟨q, hq⟩ := hplace (partEnd s.pos p n i)
      obtain ⟨k, hk⟩ := C86_colour_defined hcol (shownSpeed c p len n i)
      have : ∃ x, part c s p len valid n i last = some x := by
        unfold part
        rw [hq]
        cases valid
        · exact ⟨_, rfl⟩
        · simp [hk]
      obtain ⟨x, hx⟩ := this
      obtain ⟨y, hy⟩ := ih x.1
      exact ⟨(y.1, x.2 ++ y.2), by simp [parts, hx, hy]⟩
  have hdraw : ∀ {s : State} (_ : s.minColour ≠ s.maxColour) (_ : s.colourLength ≠ 0) (call : Call),
      ∃ r, draw sqrt o c s call = some r ∧ r.1.Same s := by
    intro s hcol hlen call
    cases call with
    | external m pos =>
      obtain ⟨q, hq⟩ := hplace (xyz fun k => if k = m then pos else s.pos k)
      exact ⟨_, by simp only [draw, emitMove, hq]; rfl, rfl, rfl, rfl⟩
    | enqueue p =>
      simp only [draw]
      split
      · exact ⟨_, rfl, rfl, rfl, rfl⟩
      · unfold printSegment
        split
        · exact ⟨_, rfl, rfl, rfl, rfl⟩
        · dsimp only
          split
          · obtain ⟨d, hd⟩ := hplace (xyz p.steps)
            have : ∃ len, length sqrt c p.steps = some len := ⟨_, by unfold length; rw [hd]; rfl⟩
            obtain ⟨len, hl⟩ := this
            rw [hl]
            simp only [Option.bind_some]
            split
            · exact ⟨_, rfl, rfl, rfl, rfl⟩
            · have : ∃ n, partCount s p len = some n := by
                unfold partCount
                split
                · exact ⟨_, rfl⟩
                · exact ⟨_, rfl⟩
              obtain ⟨n, hn⟩ := this
              obtain ⟨r, hr⟩ := hparts hcol p len (within o c (advance s.pos p)) n (List.range n) s.lastColour
              rw [hn]
              simp only [Option.bind_some, hr]
              exact ⟨_, rfl, rfl, rfl, rfl⟩
          · obtain ⟨q, hq⟩ := hplace (xyz (advance s.pos p))
            rw [hq]
            exact ⟨_, rfl, rfl, rfl, rfl⟩
  intro calls
  induction calls with
  | nil => intro s _ _; exact ⟨_, rfl⟩
  | cons call calls ih =>
    intro s hcol hlen
    obtain ⟨x, hx, e1, e2, e3⟩ := hdraw hcol hlen call
    obtain ⟨y, hy⟩ := ih (s := x.1) (by rw [e1, e2]; exact hcol) (by rw [e3]; exact hlen)
    exact ⟨(y.1, x.2 ++ y.2), by simp [drawAll, hx, hy]⟩

/-! ## The speed -/

/-- Where a part begins, the machine moves at least as fast as shown (`f` is the part of the way done, and the
square of the speed changes evenly along the way); at the beginning of a segment, exactly as fast. -/
theorem C86_speed_partial {c : Config} {p : Segment} {len : ℚ} {n i : Nat} (hn : 0 < n) (hi : i ≤ n)
    (hd : c.perMm (dominant p.steps) ≠ 0) (hs : p.steps (dominant p.steps) ≠ 0) :
    let f : ℚ := i / n
    let perStep : ℚ := len / (p.steps (dominant p.steps)).natAbs
    shownSpeed c p len n i ^ 2 ≤ ((1 - f) * p.v0 ^ 2 + f * p.v1 ^ 2) * perStep ^ 2 ∧
      shownSpeed c p len n 0 = p.v0 * perStep := by
  intro f perStep
  have hn' : (n : ℚ) ≠ 0 := by exact_mod_cast hn.ne'
  have hs' : ((p.steps (dominant p.steps)).natAbs : ℚ) ≠ 0 := by
    exact_mod_cast Int.natAbs_ne_zero.2 hs
  have e : ∀ j : Nat, shownSpeed c p len n j = (p.v0 + (j / n : ℚ) * (p.v1 - p.v0)) * perStep := by
    intro j
    unfold shownSpeed factor
    show _ = _ * (len / ((p.steps (dominant p.steps)).natAbs : ℚ))
    field_simp
  constructor
  · rw [e i, mul_pow]
    apply mul_le_mul_of_nonneg_right _ (by positivity)
    have f0 : 0 ≤ f := by positivity
    have f1 : f ≤ 1 := by
      show (i : ℚ) / n ≤ 1
      rw [div_le_one (by positivity)]
      exact_mod_cast hi
    show (p.v0 + f * (p.v1 - p.v0)) ^ 2 ≤ _
    have : 0 ≤ f * (1 - f) * (p.v1 - p.v0) ^ 2 := by
      have : 0 ≤ 1 - f := by linarith
      positivity
    nlinarith
  · rw [e 0]; simp

/-! ## The first pass -/

/-- The speeds at the ends of all segments that are counted are within the range found. -/
theorem C86_range {sqrt : ℚ → ℚ} {c : Config} : ∀ (calls : List Call) {s t : State},
    countAll sqrt c s calls = some t → t.minV ≤ s.minV ∧ s.maxV ≤ t.maxV ∧
    ∀ p len, .enqueue p ∈ calls → idle c p = false →
      3 < (p.steps 0).natAbs + (p.steps 1).natAbs + (p.steps 2).natAbs → length sqrt c p.steps = some len →
      ∀ v, v = p.v0 ∨ v = p.v1 → t.minV ≤ factor c p len * (v / c.perMm (dominant p.steps)) ∧
        factor c p len * (v / c.perMm (dominant p.steps)) ≤ t.maxV := by
  intro calls
  induction calls with
  | nil =>
    intro s t h
    injection h with h
    subst h
    exact ⟨le_rfl, le_rfl, fun _ _ h => absurd h (by simp)⟩
  | cons call calls ih =>
    intro s t h
    cases call with
    | external m pos =>
      simp only [countAll] at h
      obtain ⟨h1, h2, h3⟩ := ih h
      exact ⟨h1, h2, fun p len hp => h3 p len (by simpa using hp)⟩
    | enqueue q =>
      simp only [countAll] at h
      obtain ⟨u, hu, h⟩ := Option.bind_eq_some_iff.1 h
      obtain ⟨h1, h2, h3⟩ := ih h
      unfold count at hu
      by_cases hi : idle c q = true
      · rw [if_pos hi] at hu
        injection hu with hu
        subst hu
        refine ⟨h1, h2, fun p len hp hid => ?_⟩
        rcases List.mem_cons.1 hp with hp | hp
        · injection hp with hp
          subst hp
          rw [hi] at hid
          exact absurd hid (by simp)
        · exact h3 p len hp hid
      · rw [if_neg hi] at hu
        split at hu
        · rename_i hshort
          injection hu with hu
          subst hu
          refine ⟨h1, h2, fun p len hp hid hlong => ?_⟩
          rcases List.mem_cons.1 hp with hp | hp
          · injection hp with hp
            subst hp
            omega
          · exact h3 p len hp hid hlong
        · obtain ⟨l, hl, rfl⟩ := Option.map_eq_some_iff.1 hu
          simp only [State.remember, le_min_iff, max_le_iff] at h1 h2
          refine ⟨h1.2.2, h2.2.2, fun p len hp hid hlong hlen v hv => ?_⟩
          rcases List.mem_cons.1 hp with hp | hp
          · injection hp with hp
            subst hp
            rw [hl] at hlen
            injection hlen with hlen
            subst hlen
            rcases hv with rfl | rfl
            · exact ⟨h1.2.1, h2.2.1⟩
            · exact ⟨h1.1, h2.1⟩
          · exact h3 p len hp hid hlong hlen v hv

/-! ## Where it does not hold -/

/-- Three axes of 100 steps per millimeter and 10 mm. -/
def machine : Config := ⟨fun m => if m.val < 3 then 100 else 0, fun _ => 10⟩

/-- Motor 0 makes `x` steps. -/
def along (x : Int) (v0 v1 : ℚ) : Segment := ⟨v0, v1, fun m => if m = 0 then x else 0⟩

/-- A root, for positions on the X axis; other than `sqrtf` it needs to be right for one number only. -/
def rootOf (x : ℚ) : ℚ → ℚ := fun y => if y = x * x then x else 1

/-- Both passes with the same segments. -/
def both (o : Opts) (c : Config) (sqrt : ℚ → ℚ) (colourLength : ℚ) (calls : List Call) :
    Option (List ((ℚ × ℚ × ℚ) × Colour)) :=
  (countAll sqrt c {} calls).bind fun s =>
    (startOutput c s colourLength).bind fun a =>
      (drawAll sqrt o c a.1 calls).map fun b => ((a.2 ++ b.2).foldl paint { ink := .machine }).seen

/-- Non-vacuity of `C86_path_partial`: 1 mm while the speed increases, 1 mm of the final speed, and back. -/
example : both ⟨true, false⟩ machine (rootOf 1) (1 / 4)
    [.enqueue (along 100 0 1000), .enqueue (along 100 1000 1000), .enqueue (along (-100) 1000 1000)] =
    some [((1 / 4, 0, 0), .scale 0), ((1 / 2, 0, 0), .scale 48), ((3 / 4, 0, 0), .scale 128),
      ((1, 0, 0), .scale 207), ((2, 0, 0), .scale 255), ((1, 0, 0), .scale 255)] := by decide +kernel

/-- **The colour is not that of the speed within an acceleration**: half of the way from 0 to 1000 steps per
second the machine moves with √½ of the speed, 70 %; shown is 50 %. -/
theorem C86_linear : ∃ (c : Config) (p : Segment) (len : ℚ),
    shownSpeed c p len 2 1 ^ 2 < ((1 - 1 / 2) * p.v0 ^ 2 + 1 / 2 * p.v1 ^ 2) *
      (len / (p.steps (dominant p.steps)).natAbs) ^ 2 :=
  ⟨machine, along 100 0 1000, 1, by decide +kernel⟩

/-- **The scale of colours**: the slowest tenth of the range of speeds has the first colour, the fastest tenth the last
one, and the speed in the middle the one in the middle. -/
theorem C86_scale {c : Config} {s : State} {colourLength : ℚ} {r : State × List Out} (h : s.minV < s.maxV)
    (hr : startOutput c s colourLength = some r) :
    (∀ v, 10 * (v - s.minV) ≤ s.maxV - s.minV → colourIndex r.1 v = some 0) ∧
    (∀ v, 10 * (s.maxV - v) ≤ s.maxV - s.minV → colourIndex r.1 v = some 255) ∧
    colourIndex r.1 ((s.minV + s.maxV) / 2) = some 128 ∧
    (∀ v, s.maxV - s.minV < 10 * (v - s.minV) → s.maxV - s.minV < 10 * (s.maxV - v) →
      colourIndex r.1 v = some (roundf (255 * (10 * (v - s.minV) - (s.maxV - s.minV)) / (8 * (s.maxV - s.minV))))) := by
  unfold startOutput at hr
  cases he : emitMove c s.pos with
  | none => rw [he] at hr; cases hr
  | some out =>
    rw [he] at hr
    injection hr with hr
    subst hr
    have key : ∀ v, s.maxV - s.minV ≤ 10 * (v - s.minV) → s.maxV - s.minV ≤ 10 * (s.maxV - v) →
        255 * (v - (s.minV + 1 / 10 * (s.maxV - s.minV))) /
            (s.maxV - 1 / 10 * (s.maxV - s.minV) - (s.minV + 1 / 10 * (s.maxV - s.minV))) =
          255 * (10 * (v - s.minV) - (s.maxV - s.minV)) / (8 * (s.maxV - s.minV)) := by
      intro v _ _
      rw [div_eq_div_iff (by linarith) (by linarith)]
      ring
    have main : ∀ v, s.maxV - s.minV ≤ 10 * (v - s.minV) → s.maxV - s.minV ≤ 10 * (s.maxV - v) →
        colourIndex { s with minColour := s.minV + 1 / 10 * (s.maxV - s.minV),
                             maxColour := s.maxV - 1 / 10 * (s.maxV - s.minV), colourLength } v =
          some (roundf (255 * (10 * (v - s.minV) - (s.maxV - s.minV)) / (8 * (s.maxV - s.minV)))) := by
      intro v h1 h2
      have hd : (0 : ℚ) < 8 * (s.maxV - s.minV) := by linarith
      have q1 : 0 ≤ 255 * (10 * (v - s.minV) - (s.maxV - s.minV)) / (8 * (s.maxV - s.minV)) :=
        div_nonneg (by linarith) hd.le
      have q2 : 255 * (10 * (v - s.minV) - (s.maxV - s.minV)) / (8 * (s.maxV - s.minV)) ≤ 255 := by
        rw [div_le_iff₀ hd]; linarith
      unfold colourIndex
      dsimp only
      rw [if_neg (by linarith), if_neg (by linarith), if_neg (by linarith), key v h1 h2]
      generalize 255 * (10 * (v - s.minV) - (s.maxV - s.minV)) / (8 * (s.maxV - s.minV)) = q at q1 q2 ⊢
      have r1 : 0 ≤ roundf q := by
        unfold roundf; rw [if_pos q1]; exact Int.floor_nonneg.mpr (by linarith)
      have r2 : roundf q < 256 := by
        unfold roundf; rw [if_pos q1]; exact Int.floor_lt.mpr (by push_cast; linarith)
      rw [if_pos ⟨r1, r2⟩]
    refine ⟨fun v hv => ?_, fun v hv => ?_, ?_, fun v h1 h2 => main v h1.le h2.le⟩
    · by_cases hlt : v < s.minV + 1 / 10 * (s.maxV - s.minV)
      · unfold colourIndex; rw [if_pos hlt]
      · rw [main v (by linarith) (by linarith)]
        have : 10 * (v - s.minV) - (s.maxV - s.minV) = 0 := by linarith
        rw [this, mul_zero, zero_div]
        norm_num [roundf]
    · by_cases hlt : s.maxV - 1 / 10 * (s.maxV - s.minV) < v
      · unfold colourIndex
        rw [if_neg (show ¬ v < s.minV + 1 / 10 * (s.maxV - s.minV) by linarith), if_pos hlt]
      · rw [main v (by linarith) (by linarith)]
        have e : 10 * (v - s.minV) - (s.maxV - s.minV) = 8 * (s.maxV - s.minV) := by linarith
        rw [e, mul_div_assoc, div_self (by linarith)]
        norm_num [roundf]
    · rw [main _ (by linarith) (by linarith)]
      have e : 255 * (10 * ((s.minV + s.maxV) / 2 - s.minV) - (s.maxV - s.minV)) / (8 * (s.maxV - s.minV)) = 255 / 2 := by
        rw [div_eq_div_iff (by linarith) (by norm_num)]
        ring
      rw [e]
      norm_num [roundf]

/-- **One speed has no colour**: if all segments have the same speed, 0/0 is converted to an index. -/
theorem C86_one_speed : both ⟨true, false⟩ machine (rootOf 1) (1 / 4) [.enqueue (along 100 1000 1000)] = none := by
  decide +kernel

/-- **A machine without Z has no picture**: coordinates are 0/0. -/
theorem C86_two_axes (colourLength : ℚ) (s : State) :
    startOutput ⟨fun m => if m.val < 2 then 100 else 0, fun _ => 10⟩ s colourLength = none := by
  have : place ⟨fun m => if m.val < 2 then 100 else 0, fun _ => 10⟩ (xyz s.pos) = none := by
    unfold place
    rw [if_pos (by right; right; rfl)]
  simp [startOutput, emitMove, this]

/-- **A motor that is not that of its axis**: if motor 3 belongs to an axis other than the fourth and makes
the most steps, the segment counts for nothing; the way of X is lost, and all that follows is shifted. -/
theorem C86_other_motor : both ⟨false, false⟩ machine (rootOf 1) 1
    [.enqueue ⟨1000, 1000, fun m => if m = 0 then 100 else if m = 3 then 200 else 0⟩,
      .enqueue (along 100 1000 1000)] = some [((1, 0, 0), .machine)] := by decide +kernel

/-- **The second pass does not begin where the first one ended**: steps of the first pass are not added up.
Without homing in between the machine is at 1 mm, the picture begins at 0. -/
theorem C86_second_pass : (countAll (rootOf 1) machine {} [.enqueue (along 100 0 1000)]).map (fun s => s.pos 0) =
    some 0 := by decide +kernel

/-- **Behind a line outside of the range** the next one has the colour of that, if its speed has not changed
(this and the next two only with `show_out_of_range`, which no option of the program sets). -/
theorem C86_stuck_colour : both ⟨true, true⟩ machine (rootOf 1) 1
    [.enqueue (along 100 0 1000), .enqueue (along (-200) 0 0), .enqueue (along 100 0 0)] =
    some [((1, 0, 0), .scale 0), ((-1, 0, 0), .outOfRange), ((0, 0, 0), .outOfRange)] := by decide +kernel

/-- **At the beginning** lines outside of the range are drawn as those within. -/
theorem C86_first_outside : both ⟨false, true⟩ machine (rootOf 1) 1 [.enqueue (along (-100) 0 0)] =
    some [((-1, 0, 0), .machine)] := by decide +kernel

/-- **Without speeds** the whole path has one colour, the last that was set, because nothing is stroked before
the end. -/
theorem C86_last_colour : both ⟨false, true⟩ machine (rootOf 1) 1
    [.enqueue (along 100 0 0), .enqueue (along (-200) 0 0)] =
    some [((1, 0, 0), .outOfRange), ((-1, 0, 0), .outOfRange)] := by decide +kernel

end BeagleG.Visualizer.Path
