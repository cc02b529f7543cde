import Verif.Visualizer.Measures
import Mathlib.Tactic.Ring
import Mathlib.Tactic.NormNum
import Mathlib.Tactic.Linarith
import Mathlib.Tactic.FinCases
import Mathlib.Tactic.FieldSimp
/-!
# C101: box, measure lines, home and legend of gcode2ps
-/
namespace BeagleG.Visualizer

/-- A corner of the box: at the upper end of some axes. -/
def corner (r : Frame ℚ) (c : Bool × Bool × Bool) : Fin 3 → ℚ :=
  row (if c.1 then r.hi 0 else r.lo 0) (if c.2.1 then r.hi 1 else r.lo 1) (if c.2.2 then r.hi 2 else r.lo 2)

/-- In how many axes two corners differ. -/
def differ (c d : Bool × Bool × Bool) : Nat := (if c.1 = d.1 then 0 else 1) + (if c.2.1 = d.2.1 then 0 else 1) + (if c.2.2 = d.2.2 then 0 else 1)

/-- **C101, the box**: each of the twelve edges is drawn once and nothing else; the three at the lowest corner are in the colours of their
axes, from there upwards. -/
theorem C101_frame (r : Frame ℚ) :
    (∃ l : List ((Bool × Bool × Bool) × (Bool × Bool × Bool)),
      (frameLines r).map (fun e => (e.a, e.b)) = l.map (fun e => (corner r e.1, corner r e.2)) ∧
      (∀ e ∈ l, differ e.1 e.2 = 1) ∧
      ∀ c d, differ c d = 1 → (l.filter fun e => e = (c, d) ∨ e = (d, c)).length = 1) ∧
    ∀ k, (frameLines r).filter (fun e => e.axis = some k) = [⟨r.lo, Function.update r.lo k (r.hi k), some k⟩] := by
  constructor
  · refine ⟨[((true, false, false), (true, true, false)), ((false, true, false), (true, true, false)),
      ((false, false, true), (false, true, true)), ((true, false, true), (true, true, true)),
      ((false, false, true), (true, false, true)), ((false, true, true), (true, true, true)),
      ((false, true, false), (false, true, true)), ((true, false, false), (true, false, true)),
      ((true, true, false), (true, true, true)), ((false, false, false), (true, false, false)),
      ((false, false, false), (false, true, false)), ((false, false, false), (false, false, true))], rfl, by decide, ?_⟩
    rintro ⟨a, b, c⟩ ⟨d, e, f⟩
    revert a b c d e f
    decide
  · have e0 : row (r.lo 0) (r.lo 1) (r.lo 2) = r.lo := by funext i; fin_cases i <;> rfl
    intro k
    have e1 : (frameLines r).filter (fun e => e.axis = some k) =
        [⟨row (r.lo 0) (r.lo 1) (r.lo 2), Function.update (row (r.lo 0) (r.lo 1) (r.lo 2)) k (r.hi k), some k⟩] := by
      have u : ∀ x : ℚ, row x (r.lo 1) (r.lo 2) = Function.update (row (r.lo 0) (r.lo 1) (r.lo 2)) 0 x ∧
          row (r.lo 0) x (r.lo 2) = Function.update (row (r.lo 0) (r.lo 1) (r.lo 2)) 1 x ∧
          row (r.lo 0) (r.lo 1) x = Function.update (row (r.lo 0) (r.lo 1) (r.lo 2)) 2 x := by
        intro x
        refine ⟨?_, ?_, ?_⟩ <;> funext i <;> fin_cases i <;> rfl
      fin_cases k
      · show [_] = [_]
        rw [(u (r.hi 0)).1]; rfl
      · show [_] = [_]
        rw [(u (r.hi 1)).2.1]; rfl
      · show [_] = [_]
        rw [(u (r.hi 2)).2.2]; rfl
    rw [e1, e0]

/-- **C101, home**: three lines of the same length from the origin of the machine, along the axes. -/
theorem C101_home (origin : Fin 3 → ℚ) (r : Frame ℚ) :
    (homeLines origin r).map (fun e => (e.a, e.b, e.axis)) =
      [0, 1, 2].map fun k => (origin, Function.update origin k (origin k + r.diag / 20), some k) := by
  have h : (10 : ℚ) * (r.diag / 200) = r.diag / 20 := by ring
  unfold homeLines
  dsimp only
  rw [h]
  have u : ∀ x : ℚ, row x (origin 1) (origin 2) = Function.update origin 0 x ∧ row (origin 0) x (origin 2) = Function.update origin 1 x ∧
      row (origin 0) (origin 1) x = Function.update origin 2 x := by
    intro x
    refine ⟨?_, ?_, ?_⟩ <;> funext i <;> fin_cases i <;> rfl
  simp only [List.map_cons, List.map_nil, (u _).1, (u _).2.1, (u _).2.2]

/-! ### Measure lines -/

/-- **C101, numbers**: millimetres, or inches of 25.4 mm. -/
theorem C101_numbers (x : ℚ) : (measure true x).2 = x ∧ (measure false x).2 * (254 / 10) = x := by
  constructor
  · rfl
  · show x / (127 / 5) * (254 / 10) = x
    ring

/-- **C101, units**: millimetres are given with two decimals and called mm, inches with three and the sign for inches. -/
theorem C101_units (x : ℚ) : (measure true x).1 = 2 ∧ unitText true = ['m', 'm'].map (fun c => (c.toNat : Int)) ∧
    (measure false x).1 = 3 ∧ unitText false = ['"'].map (fun c => (c.toNat : Int)) := ⟨rfl, rfl, rfl, rfl⟩

/-- **C101, a measure line**: nothing for an axis that is short in comparison; otherwise two ticks, the line, and the numbers for the length
(with the unit), the lower and the upper end. The text of the length does not reach above the line. -/
theorem C101_line (print : Printer) {lo hi size : ℚ} (metric : Bool) (hs : 0 ≤ size) :
    (hi - lo < 3 * size → measureLine print lo hi size metric = some []) ∧
    (3 * size ≤ hi - lo → ∃ t1 t2 t3,
      Hershey.drawText (print (measure metric (hi - lo)).1 (measure metric (hi - lo)).2 ++ unitText metric) ((hi - lo) / 2) (-size) .center
        size = some t1 ∧
      Hershey.drawText (print (measure metric lo).1 (measure metric lo).2) 0 (size / 10) .center (size * (3 / 5)) = some t2 ∧
      Hershey.drawText (print (measure metric hi).1 (measure metric hi).2) 0 0 .center (size * (3 / 5)) = some t3 ∧
      (∀ c ∈ t1, c.y ≤ 0) ∧
      measureLine print lo hi size metric = some ([⟨false, 0, -size⟩, ⟨true, 0, size⟩, ⟨false, 0, 0⟩, ⟨true, hi - lo, 0⟩,
        ⟨false, hi - lo, -size⟩, ⟨true, hi - lo, size⟩] ++ t1 ++ t2.map (fun c => ⟨c.line, -c.y, c.x⟩) ++
        t3.map fun c => ⟨c.line, hi - lo - c.y + 3 / 5 * size, c.x⟩)) := by
  constructor
  · intro h
    unfold measureLine
    dsimp only
    rw [if_pos h]
  · intro h
    have hs' : 0 ≤ size * (3 / 5) := by positivity
    obtain ⟨_, t1, _, h1, k1⟩ := Hershey.C81_extent
      (print (measure metric (hi - lo)).1 (measure metric (hi - lo)).2 ++ unitText metric) ((hi - lo) / 2) (-size) .center hs
    obtain ⟨_, t2, _, h2, _⟩ := Hershey.C81_extent (print (measure metric lo).1 (measure metric lo).2) 0 (size / 10) .center hs'
    obtain ⟨_, t3, _, h3, _⟩ := Hershey.C81_extent (print (measure metric hi).1 (measure metric hi).2) 0 0 .center hs'
    refine ⟨t1, t2, t3, h1, h2, h3, ?_, ?_⟩
    · intro c hc
      have := (k1 c hc).2.2.1
      linarith
    · unfold measureLine
      dsimp only
      rw [if_neg (not_lt.2 h), h1, Option.bind_some, h2, Option.bind_some, h3, Option.map_some]

/-- **C101, measure lines**: if the range of an axis is at least 3/40 of the diagonal, the line for it goes exactly from its lower to its upper
end, parallel to the axis, outside of the box, with a tick across each end; otherwise nothing is drawn. -/
theorem C101_measures (print : Printer) (r : Frame ℚ) (ok : r.Ok) (preferInch : Bool) (i : Fin 3) :
    ∃ l, measureLines print r preferInch i = some l ∧ (r.hi i - r.lo i < 3 / 40 * r.diag → l = []) ∧
      (3 / 40 * r.diag ≤ r.hi i - r.lo i → ∃ a b p q c d rest,
        l = [(false, a), (true, b), (false, p), (true, q), (false, c), (true, d)] ++ rest ∧
        p i = r.lo i ∧ q i = r.hi i ∧ (∀ j, j ≠ i → p j = q j) ∧ a i = r.lo i ∧ b i = r.lo i ∧ c i = r.hi i ∧ d i = r.hi i ∧
        (∀ j, a j + b j = 2 * p j) ∧ (∀ j, c j + d j = 2 * q j) ∧
        ∃ j, j ≠ i ∧ (p j = r.lo j - 3 / 80 * r.diag ∨ p j = r.hi j + 3 / 80 * r.diag)) := by
  have hs : (0 : ℚ) ≤ 1 / 40 * r.diag := by have := ok.nonneg; positivity
  obtain ⟨h1, h2⟩ := C101_line print (lo := r.lo i) (hi := r.hi i) (!preferInch) hs
  by_cases hw : r.hi i - r.lo i < 3 / 40 * r.diag
  · refine ⟨[], ?_, fun _ => rfl, fun h => absurd h (not_le.2 hw)⟩
    unfold measureLines
    dsimp only
    rw [h1 (by linarith)]; rfl
  · have hw' := not_lt.1 hw
    obtain ⟨t1, t2, t3, _, _, _, _, e⟩ := h2 (by linarith)
    refine ⟨_, by unfold measureLines; dsimp only; rw [e]; rfl, fun h => absurd h hw, fun _ => ?_⟩
    simp only [List.append_assoc, List.map_append, List.map_cons, List.map_nil]
    refine ⟨_, _, _, _, _, _, _, rfl, ?_⟩
    fin_cases i
    · refine ⟨?_, ?_, ?_, ?_, ?_, ?_, ?_, ?_, ?_, 1, by decide, .inl ?_⟩
      any_goals (intro j; fin_cases j)
      all_goals first
        | (intro h; exact absurd rfl h)
        | (intro _; rfl)
        | (dsimp [onPlane, row]; ring1)
    · refine ⟨?_, ?_, ?_, ?_, ?_, ?_, ?_, ?_, ?_, 0, by decide, .inl ?_⟩
      any_goals (intro j; fin_cases j)
      all_goals first
        | (intro h; exact absurd rfl h)
        | (intro _; rfl)
        | (dsimp [onPlane, row]; ring1)
    · refine ⟨?_, ?_, ?_, ?_, ?_, ?_, ?_, ?_, ?_, 1, by decide, .inr ?_⟩
      any_goals (intro j; fin_cases j)
      all_goals first
        | (intro h; exact absurd rfl h)
        | (intro _; rfl)
        | (dsimp [onPlane, row]; ring1)

/-- **C101, at least one measure**: the longest axis always has a measure line. -/
theorem C101_longest (r : Frame ℚ) (ok : r.Ok) : ∃ i, 3 / 40 * r.diag ≤ r.hi i - r.lo i := by
  by_contra h
  have h' : ∀ i, r.hi i - r.lo i < 3 / 40 * r.diag := fun i => by
    by_contra hi
    exact h ⟨i, not_lt.1 hi⟩
  have sq : ∀ i, (r.hi i - r.lo i) * (r.hi i - r.lo i) ≤ (3 / 40 * r.diag) * (3 / 40 * r.diag) := fun i =>
    mul_le_mul (h' i).le (h' i).le (sub_nonneg.2 (ok.sides i)) (by have := ok.nonneg; positivity)
  have pos : 0 < r.diag := by
    have a := h' 0
    have b := ok.sides 0
    linarith
  have := ok.square
  have a := sq 0
  have b := sq 1
  have c := sq 2
  nlinarith [mul_pos pos pos]

/-! ### The legend -/

/-- The colour seen at a place: that of the last bar drawn there. -/
def Shown (l : List Bar) (p : ℚ) (colour : Nat) : Prop :=
  ∃ pre b post, l = pre ++ b :: post ∧ b.colour = colour ∧ b.start ≤ p ∧ p ≤ b.stop ∧ ∀ c ∈ post, ¬ (c.start ≤ p ∧ p ≤ c.stop)

theorem bars_eq (step : ℚ) (n i : Nat) (x : ℚ) :
    bars step n i x = (List.range n).map fun k => ⟨i + k, x + k * step, x + (k + 1) * step + 1 / 10⟩ := by
  induction n generalizing i x with
  | zero => rfl
  | succ n ih =>
    rw [bars, ih, List.range_succ_eq_map, List.map_cons, List.map_map]
    congr 1
    · congr 1 <;> push_cast <;> ring
    · apply List.map_congr_left
      intro k _
      simp only [Function.comp_apply]
      congr 1
      · omega
      · push_cast; ring
      · push_cast; ring

theorem shown_bar {x w t : ℚ} (hw : 0 < w) {k : Nat} (hk : k < 256) (hl : (k : ℚ) ≤ 256 * t)
    (hu : 256 * t ≤ k + 1) (hr : k = 255 ∨ 256 * t < k + 1) : Shown (bars (w / 256) 256 0 x) (x + w * t) k := by
  rw [bars_eq]
  have split : List.range 256 = List.range k ++ k :: (List.range (255 - k)).map (k + 1 + ·) := by
    have : 256 = k + (1 + (255 - k)) := by omega
    conv_lhs => rw [this, List.range_add]
    congr 1
    rw [List.range_add, List.map_append]
    show [k + 0] ++ _ = _
    rw [List.map_map]
    simp only [Nat.add_zero, List.singleton_append]
    congr 1
    apply List.map_congr_left
    intro a _
    simp only [Function.comp_apply]
    omega
  rw [split, List.map_append, List.map_cons]
  refine ⟨_, _, _, rfl, by simp, ?_, ?_, ?_⟩
  · have : (k : ℚ) * (w / 256) ≤ w * t := by
      have := mul_le_mul_of_nonneg_left hl hw.le
      linarith
    linarith
  · have : w * t ≤ (k + 1) * (w / 256) := by
      have := mul_le_mul_of_nonneg_left hu hw.le
      linarith
    linarith
  · intro c hc
    rw [List.map_map] at hc
    obtain ⟨a, ha, rfl⟩ := List.mem_map.1 hc
    rw [List.mem_range] at ha
    rintro ⟨h, -⟩
    simp only [Function.comp_apply] at h
    rcases hr with hr | hr
    · omega
    · have h1 : (((k + 1 + a : Nat) : ℚ)) * (w / 256) ≤ w * t := by linarith
      have h2 : ((k + 1 + a : Nat) : ℚ) ≤ 256 * t := by
        by_contra hn
        have := mul_lt_mul_of_pos_left (not_le.1 hn) hw
        linarith
      push_cast at h2
      have : (0 : ℚ) ≤ a := Nat.cast_nonneg a
      linarith

/-- **C101, the legend**: at the place that belongs to a speed, between the ends of the bar as the speed between the ends of the range, the
colour is that of this speed in the picture or the one next to it. -/
theorem C101_legend (s : Path.State) (r : Frame ℚ) (hd : 0 < r.diag) {L : Legend} (hL : legend r s = some L) {v : ℚ}
    (h0 : s.minColour ≤ v) (h1 : v ≤ s.maxColour) :
    ∃ k idx, Shown L.bar (-9 / 20 * r.diag + 9 / 10 * r.diag * ((v - s.minColour) / (s.maxColour - s.minColour))) k ∧
      Path.colourIndex s v = some idx ∧ (k : ℤ) - idx ≤ 1 ∧ idx - (k : ℤ) ≤ 1 := by
  unfold legend at hL
  split at hL
  · cases hL
  · rename_i hlt
    have hlt' := not_le.1 hlt
    obtain rfl := Option.some.inj hL
    dsimp only
    have hpos : 0 < s.maxColour - s.minColour := by linarith
    have e : -r.diag / 2 + 1 / 20 * r.diag = -9 / 20 * r.diag := by ring
    rw [e]
    obtain ⟨t, ht⟩ : ∃ t, t = (v - s.minColour) / (s.maxColour - s.minColour) := ⟨_, rfl⟩
    have t0 : 0 ≤ t := by rw [ht]; exact div_nonneg (by linarith) hpos.le
    have t1 : t ≤ 1 := by rw [ht, div_le_one hpos]; linarith
    rw [← ht]
    have hidx : Path.colourIndex s v = some ⌊255 * t + 1 / 2⌋ := by
      unfold Path.colourIndex
      rw [if_neg (not_lt.2 h0), if_neg (not_lt.2 h1), if_neg hpos.ne']
      dsimp only
      have : 255 * (v - s.minColour) / (s.maxColour - s.minColour) = 255 * t := by rw [ht]; ring
      rw [this]
      have hr : Path.roundf (255 * t) = ⌊255 * t + 1 / 2⌋ := by
        unfold Path.roundf
        rw [if_pos (by linarith : (0 : ℚ) ≤ 255 * t)]
      rw [hr, if_pos]
      constructor
      · exact Int.floor_nonneg.2 (by linarith)
      · rw [Int.floor_lt]; push_cast; linarith
    by_cases hl : t = 1
    · refine ⟨255, _, shown_bar (by linarith) (by omega) (by rw [hl]; norm_num) (by rw [hl]; norm_num) (.inl rfl), hidx, ?_⟩
      rw [hl]
      norm_num
    · have hlt1 : t < 1 := lt_of_le_of_ne t1 hl
      have f0 : 0 ≤ ⌊256 * t⌋ := Int.floor_nonneg.2 (by linarith)
      have f1 : ⌊256 * t⌋ < 256 := by rw [Int.floor_lt]; push_cast; linarith
      obtain ⟨k, hk⟩ := Int.eq_ofNat_of_zero_le f0
      have l1 : (k : ℚ) ≤ 256 * t := by
        have := Int.floor_le (256 * t)
        rw [hk] at this; simpa using this
      have l2 : 256 * t < k + 1 := by
        have := Int.lt_floor_add_one (256 * t)
        rw [hk] at this; simpa using this
      refine ⟨k, _, shown_bar (by linarith) (by omega) l1 l2.le (.inr l2), hidx, ?_, ?_⟩
      · have : (k : ℤ) - 1 ≤ ⌊255 * t + 1 / 2⌋ := by
          rw [Int.le_floor]; push_cast; linarith
        omega
      · have : ⌊255 * t + 1 / 2⌋ < (k : ℤ) + 2 := by
          rw [Int.floor_lt]; push_cast; linarith
        omega

/-- **C101, labels**: each stands at the place that belongs to its speed. -/
theorem C101_labels (s : Path.State) (r : Frame ℚ) {L : Legend} (hL : legend r s = some L) :
    L.labels.length = 7 ∧ (∀ l ∈ L.labels, s.minColour ≤ l.2 ∧ l.2 ≤ s.maxColour ∧
      l.1 = -9 / 20 * r.diag + 9 / 10 * r.diag * ((l.2 - s.minColour) / (s.maxColour - s.minColour))) ∧
    L.lowest = s.minV ∧ L.highest = s.maxV := by
  unfold legend at hL
  split at hL
  · cases hL
  · rename_i hlt
    have hlt' := not_le.1 hlt
    obtain rfl := Option.some.inj hL
    have hpos : 0 < s.maxColour - s.minColour := by linarith
    refine ⟨rfl, ?_, rfl, rfl⟩
    intro l hl
    simp only [labels, List.mem_append, List.mem_cons, List.mem_map, List.mem_range, List.not_mem_nil, or_false] at hl
    rcases hl with (rfl | ⟨k, hk, rfl⟩) | rfl
    · refine ⟨le_rfl, hlt'.le, ?_⟩
      dsimp only
      rw [sub_self, zero_div]; ring
    · have h0 : (0 : ℚ) ≤ ((k + 1 : Nat) : ℚ) := Nat.cast_nonneg _
      have h5 : ((k + 1 : Nat) : ℚ) ≤ 6 := by exact_mod_cast (by omega : k + 1 ≤ 6)
      dsimp only
      refine ⟨?_, ?_, ?_⟩
      · have := mul_nonneg h0 hpos.le
        linarith
      · have := mul_le_mul_of_nonneg_right h5 hpos.le
        linarith
      · have : s.minColour + ((k + 1 : Nat) : ℚ) * (s.maxColour - s.minColour) / 6 - s.minColour =
            ((k + 1 : Nat) : ℚ) / 6 * (s.maxColour - s.minColour) := by ring
        rw [this, mul_div_cancel_right₀ _ hpos.ne']
        ring
    · refine ⟨hlt'.le, le_rfl, ?_⟩
      dsimp only
      rw [div_self hpos.ne']; ring

/-- **C101, no legend**: exactly if the machine has only one speed. -/
theorem C101_absent (c : Path.Config) (s s' : Path.State) (out : List Path.Out) (len : ℚ) (r : Frame ℚ)
    (h : Path.startOutput c s len = some (s', out)) : legend r s' = none ↔ s.maxV ≤ s.minV := by
  unfold Path.startOutput at h
  rcases hm : Path.emitMove c s.pos with _ | o
  · rw [hm] at h; cases h
  · rw [hm] at h
    simp only [Option.map_some, Option.some.injEq, Prod.mk.injEq] at h
    obtain ⟨rfl, -⟩ := h
    unfold legend
    dsimp only
    constructor
    · intro h
      split at h
      · linarith
      · cases h
    · intro h
      rw [if_pos (by linarith)]

/-- A box of 2 by 4 by 4: all three sides are long enough to be measured. -/
example : smallBox.Ok ∧ ∀ i, 3 / 40 * smallBox.diag ≤ smallBox.hi i - smallBox.lo i := by
  refine ⟨⟨?_, by decide +kernel, by decide +kernel⟩, ?_⟩ <;> intro i <;> fin_cases i <;> decide +kernel

/-- A box that is flat: no measure for its height. -/
example : (⟨row 0 0 0, row 30 40 1, 50⟩ : Frame ℚ).hi 2 - (⟨row 0 0 0, row 30 40 1, 50⟩ : Frame ℚ).lo 2 < 3 / 40 * 50 := by
  decide +kernel

end BeagleG.Visualizer
