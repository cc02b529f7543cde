import Mathlib.Algebra.Order.Floor.Ring
import Mathlib.Tactic.LinearCombination
import Mathlib.Tactic.FieldSimp
import Verif.Hershey.Props

/-!
# gcode2ps: grid and title (C84)

Model of `DrawGrid`, `start_grid` and the title of `ShowMesaureLines` (/repo/src/gcode2ps.cc lines 165-180,
635-639 and 289-299).

Simplifications: `float` is ℚ (exact).  Of a line of the grid only its coordinate is kept.
-/

namespace BeagleG.Visualizer

/-! ## The grid -/

/-- `fmod`: what is left of `x` after subtracting `y` as often as possible, with the sign of `x`. gcode2ps.cc 165-179. -/
def fmod (x y : ℚ) : ℚ := x - y * (if 0 ≤ x / y then ⌊x / y⌋ else ⌈x / y⌉)

/-- `start_grid` (lines 635-639). -/
def startGrid (minValue grid : ℚ) : ℚ :=
  let start := minValue - fmod minValue grid
  if start < minValue then start + grid else start

/-- The loop (lines 168-172, 173-177) from `x` on; `none` if `fuel` rounds are not enough. -/
def gridLoop (hi d : ℚ) : (fuel : Nat) → (x : ℚ) → Option (List ℚ)
  | 0, _ => none
  | fuel + 1, x => if x < hi then (gridLoop hi d fuel (x + d)).map (x :: ·) else some []

/-- The first line is at the smallest multiple of the distance that is not below the range. -/
theorem C84_start (lo : ℚ) {d : ℚ} (hd : 0 < d) :
    ∃ k : ℤ, startGrid lo d = k * d ∧ lo ≤ startGrid lo d ∧ startGrid lo d < lo + d := by
  have hx : lo = d * (lo / d) := by field_simp
  by_cases hpos : 0 ≤ lo / d
  · have hf : lo - fmod lo d = d * ⌊lo / d⌋ := by unfold fmod; rw [if_pos hpos]; ring
    have h1 : (⌊lo / d⌋ : ℚ) ≤ lo / d := Int.floor_le _
    have h2 : lo / d < ⌊lo / d⌋ + 1 := Int.lt_floor_add_one _
    have m1 := mul_le_mul_of_nonneg_left h1 hd.le
    have m2 := mul_lt_mul_of_pos_left h2 hd
    by_cases hlt : d * (⌊lo / d⌋ : ℚ) < lo
    · refine ⟨⌊lo / d⌋ + 1, ?_⟩
      unfold startGrid
      simp only [hf, if_pos hlt]
      push_cast
      refine ⟨by ring, ?_, ?_⟩ <;> linarith
    · refine ⟨⌊lo / d⌋, ?_⟩
      unfold startGrid
      simp only [hf, if_neg hlt]
      refine ⟨by ring, ?_, ?_⟩ <;> linarith
  · have hf : lo - fmod lo d = d * ⌈lo / d⌉ := by unfold fmod; rw [if_neg hpos]; ring
    have h1 : lo / d ≤ (⌈lo / d⌉ : ℚ) := Int.le_ceil _
    have h2 : (⌈lo / d⌉ : ℚ) < lo / d + 1 := Int.ceil_lt_add_one _
    have m1 := mul_le_mul_of_nonneg_left h1 hd.le
    have m2 := mul_lt_mul_of_pos_left h2 hd
    have hlt : ¬ d * (⌈lo / d⌉ : ℚ) < lo := by linarith
    refine ⟨⌈lo / d⌉, ?_⟩
    unfold startGrid
    simp only [hf, if_neg hlt]
    refine ⟨by ring, ?_, ?_⟩ <;> linarith

theorem gridLoop_ends (hi : ℚ) {d : ℚ} (hd : 0 < d) : ∀ (n fuel : Nat) (x : ℚ), n < fuel → hi ≤ x + n * d →
    ∃ l, gridLoop hi d fuel x = some l ∧ ∀ v, v ∈ l ↔ v < hi ∧ ∃ i : Nat, v = x + i * d := by
  intro n
  induction n with
  | zero =>
    intro fuel x hf hx
    obtain ⟨f, rfl⟩ : ∃ f, fuel = f + 1 := ⟨fuel - 1, by omega⟩
    have hx' : ¬ x < hi := by push_cast at hx; linarith
    refine ⟨[], by simp [gridLoop, hx'], ?_⟩
    intro v
    simp only [List.not_mem_nil, false_iff, not_and, not_exists]
    rintro hv i rfl
    have : 0 ≤ (i : ℚ) * d := mul_nonneg (Nat.cast_nonneg _) hd.le
    linarith
  | succ n ih =>
    intro fuel x hf hx
    obtain ⟨f, rfl⟩ : ∃ f, fuel = f + 1 := ⟨fuel - 1, by omega⟩
    by_cases hlt : x < hi
    · obtain ⟨l, hl, hm⟩ := ih f (x + d) (by omega) (by push_cast at hx; linarith)
      refine ⟨x :: l, by simp [gridLoop, hlt, hl], ?_⟩
      intro v
      rw [List.mem_cons, hm]
      constructor
      · rintro (rfl | ⟨hv, i, rfl⟩)
        · exact ⟨hlt, 0, by simp⟩
        · exact ⟨hv, i + 1, by push_cast; ring⟩
      · rintro ⟨hv, i, rfl⟩
        cases i with
        | zero => left; simp
        | succ i => right; exact ⟨hv, i, by push_cast; ring⟩
    · refine ⟨[], by simp [gridLoop, hlt], ?_⟩
      intro v
      simp only [List.not_mem_nil, false_iff, not_and, not_exists]
      rintro hv i rfl
      have : 0 ≤ (i : ℚ) * d := mul_nonneg (Nat.cast_nonneg _) hd.le
      linarith

/-- The grid has a line at every multiple of the distance within the range, the upper end excepted, and
nowhere else; drawing it ends. -/
theorem C84_grid (lo hi : ℚ) {d : ℚ} (hd : 0 < d) :
    ∃ rounds, ∀ fuel, rounds ≤ fuel → ∃ l, gridLoop hi d fuel (startGrid lo d) = some l ∧
      ∀ v, v ∈ l ↔ (lo ≤ v ∧ v < hi) ∧ ∃ k : ℤ, v = k * d := by
  obtain ⟨k, hk, h1, h2⟩ := C84_start lo hd
  refine ⟨⌈(hi - startGrid lo d) / d⌉.toNat + 1, fun fuel hfuel => ?_⟩
  have hn : hi ≤ startGrid lo d + (⌈(hi - startGrid lo d) / d⌉.toNat : ℚ) * d := by
    have ha : (hi - startGrid lo d) / d ≤ (⌈(hi - startGrid lo d) / d⌉ : ℚ) := Int.le_ceil _
    have hb : ((⌈(hi - startGrid lo d) / d⌉ : ℤ) : ℚ) ≤ ((⌈(hi - startGrid lo d) / d⌉.toNat : ℤ) : ℚ) := by
      exact_mod_cast Int.self_le_toNat _
    rw [div_le_iff₀ hd] at ha
    have hc := mul_le_mul_of_nonneg_right hb hd.le
    push_cast at hc
    linarith
  obtain ⟨l, hl, hm⟩ := gridLoop_ends hi hd _ fuel (startGrid lo d) (by omega) hn
  refine ⟨l, hl, fun v => ?_⟩
  rw [hm]
  constructor
  · rintro ⟨hv, i, rfl⟩
    have : 0 ≤ (i : ℚ) * d := mul_nonneg (Nat.cast_nonneg _) hd.le
    exact ⟨⟨by linarith, hv⟩, k + i, by rw [hk]; push_cast; ring⟩
  · rintro ⟨⟨hv1, hv2⟩, j, rfl⟩
    refine ⟨hv2, (j - k).toNat, ?_⟩
    have hjk : k ≤ j := by
      by_contra hlt
      have : j + 1 ≤ k := by omega
      have : ((j + 1 : ℤ) : ℚ) ≤ k := by exact_mod_cast this
      have := mul_le_mul_of_nonneg_right this hd.le
      push_cast at this
      rw [hk] at h2
      linarith
    have : (((j - k).toNat : ℤ) : ℚ) = ((j - k : ℤ) : ℚ) := by
      rw [Int.toNat_of_nonneg (by omega)]
    have e : (((j - k).toNat : ℕ) : ℚ) = (j : ℚ) - k := by
      rw [← Int.cast_natCast, this]; push_cast; ring
    rw [hk, e]; ring

/-- Non-vacuity. -/
example : gridLoop 12 5 10 (startGrid (-7) 5) = some [-5, 0, 5, 10] := by decide +kernel

/-! ## The title -/

/-- The size of the text of the title (lines 292-295); `none` for a read outside of the font.  `size` is
the size of the other texts. -/
def titleSize (title : List Int) (lo hi size : ℚ) : Option ℚ :=
  let textSize := size * (7 / 10)
  let space := (hi - lo) - 2 * size
  (Hershey.textWidth title textSize).map fun w =>
    if space < w then textSize * (space / w) else textSize

/-- The title (lines 296-297 with the function of lines 266-270): the X coordinates of what is drawn. -/
def titleX (title : List Int) (lo hi size : ℚ) : Option (List ℚ) :=
  (titleSize title lo hi size).bind fun ts =>
    (Hershey.drawText title size (3 / 10 * size) .left ts).map fun calls => calls.map fun a => lo + a.x

open Hershey in
/-- Twice the size, twice the width. -/
theorem textWidth_scale (str : List Int) {size k w : ℚ} (hs : 0 ≤ size) (hk : 0 ≤ k)
    (h : textWidth str size = some w) : textWidth str (size * k) = some (w * k) := by
  obtain ⟨w1, h1, g1⟩ := C81_width str hs
  obtain ⟨w2, h2, g2⟩ := C81_width str (mul_nonneg hs hk)
  rw [h] at h1
  injection h1 with h1
  subst h1
  rw [h2]
  congr 1
  apply le_antisymm
  · obtain ⟨q, hq, e⟩ := g2.1
    have := mul_le_mul_of_nonneg_right (g1.2 ⟨q, hq, rfl⟩) hk
    rw [e]; linarith
  · obtain ⟨q, hq, e⟩ := g1.1
    have := g2.2 ⟨q, hq, rfl⟩
    rw [e]; linarith

/-- The title begins one size from the left border and ends one size from the right border or before, if the
picture is two sizes wide at least. -/
theorem C84_title_partial (title : List Int) {lo hi size : ℚ} (hs : 0 ≤ size) (hwide : 2 * size ≤ hi - lo) :
    ∃ l, titleX title lo hi size = some l ∧ ∀ x ∈ l, lo + size ≤ x ∧ x ≤ hi - size := by
  have hs' : 0 ≤ size * (7 / 10) := by positivity
  obtain ⟨w, hw, hgreat⟩ := Hershey.C81_width title hs'
  have hw0 : 0 ≤ w := hgreat.2 ⟨[], List.nil_prefix, by simp [Hershey.indent_nil]⟩
  -- the size that is used, and its width
  obtain ⟨ts, w', hts, hts0, hw', hfit⟩ : ∃ ts w', titleSize title lo hi size = some ts ∧ 0 ≤ ts ∧
      Hershey.textWidth title ts = some w' ∧ w' ≤ (hi - lo) - 2 * size := by
    by_cases hlt : (hi - lo) - 2 * size < w
    · have hwpos : 0 < w := by linarith
      have hk : 0 ≤ ((hi - lo) - 2 * size) / w := div_nonneg (by linarith) hwpos.le
      refine ⟨size * (7 / 10) * (((hi - lo) - 2 * size) / w), w * (((hi - lo) - 2 * size) / w), ?_,
        mul_nonneg hs' hk, textWidth_scale title hs' hk hw, ?_⟩
      · simp [titleSize, hw, hlt]
      · rw [mul_div_cancel₀ _ (ne_of_gt hwpos)]
    · exact ⟨size * (7 / 10), w, by simp [titleSize, hw, hlt], hs', hw, not_lt.1 hlt⟩
  obtain ⟨w1, out, h1, ho, hout⟩ := Hershey.C81_extent title size (3 / 10 * size) .left hts0
  rw [hw'] at h1
  injection h1 with h1
  subst h1
  refine ⟨out.map fun a => lo + a.x, by simp [titleX, hts, ho], ?_⟩
  intro x hx
  obtain ⟨a, ha, rfl⟩ := List.mem_map.1 hx
  obtain ⟨e1, e2, _⟩ := hout a ha
  simp only [Hershey.shift, add_zero] at e1 e2
  constructor <;> linarith

/-- **C84 does not hold for narrow pictures**: there is less than no space for the title, its size becomes
negative, and it is drawn mirrored, from right to left and upside down, and leaves the picture.  Here a way of
40 mm in Y; the size of texts is 1/40 of that (lines 91 and 259). -/
theorem C84_narrow : titleSize [73, 73] 0 0 1 = some (-25 / 8) ∧
    titleX [73, 73] 0 0 1 = some [1 / 2, 1 / 2, -1 / 2, -1 / 2] := by
  constructor <;> decide +kernel

/-- Non-vacuity of `C84_title_partial`. -/
example : titleX [73, 73] 0 10 1 = some [278 / 250, 278 / 250, 334 / 250, 334 / 250] := by decide +kernel

end BeagleG.Visualizer
