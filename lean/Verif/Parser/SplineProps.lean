import Verif.Parser.ArcProps
import Mathlib.Analysis.Calculus.Deriv.Pow
import Mathlib.Analysis.Calculus.Deriv.Add
import Mathlib.Analysis.Calculus.Deriv.Mul
/-!
# C66: the geometry of splines, over the real numbers

The points computed for G5 and G5.1 (`Parser/Model.lean`, arc-gen.cc 153-194, gcode-parser.cc 1760-1808) compared with
Bézier curves. In floating point the parameter is a sum of rounded steps, so that there can be one more point near the
end; this is not considered here.
-/
namespace BeagleG.Parser

variable {fl : Num ℝ}

/-- The cubic Bézier curve of four values. -/
noncomputable def cubic (a b c d t : ℝ) : ℝ := (1 - t) ^ 3 * a + 3 * (1 - t) ^ 2 * t * b + 3 * (1 - t) * t ^ 2 * c + t ^ 3 * d

/-- The quadratic Bézier curve of three values. -/
noncomputable def quadratic (a b c t : ℝ) : ℝ := (1 - t) ^ 2 * a + 2 * (1 - t) * t * b + t ^ 2 * c

/-- The point of a curve in the XY plane for `t`; `start` in the other axes. -/
noncomputable def curvePoint (start cp1 cp2 target : Axes ℝ) (t : ℝ) : Axes ℝ := fun a =>
  if a = .X ∨ a = .Y then cubic (start a) (cp1 a) (cp2 a) (target a) t else start a

/-- The points of a spline: at all hundredths, and then the target. -/
noncomputable def splinePoints (start cp1 cp2 target : Axes ℝ) : List (Axes ℝ) :=
  (List.range 100).map (fun k : Nat => curvePoint start cp1 cp2 target ((k : ℝ) / 100)) ++ [target]

theorem bezierPoint_real (rn : RealNum fl) (t : ℝ) (p0 p1 p2 p3 : Axes ℝ) :
    bezierPoint fl t p0 p1 p2 p3 = curvePoint p0 p1 p2 p3 t := by
  funext a
  simp only [bezierPoint, curvePoint, rn.sub, rn.one, rn.mul, rn.add, rn.tenth, cubic]
  split
  · push_cast; ring
  · rfl

theorem splineTimes_real (rn : RealNum fl) : ∀ (j k n : Nat), j + k = 100 → j < n →
    splineTimes fl n ((k : ℝ) / 100) = some ((List.range' k j).map (fun i : Nat => (i : ℝ) / 100))
  | 0, k, n + 1, h, _ => by
    have : k = 100 := by omega
    subst this
    simp [splineTimes, rn.lt, rn.one]
  | j + 1, k, n + 1, h, hn => by
    have hk : (k : ℝ) / 100 < 1 := by
      rw [div_lt_one (by norm_num)]
      have : k < 100 := by omega
      exact_mod_cast this
    have e : (k : ℝ) / 100 + 1 / 100 = ((k + 1 : Nat) : ℝ) / 100 := by push_cast; ring
    rw [splineTimes]
    simp only [rn.lt, rn.one, hk, decide_true, if_true, rn.add, rn.hundredth]
    rw [e, splineTimes_real rn j (k + 1) n (by omega) (by omega), List.range'_succ]
    rfl

theorem times_real (rn : RealNum fl) :
    splineTimes fl 200 fl.zero = some ((List.range 100).map (fun i : Nat => (i : ℝ) / 100)) := by
  have := splineTimes_real rn 100 0 200 rfl (by norm_num)
  rw [rn.zero, List.range_eq_range']
  simpa using this

/-- The moves of a spline are to the points of the Bézier curve, ending at the target. -/
theorem C66_points (rn : RealNum fl) (rc : Receiver ℝ) (st : State ℝ) (feed : ℝ) (start cp1 cp2 target : Axes ℝ) :
    splineMove fl rc st feed start cp1 cp2 target = .ok (moves rc feed st (splinePoints start cp1 cp2 target)) := by
  unfold splineMove
  rw [times_real rn]
  simp only [List.map_map]
  congr 3
  apply List.map_congr_left
  intro k _
  exact bezierPoint_real rn _ _ _ _ _

/-! ### Shape of the curve -/

/-- A cubic curve begins and ends at the outer values. -/
theorem cubic_ends (a b c d : ℝ) : cubic a b c d 0 = a ∧ cubic a b c d 1 = d := by
  constructor <;> simp [cubic]

/-- It stays between bounds of its four values. -/
theorem cubic_hull {a b c d lo hi t : ℝ} (ht : 0 ≤ t) (ht' : t ≤ 1) (ha : lo ≤ a ∧ a ≤ hi) (hb : lo ≤ b ∧ b ≤ hi)
    (hc : lo ≤ c ∧ c ≤ hi) (hd : lo ≤ d ∧ d ≤ hi) : lo ≤ cubic a b c d t ∧ cubic a b c d t ≤ hi := by
  have hu : 0 ≤ 1 - t := by linarith
  have w0 : 0 ≤ (1 - t) ^ 3 := by positivity
  have w1 : 0 ≤ 3 * (1 - t) ^ 2 * t := by positivity
  have w2 : 0 ≤ 3 * (1 - t) * t ^ 2 := by positivity
  have w3 : 0 ≤ t ^ 3 := by positivity
  have hsum : (1 - t) ^ 3 + 3 * (1 - t) ^ 2 * t + 3 * (1 - t) * t ^ 2 + t ^ 3 = 1 := by ring
  unfold cubic
  constructor
  · calc lo = ((1 - t) ^ 3 + 3 * (1 - t) ^ 2 * t + 3 * (1 - t) * t ^ 2 + t ^ 3) * lo := by rw [hsum, one_mul]
      _ = (1 - t) ^ 3 * lo + 3 * (1 - t) ^ 2 * t * lo + 3 * (1 - t) * t ^ 2 * lo + t ^ 3 * lo := by ring
      _ ≤ _ := add_le_add (add_le_add (add_le_add (mul_le_mul_of_nonneg_left ha.1 w0)
          (mul_le_mul_of_nonneg_left hb.1 w1)) (mul_le_mul_of_nonneg_left hc.1 w2)) (mul_le_mul_of_nonneg_left hd.1 w3)
  · calc _ ≤ (1 - t) ^ 3 * hi + 3 * (1 - t) ^ 2 * t * hi + 3 * (1 - t) * t ^ 2 * hi + t ^ 3 * hi :=
          add_le_add (add_le_add (add_le_add (mul_le_mul_of_nonneg_left ha.2 w0)
          (mul_le_mul_of_nonneg_left hb.2 w1)) (mul_le_mul_of_nonneg_left hc.2 w2)) (mul_le_mul_of_nonneg_left hd.2 w3)
      _ = ((1 - t) ^ 3 + 3 * (1 - t) ^ 2 * t + 3 * (1 - t) * t ^ 2 + t ^ 3) * hi := by ring
      _ = hi := by rw [hsum, one_mul]

/-- Its slope. -/
theorem cubic_slope (a b c d t : ℝ) :
    HasDerivAt (cubic a b c d) (3 * ((1 - t) ^ 2 * (b - a) + 2 * (1 - t) * t * (c - b) + t ^ 2 * (d - c))) t := by
  have hu : HasDerivAt (fun t : ℝ => 1 - t) (-1) t := by simpa using (hasDerivAt_id t).const_sub 1
  have ht := hasDerivAt_id t
  have h := ((((hu.pow 3).mul_const a).add ((((hu.pow 2).const_mul 3).mul ht).mul_const b)).add
    (((hu.const_mul 3).mul (ht.pow 2)).mul_const c)).add ((ht.pow 3).mul_const d)
  refine (h.congr_deriv ?_).congr_of_eventuallyEq ?_
  · simp; ring
  · exact Filter.Eventually.of_forall fun x => by simp [cubic]

/-- The difference for two parameters is at most three times that of the parameters times the largest difference
of neighbouring values. -/
theorem cubic_lipschitz {a b c d M s t : ℝ} (h0 : 0 ≤ s) (hst : s ≤ t) (h1 : t ≤ 1) (hab : |b - a| ≤ M) (hbc : |c - b| ≤ M)
    (hcd : |d - c| ≤ M) : |cubic a b c d t - cubic a b c d s| ≤ 3 * (t - s) * M := by
  have hu : 0 ≤ 1 - t := by linarith
  have hv : 0 ≤ 1 - s := by linarith
  have ht : 0 ≤ t := by linarith
  have hd : 0 ≤ t - s := by linarith
  rw [abs_le] at hab hbc hcd
  -- weights of the three differences
  have e : cubic a b c d t - cubic a b c d s =
      (t - s) * (((1 - t) ^ 2 + (1 - t) * (1 - s) + (1 - s) ^ 2) * (b - a) +
        ((2 * t + s) * (1 - t) + (t + 2 * s) * (1 - s)) * (c - b) + (t ^ 2 + t * s + s ^ 2) * (d - c)) := by
    unfold cubic; ring
  have w : ((1 - t) ^ 2 + (1 - t) * (1 - s) + (1 - s) ^ 2) + ((2 * t + s) * (1 - t) + (t + 2 * s) * (1 - s)) +
      (t ^ 2 + t * s + s ^ 2) = 3 := by ring
  have w1 : 0 ≤ (1 - t) ^ 2 + (1 - t) * (1 - s) + (1 - s) ^ 2 := by positivity
  have w2 : 0 ≤ (2 * t + s) * (1 - t) + (t + 2 * s) * (1 - s) := by positivity
  have w3 : 0 ≤ t ^ 2 + t * s + s ^ 2 := by positivity
  generalize (1 - t) ^ 2 + (1 - t) * (1 - s) + (1 - s) ^ 2 = x at *
  generalize (2 * t + s) * (1 - t) + (t + 2 * s) * (1 - s) = y at *
  generalize t ^ 2 + t * s + s ^ 2 = z at *
  rw [e, abs_mul, abs_of_nonneg hd, show 3 * (t - s) * M = (t - s) * (3 * M) by ring]
  refine mul_le_mul_of_nonneg_left ?_ hd
  rw [← w, abs_le]
  have p1 := mul_le_mul_of_nonneg_left hab.1 w1
  have p2 := mul_le_mul_of_nonneg_left hbc.1 w2
  have p3 := mul_le_mul_of_nonneg_left hcd.1 w3
  have q1 := mul_le_mul_of_nonneg_left hab.2 w1
  have q2 := mul_le_mul_of_nonneg_left hbc.2 w2
  have q3 := mul_le_mul_of_nonneg_left hcd.2 w3
  constructor <;> nlinarith

/-! ### G5 -/

/-- Only X and Y of the control points matter. -/
theorem splinePoints_congr {start cp1 cp2 cp1' cp2' target : Axes ℝ} (h1 : ∀ a, a = .X ∨ a = .Y → cp1 a = cp1' a)
    (h2 : ∀ a, a = .X ∨ a = .Y → cp2 a = cp2' a) :
    splinePoints start cp1 cp2 target = splinePoints start cp1' cp2' target := by
  unfold splinePoints
  congr 1
  apply List.map_congr_left
  intro k _
  funext a
  unfold curvePoint
  split
  · next h => rw [h1 a h, h2 a h]
  · rfl

/-- First control point of G5: given from the start, or opposite to the second one of the last spline. -/
noncomputable def firstControl (st : State ℝ) (m : SplineWords ℝ) : Axes ℝ := fun a =>
  st.pos a + (if m.i then m.cp1 a else -st.lastCp2 a)

/-- Second control point of G5, given from the target. -/
noncomputable def secondControl (m : SplineWords ℝ) : Axes ℝ := fun a => m.target a + m.cp2 a

/-- G5 moves along the cubic curve of its control points, and remembers the second one. -/
theorem C66_cubic (rn : RealNum fl) (rc : Receiver ℝ) {st : State ℝ} {m : SplineWords ℝ} (rest : List Text.Byte)
    (hpq : m.p = true ∧ m.q = true) (hij : m.i = m.j) (hl : m.i = true ∨ st.haveSpline = true) :
    cubicApply fl rc st m rest =
      .ok (reached (moves rc m.feed { st with lastCp2 := m.cp2, haveSpline := true }
        (splinePoints st.pos (firstControl st m) (secondControl m) m.target)) m.target, some rest) := by
  unfold cubicApply
  rw [if_neg (by simp [hpq]), if_neg (by simp [hij]), if_neg (by rcases hl with h | h <;> simp [h])]
  unfold splineGo
  dsimp only
  rw [C66_points rn]
  simp only [Out.bind]
  congr 4
  apply splinePoints_congr
  · intro a ha
    rw [if_pos ha, rn.add, firstControl, add_comm]
    congr 1
    split
    · rfl
    · rcases ha with rfl | rfl <;> simp [setAxis, rn.neg]
  · intro a ha
    rw [if_pos ha, rn.add, secondControl, add_comm]

/-- A G5 without P, without Q, with only one of I and J, or without I and J if the last command was no G5, should be
refused. The code refuses all of these except those with exactly one of P and Q; -/
theorem C66_refused_partial (rc : Receiver ℝ) {st : State ℝ} {m : SplineWords ℝ} (rest : List Text.Byte)
    (h : (m.p = false ∧ m.q = false) ∨ m.i ≠ m.j ∨ (m.i = false ∧ st.haveSpline = false)) :
    cubicApply fl rc st m rest = .ok (st.say .error, none) := by
  unfold cubicApply
  by_cases h1 : m.p = false ∧ m.q = false
  · rw [if_pos (by simp [h1])]
  · rw [if_neg (by simpa using h1)]
    by_cases h2 : m.i = m.j
    · rw [if_neg (by simp [h2]), if_pos]
      rcases h with h | h | h
      · exact absurd h h1
      · exact absurd h2 h
      · simp [h]
    · rw [if_pos h2]

/-- but with only one of P and Q a spline is made, with zero for the other. -/
theorem C66_only_p (rn : RealNum fl) (rc : Receiver ℝ) {st : State ℝ} {m : SplineWords ℝ} (rest : List Text.Byte)
    (hpq : m.p = true ∧ m.q = false) (hij : m.i = true ∧ m.j = true) :
    cubicApply fl rc st m rest =
      .ok (reached (moves rc m.feed { st with lastCp2 := m.cp2, haveSpline := true }
        (splinePoints st.pos (firstControl st m) (secondControl m) m.target)) m.target, some rest) := by
  have := C66_cubic rn rc (st := st) (m := { m with q := true }) rest ⟨hpq.1, rfl⟩ (by simp [hij]) (.inl hij.1)
  rw [← show firstControl st { m with q := true } = firstControl st m from rfl,
    ← show secondControl { m with q := true } = secondControl m from rfl]
  refine Eq.trans ?_ this
  unfold cubicApply
  simp [hpq]

/-- Two G5, the second without I and J: the second curve begins with the slope the first one ended with. -/
theorem C66_smooth (a b target p c d s : ℝ) (h : HasDerivAt (cubic a b (target + p) target) s 1) :
    HasDerivAt (cubic target (target + -p) c d) s 0 := by
  have h1 := h.unique (cubic_slope a b (target + p) target 1)
  have h2 := cubic_slope target (target + -p) c d 0
  rw [h1]
  convert h2 using 1
  ring

/-- The curve does not leave the rectangle about its four points. -/
theorem C66_hull {start cp1 cp2 target p : Axes ℝ} (hp : p ∈ splinePoints start cp1 cp2 target) {a : Axis}
    (ha : a = .X ∨ a = .Y) {lo hi : ℝ} (h0 : lo ≤ start a ∧ start a ≤ hi) (h1 : lo ≤ cp1 a ∧ cp1 a ≤ hi)
    (h2 : lo ≤ cp2 a ∧ cp2 a ≤ hi) (h3 : lo ≤ target a ∧ target a ≤ hi) : lo ≤ p a ∧ p a ≤ hi := by
  unfold splinePoints at hp
  rcases List.mem_append.1 hp with hp | hp
  · obtain ⟨k, hk, rfl⟩ := List.mem_map.1 hp
    rw [List.mem_range] at hk
    unfold curvePoint
    rw [if_pos ha]
    refine cubic_hull (by positivity) ?_ h0 h1 h2 h3
    rw [div_le_one (by norm_num)]
    exact_mod_cast hk.le
  · rw [List.mem_singleton] at hp
    subst hp
    exact h3

/-- Consecutive points differ in X and in Y by at most three hundredths of the largest such difference of
consecutive control points. -/
theorem C66_spacing (start cp1 cp2 target : Axes ℝ) {a : Axis} (ha : a = .X ∨ a = .Y) {M : ℝ}
    (h1 : |cp1 a - start a| ≤ M) (h2 : |cp2 a - cp1 a| ≤ M) (h3 : |target a - cp2 a| ≤ M) :
    (start :: splinePoints start cp1 cp2 target).IsChain (fun p q => |q a - p a| ≤ 3 / 100 * M) := by
  have hM : 0 ≤ M := le_trans (abs_nonneg _) h1
  have e0 : curvePoint start cp1 cp2 target ((0 : Nat) / 100 : ℝ) a = start a := by
    simp [curvePoint, ha, cubic_ends]
  have key : ∀ k : Nat, k < 100 → |cubic (start a) (cp1 a) (cp2 a) (target a) (((k + 1 : Nat) : ℝ) / 100) -
      cubic (start a) (cp1 a) (cp2 a) (target a) ((k : ℝ) / 100)| ≤ 3 / 100 * M := by
    intro k hk
    have := cubic_lipschitz (a := start a) (b := cp1 a) (c := cp2 a) (d := target a) (s := (k : ℝ) / 100)
      (t := ((k + 1 : Nat) : ℝ) / 100) (by positivity) (by push_cast; linarith)
      (by rw [div_le_one (by norm_num)]; exact_mod_cast hk) h1 h2 h3
    refine le_trans this (le_of_eq ?_)
    push_cast
    ring
  have hlist : ((start :: splinePoints start cp1 cp2 target).map (fun p => p a)) =
      start a :: (List.range 101).map (fun k : Nat => cubic (start a) (cp1 a) (cp2 a) (target a) ((k : ℝ) / 100)) := by
    rw [List.map_cons, splinePoints, List.map_append, List.map_map,
      List.range_succ (n := 100), List.map_append]
    congr 2
    · apply List.map_congr_left
      intro k _
      simp [curvePoint, ha]
    · simp [cubic_ends]
  have hchain : (start a :: (List.range 101).map
      (fun k : Nat => cubic (start a) (cp1 a) (cp2 a) (target a) ((k : ℝ) / 100))).IsChain
      (fun x y => |y - x| ≤ 3 / 100 * M) := by
    rw [List.range_succ_eq_map, List.map_cons, List.isChain_cons_cons]
    refine ⟨by simpa [cubic_ends] using by positivity, ?_⟩
    rw [← List.map_cons (f := fun k : Nat => cubic (start a) (cp1 a) (cp2 a) (target a) ((k : ℝ) / 100)),
      ← List.range_succ_eq_map, List.isChain_map, List.isChain_range]
    intro k hk
    exact key k hk
  rw [← hlist, List.isChain_map] at hchain
  exact hchain

/-- The other axes wait for the last move. -/
theorem C66_other_axes {start cp1 cp2 target p : Axes ℝ} (hp : p ∈ (splinePoints start cp1 cp2 target).dropLast)
    {a : Axis} (ha : ¬ (a = .X ∨ a = .Y)) : p a = start a := by
  unfold splinePoints at hp
  rw [List.dropLast_concat, List.mem_map] at hp
  obtain ⟨k, -, rfl⟩ := hp
  unfold curvePoint
  rw [if_neg ha]

/-! ### G5.1 -/

/-- The cubic curve that is the quadratic one. -/
theorem quadratic_cubic (a b c t : ℝ) :
    quadratic a b c t = cubic a (a + 2 / 3 * (b - a)) (c + 2 / 3 * (b - c)) c t := by
  unfold quadratic cubic; ring

/-- What G5.1 does: `m.cp1` is the control point relative to the start. -/
theorem C66_quadratic_partial (rn : RealNum fl) (rc : Receiver ℝ) {st : State ℝ} {m : SplineWords ℝ} (rest : List Text.Byte)
    (hij : m.i = true ∨ m.j = true) (h0 : ¬ (m.cp1 .X = 0 ∧ m.cp1 .Y = 0)) :
    quadraticApply fl rc st m rest =
      .ok (reached (moves rc m.feed { st with haveSpline := false }
        (splinePoints st.pos (fun a => st.pos a + 2 / 3 * m.cp1 a) (fun a => st.pos a + m.cp1 a) m.target)) m.target,
        some rest) := by
  unfold quadraticApply
  rw [if_neg (by rcases hij with h | h <;> simp [h]), if_neg (by simpa [rn.eq, rn.zero] using h0)]
  unfold splineGo
  dsimp only
  rw [C66_points rn]
  simp only [Out.bind]
  congr 4
  apply splinePoints_congr
  · intro a ha
    simp only [if_pos ha, rn.add, rn.div, rn.mul, rn.tenth]
    push_cast; ring
  · intro a ha
    simp only [if_pos ha, rn.add, rn.div, rn.mul, rn.tenth, rn.one]
    push_cast; ring

/-- How far this is from the quadratic curve. -/
theorem C66_quadratic_error (start control target : Axes ℝ) {a : Axis} (ha : a = .X ∨ a = .Y) (t : ℝ) :
    curvePoint start (fun a => start a + 2 / 3 * control a) (fun a => start a + control a) target t a =
      quadratic (start a) (start a + control a) (target a) t + (1 - t) * t ^ 2 * (start a + control a - target a) := by
  unfold curvePoint
  rw [if_pos ha]
  unfold quadratic cubic
  ring

/-- So no point between start and target is on the quadratic curve at its parameter, unless the control point is the
target. -/
theorem C66_quadratic_wrong (start control target : Axes ℝ) {a : Axis} (ha : a = .X ∨ a = .Y)
    (h : start a + control a ≠ target a) {t : ℝ} (ht : 0 < t) (ht' : t < 1) :
    curvePoint start (fun a => start a + 2 / 3 * control a) (fun a => start a + control a) target t a ≠
      quadratic (start a) (start a + control a) (target a) t := by
  rw [C66_quadratic_error start control target ha]
  intro hc
  have : (1 - t) * t ^ 2 * (start a + control a - target a) = 0 := by linarith
  have h1 : (1 - t) * t ^ 2 ≠ 0 := mul_ne_zero (by linarith) (pow_ne_zero 2 (ne_of_gt ht))
  rcases mul_eq_zero.1 this with hx | hx
  · exact h1 hx
  · exact h (by linarith)

end BeagleG.Parser
