import Mathlib.Tactic.Ring
import Mathlib.Tactic.Linarith
import Mathlib.Tactic.NormNum
import Mathlib.Tactic.Positivity
import Mathlib.Tactic.FieldSimp
import Mathlib.Tactic.FinCases
import Mathlib.Tactic.LinearCombination
import Mathlib.Algebra.Order.Field.Basic
import Mathlib.Data.Rat.Floor

/-!
# gcode2ps: the page (C85)

Model of the projection on the page: `PrintPostscriptBoundingBox` and `PrintHeader` (/repo/src/gcode2ps.cc
lines 376-396, 572-588) and the PostScript program `kPSHeader` (lines 1634-1756) that rotates and projects.

Simplifications: numbers are those of an ordered field, exact; cosine and sine of an angle are two numbers
whose squares add up to 1; `roundf` is any function with an error of at most a half.
-/

namespace BeagleG.Visualizer

section
variable {K : Type} [Field K] [LinearOrder K] [IsStrictOrderedRing K]

/-- The range with the length of its diagonal (`GetDiagonalLength`, gcode2ps.cc lines 139-143). -/
structure Frame (K : Type) where
  lo : Fin 3 → K
  hi : Fin 3 → K
  diag : K

/-- `sqrtf(x * x + y * y + z * z)` of the sides (lines 149-151). -/
structure Frame.Ok (f : Frame K) : Prop where
  sides : ∀ i, f.lo i ≤ f.hi i
  nonneg : 0 ≤ f.diag
  square : f.diag * f.diag = (f.hi 0 - f.lo 0) * (f.hi 0 - f.lo 0) +
    (f.hi 1 - f.lo 1) * (f.hi 1 - f.lo 1) + (f.hi 2 - f.lo 2) * (f.hi 2 - f.lo 2)

/-- `midpoint` (lines 135-137), printed as center-x, center-y, center-z (lines 575-580). -/
def Frame.mid (f : Frame K) (i : Fin 3) : K := (f.hi i + f.lo i) / 2

/-- An array of nine numbers, row by row. gcode2ps.cc 1640-1643. -/
abbrev Mat (K : Type) := Fin 3 → Fin 3 → K

/-- `dot-3` (lines 1646-1666): `matrix3d rotation dot-3` is the rotation times `matrix3d`. -/
def dot3 (b a : Mat K) : Mat K := fun i j => a i 0 * b 0 j + (a i 1 * b 1 j + a i 2 * b 2 j)

/-- A row of a matrix. gcode2ps.cc 1673, 1683, 1693. -/
def row (x y z : K) : Fin 3 → K
  | 0 => x
  | 1 => y
  | 2 => z

/-- Three rows. gcode2ps.cc 1673, 1683, 1693. -/
def mat (x y z : Fin 3 → K) : Mat K
  | 0 => x
  | 1 => y
  | 2 => z

/-- `default-matrix3d` (line 1640). -/
def unitMat : Mat K := mat (row 1 0 0) (row 0 1 0) (row 0 0 1)

/-- A rotation with the cosine and the sine of its angle (lines 1668-1696). -/
inductive Turn (K : Type) where
  | pitch (c s : K)
  | yaw (c s : K)
  | roll (c s : K)

/-- The matrices of the rotations: line 1673, line 1683, line 1693. -/
def Turn.matrix : Turn K → Mat K
  | .pitch c s => mat (row 1 0 0) (row 0 c (-s)) (row 0 s c)
  | .yaw c s => mat (row c 0 s) (row 0 1 0) (row (-s) 0 c)
  | .roll c s => mat (row c (-s) 0) (row s c 0) (row 0 0 1)

/-- Cosine and sine of some angle. `a cos` and `a sin`, gcode2ps.cc 1673, 1683, 1693. -/
def Turn.Ok : Turn K → Prop
  | .pitch c s | .yaw c s | .roll c s => c * c + s * s = 1

/-- `matrix3d` after rotations one after the other. gcode2ps.cc 1670-1696. -/
def view (turns : List (Turn K)) : Mat K := turns.foldl (fun m t => dot3 m t.matrix) unitMat

/-- The point relative to the center (lines 1700-1702). -/
def Frame.relative (f : Frame K) (p : Fin 3 → K) (i : Fin 3) : K := p i - f.mid i

/-- A row of `matrix3d` times the point (lines 1706, 1711 and 1712). -/
def along (m : Mat K) (i : Fin 3) (v : Fin 3 → K) : K := m i 0 * v 0 + (m i 1 * v 1 + m i 2 * v 2)

/-- `perspective-eye-distance` (lines 584-585). -/
def eyeOf (f : Frame K) (eyeDistance : K) : K := if 0 < eyeDistance then eyeDistance + f.diag / 2 else -1

/-- `project2d` (lines 1698-1714). -/
def project (f : Frame K) (m : Mat K) (eyeDistance : K) (p : Fin 3 → K) : K × K :=
  let v := f.relative p
  let eye := eyeOf f eyeDistance
  let pf := if 0 < eye then eye / (eye - along m 2 v) else 1
  (along m 0 v * pf, along m 1 v * pf)

/-- `ToPoint` (line 640). -/
def toPoint (round : K → Int) (mm : K) : Int := round (mm / (127 / 5) * 72)

/-- What `PrintPostscriptBoundingBox` prints (lines 385-395): the size of the page, and where the center
is. -/
structure Page (K : Type) where
  width : Int
  height : Int
  atX : Int
  atY : Int
  scale : K

/-- `PrintPostscriptBoundingBox` (lines 376-395).  1.05 is 21/20. -/
def page (round : K → Int) (f : Frame K) (marginX marginY scale boxWidth : K) : Page K :=
  let range := 21 / 20 * f.diag
  let scale := if 0 < boxWidth then boxWidth / (range + marginX) else scale
  { width := toPoint round (scale * (range + marginX))
    height := toPoint round (scale * (range + marginY))
    atX := toPoint round (scale * (range + marginX) / 2)
    atY := toPoint round (scale * (range + marginY) / 2)
    scale := scale }

/-- `per-page-setup` (lines 391-394): where on the page a projected point is, in points. -/
def Page.place (g : Page K) (q : K × K) : K × K :=
  (g.atX + 72 / (127 / 5) * (g.scale * q.1), g.atY + 72 / (127 / 5) * (g.scale * q.2))

/-! ## Rotations keep lengths -/

/-- The columns are perpendicular, and of length 1. Specification; no code of its own. -/
def Rigid (m : Mat K) : Prop :=
  ∀ i j, m 0 i * m 0 j + m 1 i * m 1 j + m 2 i * m 2 j = if i = j then 1 else 0

omit [LinearOrder K] [IsStrictOrderedRing K] in
theorem unitMat_rigid : Rigid (unitMat : Mat K) := by
  intro i j
  fin_cases i <;> fin_cases j <;> simp [unitMat, mat, row]

theorem Turn.rigid {t : Turn K} (h : t.Ok) : Rigid t.matrix := by
  intro i j
  cases t <;> simp only [Turn.Ok] at h <;> fin_cases i <;> fin_cases j <;>
    simp [Turn.matrix, mat, row] <;> linarith

theorem Rigid.dot {m a : Mat K} (hm : Rigid m) (ha : Rigid a) : Rigid (dot3 m a) := by
  intro i j
  have e : ∀ x y, a 0 x * a 0 y + a 1 x * a 1 y + a 2 x * a 2 y = if x = y then 1 else 0 := ha
  have h00 := e 0 0
  have h01 := e 0 1
  have h02 := e 0 2
  have h11 := e 1 1
  have h12 := e 1 2
  have h22 := e 2 2
  simp only [if_true, show ¬ ((0 : Fin 3) = 1) by decide, show ¬ ((0 : Fin 3) = 2) by decide,
    show ¬ ((1 : Fin 3) = 2) by decide, if_false] at h00 h01 h02 h11 h12 h22
  have := hm i j
  simp only [dot3]
  rw [← this]
  linear_combination (m 0 i * m 0 j) * h00 + (m 1 i * m 1 j) * h11 + (m 2 i * m 2 j) * h22 +
    (m 0 i * m 1 j + m 1 i * m 0 j) * h01 + (m 0 i * m 2 j + m 2 i * m 0 j) * h02 +
    (m 1 i * m 2 j + m 2 i * m 1 j) * h12

theorem view_rigid {turns : List (Turn K)} (h : ∀ t ∈ turns, t.Ok) : Rigid (view turns) := by
  unfold view
  have : ∀ (l : List (Turn K)) (m : Mat K), Rigid m → (∀ t ∈ l, t.Ok) →
      Rigid (l.foldl (fun m t => dot3 m t.matrix) m) := by
    intro l
    induction l with
    | nil => intro m hm _; exact hm
    | cons t l ih =>
      intro m hm hl
      exact ih _ (hm.dot (Turn.rigid (hl t List.mem_cons_self))) fun t ht => hl t (List.mem_cons_of_mem _ ht)
  exact this _ _ unitMat_rigid h

theorem Rigid.length {m : Mat K} (h : Rigid m) (v : Fin 3 → K) :
    along m 0 v * along m 0 v + along m 1 v * along m 1 v + along m 2 v * along m 2 v =
      v 0 * v 0 + v 1 * v 1 + v 2 * v 2 := by
  have h00 := h 0 0
  have h01 := h 0 1
  have h02 := h 0 2
  have h11 := h 1 1
  have h12 := h 1 2
  have h22 := h 2 2
  simp only [if_true, show ¬ ((0 : Fin 3) = 1) by decide, show ¬ ((0 : Fin 3) = 2) by decide,
    show ¬ ((1 : Fin 3) = 2) by decide, if_false] at h00 h01 h02 h11 h12 h22
  simp only [along]
  linear_combination (v 0 * v 0) * h00 + (v 1 * v 1) * h11 + (v 2 * v 2) * h22 +
    (2 * v 0 * v 1) * h01 + (2 * v 0 * v 2) * h02 + (2 * v 1 * v 2) * h12

/-- Nothing in the range is further from its center than half the diagonal. -/
theorem Frame.Ok.near {f : Frame K} (hf : f.Ok) {p : Fin 3 → K} (hp : ∀ i, f.lo i ≤ p i ∧ p i ≤ f.hi i) :
    f.relative p 0 * f.relative p 0 + f.relative p 1 * f.relative p 1 + f.relative p 2 * f.relative p 2 ≤
      f.diag / 2 * (f.diag / 2) := by
  have key : ∀ i, f.relative p i * f.relative p i ≤ (f.hi i - f.lo i) * (f.hi i - f.lo i) / 4 := by
    intro i
    have h1 := (hp i).1
    have h2 := (hp i).2
    have : 0 ≤ (p i - f.lo i) * (f.hi i - p i) := mul_nonneg (by linarith) (by linarith)
    have e : (f.hi i - f.lo i) * (f.hi i - f.lo i) / 4 - f.relative p i * f.relative p i =
        (p i - f.lo i) * (f.hi i - p i) := by
      unfold Frame.relative Frame.mid; ring
    linarith
  have := hf.square
  have h0 := key 0
  have h1 := key 1
  have h2 := key 2
  have e : f.diag / 2 * (f.diag / 2) = f.diag * f.diag / 4 := by ring
  rw [e, this]
  linarith

theorem abs_le_of_square {x d : K} (hd : 0 ≤ d) (h : x * x ≤ d * d) : -d ≤ x ∧ x ≤ d :=
  abs_le.1 (abs_le_of_sq_le_sq (by rw [sq, sq]; exact h) hd)

/-- However the picture is turned, every point of the range is within half the diagonal from the center,
in all directions. -/
theorem turned {f : Frame K} (hf : f.Ok) {turns : List (Turn K)} (ht : ∀ t ∈ turns, t.Ok) {p : Fin 3 → K}
    (hp : ∀ i, f.lo i ≤ p i ∧ p i ≤ f.hi i) (i : Fin 3) :
    -(f.diag / 2) ≤ along (view turns) i (f.relative p) ∧
      along (view turns) i (f.relative p) ≤ f.diag / 2 := by
  have hl := (view_rigid ht).length (f.relative p)
  have hn := hf.near hp
  have q0 := mul_self_nonneg (along (view turns) 0 (f.relative p))
  have q1 := mul_self_nonneg (along (view turns) 1 (f.relative p))
  have q2 := mul_self_nonneg (along (view turns) 2 (f.relative p))
  have hd : 0 ≤ f.diag / 2 := by have := hf.nonneg; positivity
  refine abs_le_of_square hd ?_
  have three : i = 0 ∨ i = 1 ∨ i = 2 := by revert i; decide
  rcases three with rfl | rfl | rfl <;> linarith

/-! ## C85 -/

/-- Without perspective, whatever is in the range is on the page, for all views, provided that the margins
(and the twentieth of the diagonal) amount to two points. -/
theorem C85_page_partial {f : Frame K} (hf : f.Ok) {turns : List (Turn K)} (ht : ∀ t ∈ turns, t.Ok)
    {round : K → Int} (hround : ∀ x, |(round x : K) - x| ≤ 1 / 2) {p : Fin 3 → K}
    (hp : ∀ i, f.lo i ≤ p i ∧ p i ≤ f.hi i) {marginX marginY scale boxWidth eyeDistance : K}
    (heye : eyeDistance ≤ 0)
    (hscale : 0 ≤ (page round f marginX marginY scale boxWidth).scale)
    (hx : 2 ≤ 72 / (127 / 5) * ((page round f marginX marginY scale boxWidth).scale * (f.diag / 20 + marginX)))
    (hy : 2 ≤ 72 / (127 / 5) * ((page round f marginX marginY scale boxWidth).scale * (f.diag / 20 + marginY))) :
    let g := page round f marginX marginY scale boxWidth
    let q := g.place (project f (view turns) eyeDistance p)
    (0 ≤ q.1 ∧ q.1 ≤ g.width) ∧ 0 ≤ q.2 ∧ q.2 ≤ g.height := by
  have hnoeye : ¬ (0 : K) < eyeOf f eyeDistance := by
    unfold eyeOf
    rw [if_neg (not_lt.2 heye)]
    norm_num
  have h0 := turned hf ht hp 0
  have h1 := turned hf ht hp 1
  dsimp only
  unfold project Page.place
  simp only [if_neg hnoeye, mul_one]
  generalize along (view turns) 0 (f.relative p) = a at h0
  generalize along (view turns) 1 (f.relative p) = b at h1
  unfold page at hscale hx hy ⊢
  dsimp only at hscale hx hy ⊢
  generalize (if 0 < boxWidth then boxWidth / (21 / 20 * f.diag + marginX) else scale) = s at hscale hx hy ⊢
  have one : ∀ (m c : K), -(f.diag / 2) ≤ c → c ≤ f.diag / 2 →
      2 ≤ 72 / (127 / 5) * (s * (f.diag / 20 + m)) →
      0 ≤ (toPoint round (s * (21 / 20 * f.diag + m) / 2) : K) + 72 / (127 / 5) * (s * c) ∧
        (toPoint round (s * (21 / 20 * f.diag + m) / 2) : K) + 72 / (127 / 5) * (s * c) ≤
          (toPoint round (s * (21 / 20 * f.diag + m)) : K) := by
    intro m c hc1 hc2 hm
    have r1 := abs_le.1 (hround (s * (21 / 20 * f.diag + m) / 2 / (127 / 5) * 72))
    have r2 := abs_le.1 (hround (s * (21 / 20 * f.diag + m) / (127 / 5) * 72))
    have m1 := mul_le_mul_of_nonneg_left hc1 hscale
    have m2 := mul_le_mul_of_nonneg_left hc2 hscale
    unfold toPoint
    generalize (round (s * (21 / 20 * f.diag + m) / 2 / (127 / 5) * 72) : K) = x at r1 ⊢
    generalize (round (s * (21 / 20 * f.diag + m) / (127 / 5) * 72) : K) = y at r2 ⊢
    constructor <;> nlinarith
  exact ⟨one marginX a h0.1 h0.2 hx, one marginY b h1.1 h1.2 hy⟩

/-- With perspective, every point of the range is in front of the eye, by the distance given at least. -/
theorem C85_eye {f : Frame K} (hf : f.Ok) {turns : List (Turn K)} (ht : ∀ t ∈ turns, t.Ok) {p : Fin 3 → K}
    (hp : ∀ i, f.lo i ≤ p i ∧ p i ≤ f.hi i) {eyeDistance : K} (heye : 0 < eyeDistance) :
    eyeDistance ≤ eyeOf f eyeDistance - along (view turns) 2 (f.relative p) := by
  have := (turned hf ht hp 2).2
  unfold eyeOf
  rw [if_pos heye]
  linarith

omit [IsStrictOrderedRing K] in
/-- A page of the width asked for: `-w`. -/
theorem C85_width {round : K → Int} {f : Frame K} {marginX marginY scale boxWidth : K} (hb : 0 < boxWidth)
    (hpos : 0 < 21 / 20 * f.diag + marginX) :
    (page round f marginX marginY scale boxWidth).width = toPoint round boxWidth := by
  unfold page
  simp only [if_pos hb]
  rw [div_mul_cancel₀ _ (ne_of_gt hpos)]

end

/-! ## With perspective -/

/-- A box of 2 × 4 × 4 mm. Example. -/
def smallBox : Frame ℚ := ⟨row (-1) (-2) (-2), row 1 2 2, 6⟩

theorem smallBox_ok : smallBox.Ok where
  sides := by intro i; fin_cases i <;> decide +kernel
  nonneg := by decide +kernel
  square := by decide +kernel

/-- **C85 does not hold with perspective**: what is near to the eye is drawn larger, also beyond the
page. -/
theorem C85_perspective : ∃ (f : Frame ℚ) (p : Fin 3 → ℚ), f.Ok ∧ (∀ i, f.lo i ≤ p i ∧ p i ≤ f.hi i) ∧
    let g := page (fun x => ⌊x + 1 / 2⌋) f 3 3 1 (-1)
    (g.height : ℚ) < (g.place (project f (view []) (1 / 10) p)).2 := by
  refine ⟨smallBox, row 1 2 2, smallBox_ok, ?_, ?_⟩
  · intro i; fin_cases i <;> decide +kernel
  · decide +kernel

/-- Non-vacuity of `C85_page_partial`. -/
example : let g := page (fun x => ⌊x + 1 / 2⌋) smallBox 3 3 1 (-1)
    (g.width = 26 ∧ g.atX = 13) ∧ 2 ≤ 72 / (127 / 5) * (g.scale * (smallBox.diag / 20 + 3)) := by
  decide +kernel

end BeagleG.Visualizer
