import Verif.Planner.Exact
/-!
# C55: at which corners speed is kept

`determine_joining_speed` decides how fast the corner between two moves may be passed. The first
theorems hold for every arithmetic, in particular for floating point.
-/
namespace BeagleG.Planner

/-- Specification: an axis that moves in one of two consecutive moves but not in the other one, or
in the opposite direction. -/
def Jumps (from_ to_ : Int) : Prop :=
  (from_ = 0 ∧ to_ ≠ 0) ∨ (from_ ≠ 0 ∧ to_ = 0) ∨ (from_ < 0 ∧ 0 < to_) ∨ (0 < from_ ∧ to_ < 0)

section
variable {F : Type} (A : Arith F)

theorem joiningLoop_jump (from_ to_ : AxisTarget F) (l : List Axis) (first : Bool) (speed : F) (a : Axis)
    (ha : a ∈ l) (hj : Jumps (from_.deltaSteps a) (to_.deltaSteps a)) :
    joiningLoop A from_ to_ l first speed = A.zero := by
  induction l generalizing first speed with
  | nil => simp at ha
  | cons b l ih =>
    unfold joiningLoop
    simp only
    by_cases hab : a = b
    · subst hab
      unfold Jumps at hj
      by_cases h1 : from_.deltaSteps a = 0 ∧ to_.deltaSteps a = 0
      · omega
      · rw [if_neg h1]
        by_cases h2 : from_.deltaSteps a = 0 ∨ to_.deltaSteps a = 0
        · rw [if_pos h2]
        · rw [if_neg h2, if_pos (by omega)]
    · have hl : a ∈ l := by
        rcases List.mem_cons.1 ha with h | h
        · exact absurd h hab
        · exact h
      split
      · exact ih _ _ hl
      · split
        · rfl
        · split
          · rfl
          · split
            · rfl
            · split
              · exact ih _ _ hl
              · rfl

/-- The scalar product of the directions of two moves. -/
def dotOf (from_ to_ : AxisTarget F) : F :=
  A.add (A.add (A.mul from_.dx to_.dx) (A.mul from_.dy to_.dy)) (A.mul from_.dz to_.dz)

/-- The cosine of the angle between two moves. -/
def cosOf (from_ to_ : AxisTarget F) : F := A.div (dotOf A from_ to_) (A.mul from_.len to_.len)

/-- The angle between two moves in degrees. -/
def angleOf (from_ to_ : AxisTarget F) : F :=
  A.abs (A.mul (A.acos (cosOf A from_ to_)) (A.div (A.ofInt 180) A.pi))

/-- **C55.** A full stop is made at every corner where the path turns back or by a right angle, or by
45 degrees or more. -/
theorem C55_sharp_corner (cfg : Config F) (from_ to_ : AxisTarget F)
    (h : A.eq (dotOf A from_ to_) A.zero = true ∨ A.lt (dotOf A from_ to_) A.zero = true ∨
      (withinAcceptableRange A (A.ofInt 1) (cosOf A from_ to_) A.eps = false ∧
        A.le (A.ofInt 45) (angleOf A from_ to_) = true)) :
    determineJoiningSpeed A cfg from_ to_ = A.zero := by
  unfold determineJoiningSpeed
  simp only
  rcases h with h | h | ⟨h1, h2⟩
  · unfold dotOf at h
    rw [if_pos h]
  · unfold dotOf at h
    split
    · rfl
    · rfl
  · split
    · rfl
    · split
      · rfl
      · unfold cosOf dotOf at h1
        unfold angleOf cosOf dotOf at h2
        rw [h1, if_neg (by decide), if_pos h2]

/-- **C55.** At a corner of more than the threshold angle, a full stop is made if any axis would have
to start, stop or reverse. -/
theorem C55_axis_jump_partial (cfg : Config F) (from_ to_ : AxisTarget F) (a : Axis)
    (hj : Jumps (from_.deltaSteps a) (to_.deltaSteps a))
    (h1 : withinAcceptableRange A (A.ofInt 1) (cosOf A from_ to_) A.eps = false)
    (h2 : A.le (angleOf A from_ to_) cfg.thresholdAngle = false) :
    determineJoiningSpeed A cfg from_ to_ = A.zero := by
  unfold determineJoiningSpeed
  simp only
  unfold cosOf dotOf at h1
  unfold angleOf cosOf dotOf at h2
  split
  · rfl
  · split
    · rfl
    · rw [h1, if_neg (by decide)]
      split
      · rfl
      · rw [h2, if_neg (by decide)]
        exact joiningLoop_jump A from_ to_ _ _ _ a (List.mem_finRange a) hj

theorem newTarget_startSpeed (cfg : Config F) (prev : AxisTarget F) (axis : Axis → F) (feed : F) (aux : Nat) :
    ∃ t : AxisTarget F,
      (newTarget A cfg prev axis feed aux).startSpeed =
        A.min (determineJoiningSpeed A cfg prev t) t.speed ∧
      t.deltaSteps = (newTarget A cfg prev axis feed aux).deltaSteps ∧
      t.dx = (newTarget A cfg prev axis feed aux).dx ∧ t.dy = (newTarget A cfg prev axis feed aux).dy ∧
      t.dz = (newTarget A cfg prev axis feed aux).dz ∧
      t.len = (newTarget A cfg prev axis feed aux).len := by
  unfold newTarget
  simp only
  exact ⟨_, rfl, rfl, rfl, rfl, rfl, rfl⟩

/-- **C55.** The start speed of a new move whose corner with the move before is sharp, or at which an
axis jumps and which is above the threshold angle, is the smaller one of zero and its own speed. -/
theorem C55_start_speed_partial (cfg : Config F) (prev : AxisTarget F) (axis : Axis → F) (feed : F)
    (aux : Nat)
    (h : let t := newTarget A cfg prev axis feed aux
      A.eq (dotOf A prev t) A.zero = true ∨ A.lt (dotOf A prev t) A.zero = true ∨
      (withinAcceptableRange A (A.ofInt 1) (cosOf A prev t) A.eps = false ∧
        (A.le (A.ofInt 45) (angleOf A prev t) = true ∨
          (A.le (angleOf A prev t) cfg.thresholdAngle = false ∧
            ∃ a, Jumps (prev.deltaSteps a) (t.deltaSteps a))))) :
    ∃ v, (newTarget A cfg prev axis feed aux).startSpeed = A.min A.zero v := by
  obtain ⟨t, e, e1, e2, e3, e4, e5⟩ := newTarget_startSpeed A cfg prev axis feed aux
  refine ⟨t.speed, ?_⟩
  rw [e]
  congr 1
  simp only at h
  have hd : dotOf A prev (newTarget A cfg prev axis feed aux) = dotOf A prev t := by
    unfold dotOf; rw [e2, e3, e4]
  have hc : cosOf A prev (newTarget A cfg prev axis feed aux) = cosOf A prev t := by
    unfold cosOf; rw [hd, e5]
  have ha : angleOf A prev (newTarget A cfg prev axis feed aux) = angleOf A prev t := by
    unfold angleOf; rw [hc]
  rw [hd, hc, ha] at h
  rcases h with h | h | ⟨h1, h2 | ⟨h2, a, hj⟩⟩
  · exact C55_sharp_corner A cfg prev t (Or.inl h)
  · exact C55_sharp_corner A cfg prev t (Or.inr (Or.inl h))
  · exact C55_sharp_corner A cfg prev t (Or.inr (Or.inr ⟨h1, h2⟩))
  · rw [← e1] at hj
    exact C55_axis_jump_partial A cfg prev t a hj h1 h2

end

section
variable {F : Type} [Field F] [LinearOrder F] [IsStrictOrderedRing F] {A : Arith F} {cfg : Config F}

/-- **C55, what is not true**: two moves of the same direction in X/Y/Z are joined at full speed even
if another axis (here E) reverses. -/
theorem C55_reversal_at_speed (ex : Exact A) (heps : 0 ≤ A.eps) (from_ to_ : AxisTarget F)
    (hf : from_.dx = 1 ∧ from_.dy = 0 ∧ from_.dz = 0 ∧ from_.len = 1)
    (ht : to_.dx = 1 ∧ to_.dy = 0 ∧ to_.dz = 0 ∧ to_.len = 1)
    (_ : from_.deltaSteps 9 = 50 ∧ to_.deltaSteps 9 = -50) :
    determineJoiningSpeed A cfg from_ to_ = to_.speed := by
  obtain ⟨f1, f2, f3, f4⟩ := hf
  obtain ⟨t1, t2, t3, t4⟩ := ht
  unfold determineJoiningSpeed withinAcceptableRange
  simp only [f1, f2, f3, f4, t1, t2, t3, t4, ex.mul, ex.add, ex.sub, ex.eq, ex.lt, ex.zero, ex.div,
    ex.ofInt]
  have h1 : ¬ ((1 : F) < 1 - A.eps) := by linarith
  have h2 : ¬ ((1 : F) + A.eps < 1) := by linarith
  norm_num [h1, h2]

end

end BeagleG.Planner
