import Verif.Hardware.AuxProps
/-!
# C40: motors and axes

Specification: a motor belongs to the axis of the first request that names it.
-/
namespace BeagleG.Hardware

open Planner (Axis Motor)

variable {F : Type}

/-- A request to map a motor (numbered from 1) to an axis. -/
structure MotorRequest where
  axis : Axis
  motor : Int
  mirrored : Bool

/-- The function called. -/
def MotorRequest.run (h : Hw F) (r : MotorRequest) : Hw F :=
  (addMotorMapping h r.axis r.motor r.mirrored).1

/-- Specification: the request that decides about motor `m`, the first one naming it. -/
def firstRequest (l : List MotorRequest) (m : Motor) : Option MotorRequest :=
  l.find? fun r => r.motor = (m.val : Int) + 1

/-- Is motor `m` mapped to the axis? -/
def Hw.drives (h : Hw F) (a : Axis) (m : Motor) : Bool := (h.axisToDriver a).getLsbD m.val

theorem bit_shift8 (i j : Fin 8) : (1#8 <<< i.val).getLsbD j.val = decide (i = j) := by
  revert i j; decide

/-- What `addMotorMapping` does to one motor. -/
theorem addMotor_step (h : Hw F) (r : MotorRequest) (m : Motor) :
    (∀ a, (r.run h).drives a m =
      (h.drives a m || decide (r.motor = (m.val : Int) + 1 ∧ h.driverFlip m = 0 ∧ a = r.axis))) ∧
    (r.run h).driverFlip m =
      if r.motor = (m.val : Int) + 1 ∧ h.driverFlip m = 0 then (if r.mirrored then -1 else 1)
      else h.driverFlip m := by
  unfold MotorRequest.run addMotorMapping
  by_cases h0 : r.motor = 0
  · rw [if_pos h0]
    have : ¬ (r.motor = (m.val : Int) + 1) := by omega
    simp [this]
  · rw [if_neg h0]
    by_cases hr : 1 ≤ r.motor ∧ r.motor ≤ 8
    · rw [dif_pos hr]
      obtain ⟨k, hk⟩ : ∃ k : Fin 8, (r.motor - 1).toNat = k.val :=
        ⟨⟨(r.motor - 1).toNat, by omega⟩, rfl⟩
      have hkm : (r.motor = (m.val : Int) + 1) ↔ m = k := by
        constructor
        · intro e; apply Fin.ext; omega
        · intro e; subst e; omega
      have hfin : (⟨(r.motor - 1).toNat, by omega⟩ : Fin 8) = k := Fin.ext hk
      simp only [hfin, hkm]
      by_cases hf : h.driverFlip k = 0
      · rw [if_neg (by simpa using hf)]
        constructor
        · intro a
          simp only [Hw.drives]
          by_cases ha : a = r.axis
          · subst ha
            rw [if_pos rfl, BitVec.getLsbD_or, hk, bit_shift8]
            congr 1
            by_cases hm : m = k
            · subst hm; simp [hf]
            · simp [hm, Ne.symm hm]
          · rw [if_neg ha]; simp [ha]
        · by_cases hm : m = k
          · subst hm; simp [hf]
          · simp [hm]
      · rw [if_pos hf]
        by_cases hm : m = k
        · subst hm; simp [hf]
        · simp [hm]
    · rw [dif_neg hr]
      have : ¬ (r.motor = (m.val : Int) + 1) := by have := m.isLt; omega
      simp [this]

/-- C40. Starting without mappings, after any sequence of requests each motor is mapped to exactly
the axis of the first request naming it, with the mirroring of that request. -/
theorem C40_mapping [Inhabited F] (l : List MotorRequest) (m : Motor) :
    let h := l.foldl MotorRequest.run (Hw.blank F)
    (∀ a, h.drives a m = true ↔ ∃ r, firstRequest l m = some r ∧ r.axis = a) ∧
    h.driverFlip m = match firstRequest l m with
      | none => 0
      | some r => if r.mirrored then -1 else 1 := by
  intro h
  have gen : ∀ (l : List MotorRequest) (h : Hw F),
      (h.driverFlip m = 0 → ∀ a, h.drives a m = false) →
      (∀ a, (l.foldl MotorRequest.run h).drives a m = true ↔
        (h.drives a m = true ∨
          (h.driverFlip m = 0 ∧ ∃ r, firstRequest l m = some r ∧ r.axis = a))) ∧
      (l.foldl MotorRequest.run h).driverFlip m =
        if h.driverFlip m = 0 then
          (match firstRequest l m with
           | none => 0
           | some r => if r.mirrored then -1 else 1)
        else h.driverFlip m := by
    intro l
    induction l with
    | nil =>
      intro h hz
      constructor
      · intro a; simp [firstRequest]
      · by_cases hf : h.driverFlip m = 0 <;> simp [firstRequest, hf]
    | cons r l ih =>
      intro h hz
      obtain ⟨s1, s2⟩ := addMotor_step h r m
      have hz' : (r.run h).driverFlip m = 0 → ∀ a, (r.run h).drives a m = false := by
        intro hf a
        rw [s2] at hf
        by_cases hc : r.motor = (m.val : Int) + 1 ∧ h.driverFlip m = 0
        · rw [if_pos hc] at hf; split at hf <;> omega
        · rw [if_neg hc] at hf
          rw [s1, hz hf a]
          simp only [Bool.false_or, decide_eq_false_iff_not]
          exact fun hh => hc ⟨hh.1, hh.2.1⟩
      obtain ⟨i1, i2⟩ := ih _ hz'
      rw [List.foldl_cons]
      by_cases hm : r.motor = (m.val : Int) + 1
      · have hfr : firstRequest (r :: l) m = some r := by simp [firstRequest, hm]
        by_cases hf : h.driverFlip m = 0
        · have hne : ¬ (r.run h).driverFlip m = 0 := by
            rw [s2, if_pos ⟨hm, hf⟩]; split <;> omega
          constructor
          · intro a
            rw [i1, s1, hfr]
            simp only [hm, hf, true_and, Bool.or_eq_true, decide_eq_true_eq, hne, false_and,
              or_false, Option.some.injEq, exists_eq_left']
            simp only [eq_comm]
          · rw [i2, if_neg hne, s2, if_pos ⟨hm, hf⟩, hfr, if_pos hf]
        · have hfe : (r.run h).driverFlip m = h.driverFlip m := by
            rw [s2, if_neg (fun hh => hf hh.2)]
          constructor
          · intro a
            rw [i1, s1, hfe]
            simp [hf]
          · rw [i2, hfe, if_neg hf, if_neg hf]
      · have hfr : firstRequest (r :: l) m = firstRequest l m := by simp [firstRequest, hm]
        have hfe : (r.run h).driverFlip m = h.driverFlip m := by
          rw [s2, if_neg (fun hh => hm hh.1)]
        constructor
        · intro a
          rw [i1, s1, hfe, hfr]
          simp [hm]
        · rw [i2, hfe, hfr]
  have hb := gen l (Hw.blank F) (fun _ a => by simp [Hw.drives, Hw.blank])
  obtain ⟨g1, g2⟩ := hb
  constructor
  · intro a
    rw [g1]
    simp [Hw.drives, Hw.blank]
  · rw [g2]
    simp [Hw.blank]

/-- The mapping is sound: a motor belongs to at most one axis, and it is free exactly if it belongs
to none. -/
def Hw.MapOk (h : Hw F) : Prop :=
  (∀ a b m, h.drives a m = true → h.drives b m = true → a = b) ∧
  (∀ m, h.driverFlip m = 0 ↔ ∀ a, h.drives a m = false)

/-- C40. No motor is ever mapped to two axes. -/
theorem C40_one_axis [Inhabited F] (l : List MotorRequest) :
    (l.foldl MotorRequest.run (Hw.blank F)).MapOk := by
  constructor
  · intro a b m ha hb
    have hm := (C40_mapping (F := F) l m).1
    obtain ⟨r, hr, e⟩ := (hm a).1 ha
    obtain ⟨r', hr', e'⟩ := (hm b).1 hb
    rw [hr] at hr'
    injection hr' with h
    rw [← e, ← e', h]
  · intro m
    obtain ⟨h1, h2⟩ := C40_mapping (F := F) l m
    rw [h2]
    cases hf : firstRequest l m with
    | none =>
      simp only [true_iff]
      intro a
      have := h1 a
      rw [hf] at this
      simp only [reduceCtorEq, false_and, exists_false, iff_false, Bool.not_eq_true] at this
      exact this
    | some r =>
      constructor
      · intro h; simp only at h; split at h <;> omega
      · intro h
        have := (h1 r.axis).2 ⟨r, hf, rfl⟩
        rw [h r.axis] at this
        exact absurd this (by decide)

/-- C40. A request is refused exactly if the motor does not exist or is taken; a refused request
changes nothing. -/
theorem C40_refused (h : Hw F) (axis : Axis) (motor : Int) (mirrored : Bool) :
    ((addMotorMapping h axis motor mirrored).2 = false ↔
      (motor < 0 ∨ 8 < motor ∨ ∃ m : Motor, motor = (m.val : Int) + 1 ∧ h.driverFlip m ≠ 0)) ∧
    ((addMotorMapping h axis motor mirrored).2 = false →
      (addMotorMapping h axis motor mirrored).1 = h) := by
  unfold addMotorMapping
  by_cases h0 : motor = 0
  · subst h0
    simp only [if_true, Bool.true_eq_false, false_iff, false_implies, and_true]
    rintro (h | h | ⟨m, e, _⟩) <;> omega
  · rw [if_neg h0]
    by_cases hr : 1 ≤ motor ∧ motor ≤ 8
    · rw [dif_pos hr]
      by_cases hf : h.driverFlip ⟨(motor - 1).toNat, by omega⟩ = 0
      · simp only [hf, ne_eq, not_true_eq_false, if_false, Bool.true_eq_false, false_iff,
          false_implies, and_true]
        rintro (h | h | ⟨m, e, hm⟩)
        · omega
        · omega
        · apply hm
          have : (⟨(motor - 1).toNat, by omega⟩ : Fin 8) = m := Fin.ext (by simp; omega)
          rw [← this]; exact hf
      · simp only [hf, ne_eq, not_false_eq_true, if_true, true_iff, implies_true, and_true]
        exact Or.inr (Or.inr ⟨_, by simp; omega, hf⟩)
    · rw [dif_neg hr]
      simp only [true_iff, implies_true, and_true]
      omega

/-- C40. The automatically chosen motor is free, and there is one unless all motors are mapped. -/
theorem C40_first_free (h : Hw F) :
    (firstFreeMotor h = 0 ∧ ∀ m, h.driverFlip m ≠ 0) ∨
    ∃ m : Motor, firstFreeMotor h = (m.val : Int) + 1 ∧ h.driverFlip m = 0 ∧
      ∀ k, k < m → h.driverFlip k ≠ 0 := by
  unfold firstFreeMotor
  cases hf : (List.finRange 8).find? fun m => h.driverFlip m = 0 with
  | none =>
    left
    refine ⟨rfl, fun m => ?_⟩
    rw [List.find?_eq_none] at hf
    simpa using hf m (List.mem_finRange m)
  | some m =>
    right
    rw [List.find?_eq_some_iff_getElem] at hf
    obtain ⟨h1, i, hi, he, hlt⟩ := hf
    refine ⟨m, rfl, by simpa using h1, fun k hk => ?_⟩
    have him : i = m.val := by
      have : (List.finRange 8)[i] = m := he
      rw [List.getElem_finRange] at this
      exact congrArg Fin.val this
    have := hlt k.val (by rw [him]; exact hk)
    rw [List.getElem_finRange] at this
    simpa using this

/-- The planner's loop: assign the steps of all axes in turn. -/
def assignAll (h : Hw F) (steps : Axis → Int) : Motor → Int :=
  (List.finRange 10).foldl (fun out a => assignMotorSteps h a (steps a) out) fun _ => 0

theorem assign_fold (h : Hw F) (steps : Axis → Int) (m : Motor) :
    ∀ (l : List Axis) (out : Motor → Int), (∀ a ∈ l, h.drives a m = false) →
      l.foldl (fun out a => assignMotorSteps h a (steps a) out) out m = out m := by
  intro l
  induction l with
  | nil => intro out _; rfl
  | cons a l ih =>
    intro out hl
    rw [List.foldl_cons, ih _ (fun b hb => hl b (List.mem_cons_of_mem _ hb))]
    have := hl a List.mem_cons_self
    unfold Hw.drives at this
    unfold assignMotorSteps
    rw [this]; rfl

theorem assign_fold_of (h : Hw F) (steps : Axis → Int) (m : Motor) (b : Axis)
    (hb : h.drives b m = true) (hu : ∀ a, h.drives a m = true → a = b) :
    ∀ (l : List Axis) (out : Motor → Int), b ∈ l →
      l.foldl (fun out a => assignMotorSteps h a (steps a) out) out m = steps b := by
  intro l
  induction l with
  | nil => intro out h; simp at h
  | cons a l ih =>
    intro out hmem
    rw [List.foldl_cons]
    by_cases hl : b ∈ l
    · exact ih _ hl
    · have hab : a = b := by
        rcases List.mem_cons.1 hmem with h | h
        · exact h.symm
        · exact absurd h hl
      rw [assign_fold h steps m l _ (fun c hc => by
        by_contra hh
        rw [Bool.not_eq_false] at hh
        exact hl (hu c hh ▸ hc))]
      unfold Hw.drives at hb
      unfold assignMotorSteps
      rw [hab, hb]; rfl

/-- C40. Assigning the steps of all axes gives each mapped motor exactly the steps of its axis and
every other motor none. -/
theorem C40_assign (h : Hw F) (ok : h.MapOk) (steps : Axis → Int) (m : Motor) :
    (∀ a, h.drives a m = true → assignAll h steps m = steps a) ∧
    ((∀ a, h.drives a m = false) → assignAll h steps m = 0) := by
  refine ⟨fun a ha => ?_, fun hn => ?_⟩
  · exact assign_fold_of h steps m a ha (fun b hb => ok.1 b a m hb ha) _ _ (List.mem_finRange a)
  · exact assign_fold h steps m _ _ (fun a _ => hn a)

/-- The planner model uses the same assignment. -/
theorem assignAll_planner {G : Type} (h : Hw F) (cfg : Planner.Config G)
    (hc : cfg.motorMap = h.drives) (steps : Axis → Int) :
    Planner.assignAll cfg steps = assignAll h steps := by
  unfold Planner.assignAll assignAll
  rw [hc]
  rfl

/-- C40. The position of an axis is read from one of its motors; 0 if it has none. -/
theorem C40_read_back (h : Hw F) (a : Axis) (pos : Motor → Int) :
    (∃ m, h.drives a m = true ∧ getAxisSteps h a pos = pos m) ∨
    ((∀ m, h.drives a m = false) ∧ getAxisSteps h a pos = 0) := by
  unfold getAxisSteps
  cases hf : (List.finRange 8).find? fun m => (h.axisToDriver a).getLsbD m.val with
  | none =>
    right
    rw [List.find?_eq_none] at hf
    refine ⟨fun m => ?_, rfl⟩
    simpa [Hw.drives] using hf m (List.mem_finRange m)
  | some m =>
    left
    have := List.find?_some hf
    exact ⟨m, this, rfl⟩

/-- C40. What was assigned is what is read back: if every motor moved by the steps assigned to it,
starting from positions equal for the motors of an axis, the axis position changes by exactly the
steps of the axis. -/
theorem C40_assign_read (h : Hw F) (ok : h.MapOk) (steps : Axis → Int) (pos : Motor → Int) (a : Axis)
    (hm : ∃ m, h.drives a m = true) :
    getAxisSteps h a (fun m => pos m + assignAll h steps m) = getAxisSteps h a pos + steps a := by
  unfold getAxisSteps
  cases hf : (List.finRange 8).find? fun m => (h.axisToDriver a).getLsbD m.val with
  | none =>
    rw [List.find?_eq_none] at hf
    obtain ⟨m, hm⟩ := hm
    exact absurd hm (by simpa [Hw.drives] using hf m (List.mem_finRange m))
  | some m =>
    have := List.find?_some hf
    show pos m + assignAll h steps m = pos m + steps a
    rw [(C40_assign h ok steps m).1 a this]

/-- Two motors for Y, one of them mirrored; motor 2 is refused to X. -/
def exMotors : List MotorRequest := [⟨1, 2, false⟩, ⟨1, 3, true⟩, ⟨0, 2, false⟩, ⟨0, 1, false⟩]

example : assignAll (exMotors.foldl MotorRequest.run (Hw.blank Nat)) (fun a => 10 + a.val) 1 = 11 ∧
    assignAll (exMotors.foldl MotorRequest.run (Hw.blank Nat)) (fun a => 10 + a.val) 0 = 10 ∧
    assignAll (exMotors.foldl MotorRequest.run (Hw.blank Nat)) (fun a => 10 + a.val) 5 = 0 := by
  decide

end BeagleG.Hardware
