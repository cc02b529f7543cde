import Verif.Parser.MoveProps
import Mathlib.Algebra.Ring.Rat
import Mathlib.Data.Rat.Cast.Defs
/-!
# The parser: coordinate systems, units and offsets (C13, C14)
-/
namespace BeagleG.Parser
open Text Expr

variable {F : Type} {fl : Num F} {rc : Receiver F} {Q : Fault → Prop} {T : List Byte → Prop}
variable {pair : State F → List Byte → Out (State F × Option (Word F))}

/-! ### C13: the commands that choose what a coordinate means -/

/-- G20, G70: inches. G21, G71: millimetres. Nothing else changes. -/
theorem C13_units (was : Bool) (st : State F) (v : F) (line : List Byte) :
    (fl.toInt v = 20 ∨ fl.toInt v = 70 →
      commandG fl rc pair was st v line = .ok ({ st with unit := fl.tenth 254 }, some line)) ∧
    (fl.toInt v = 21 ∨ fl.toInt v = 71 →
      commandG fl rc pair was st v line = .ok ({ st with unit := fl.one }, some line)) := by
  constructor <;> rintro (h | h) <;> simp [commandG, h]

/-- G90: all axes absolute. G91: all axes relative. M82 and M83 do the same for E only. -/
theorem C13_absolute (was : Bool) (st : State F) (v : F) (line : List Byte) :
    (fl.toInt v = 90 → fl.eq v (fl.tenth 900) = true → commandG fl rc pair was st v line =
      .ok ({ st with absolute := fun _ => true, modalAbsolute := true }, some line)) ∧
    (fl.toInt v = 91 → fl.eq v (fl.tenth 900) = false → fl.eq v (fl.tenth 910) = true →
      commandG fl rc pair was st v line =
        .ok ({ st with absolute := fun _ => false, modalAbsolute := false }, some line)) ∧
    (fl.toInt v = 82 → commandM fl rc pair st v line =
      .ok ({ st with absolute := fun a => a = .E || st.absolute a }, some line)) ∧
    (fl.toInt v = 83 → commandM fl rc pair st v line =
      .ok ({ st with absolute := fun a => a ≠ .E && st.absolute a }, some line)) := by
  refine ⟨fun h h1 => ?_, fun h h1 h2 => ?_, fun h => ?_, fun h => ?_⟩
  · simp [commandG, h, handleG90, h1]
  · simp [commandG, h, handleG90, h1, h2]
  · simp [commandM, h]
  · simp [commandM, h]

/-- The number of a coordinate system: G54 to G58, G59, G59.1, G59.2, G59.3. -/
def SystemNumber (fl : Num F) (v : F) (i : Fin 9) : Prop :=
  (i.val < 5 ∧ fl.toInt v = 54 + i.val) ∨
    (5 ≤ i.val ∧ fl.toInt v = 59 ∧ fl.eq v (fl.tenth (585 + i.val)) = true ∧
      ∀ j, 5 ≤ j → j < i.val → fl.eq v (fl.tenth (585 + j)) = false)

theorem coordSystemOf_iff (v : F) (i : Fin 9) : coordSystemOf fl v = some i ↔ SystemNumber fl v i := by
  unfold coordSystemOf SystemNumber
  constructor
  · intro h
    repeat' split at h
    all_goals first | (cases h; done) | skip
    all_goals injection h with h
    all_goals subst h
    · left; exact ⟨by decide, by assumption⟩
    · left; exact ⟨by decide, by assumption⟩
    · left; exact ⟨by decide, by assumption⟩
    · left; exact ⟨by decide, by assumption⟩
    · left; exact ⟨by decide, by assumption⟩
    · right; exact ⟨by decide, by assumption, by assumption, by intro j h1 h2; have h3 : j < 5 := h2; omega⟩
    · right
      rename_i h59 h0 _
      refine ⟨by decide, by assumption, by assumption, ?_⟩
      intro j h1 h2
      have h2' : j < 6 := h2
      have : j = 5 := by omega
      subst this
      simpa using h0
    · right
      rename_i h59 h0 h1' _
      refine ⟨by decide, by assumption, by assumption, ?_⟩
      intro j h1 h2
      have h2' : j < 7 := h2
      have : j = 5 ∨ j = 6 := by omega
      rcases this with rfl | rfl
      · simpa using h0
      · simpa using h1'
    · right
      rename_i h59 h0 h1' h2'' _
      refine ⟨by decide, by assumption, by assumption, ?_⟩
      intro j h1 h2
      have h2' : j < 8 := h2
      have : j = 5 ∨ j = 6 ∨ j = 7 := by omega
      rcases this with rfl | rfl | rfl
      · simpa using h0
      · simpa using h1'
      · simpa using h2''
  · intro h
    rcases h with ⟨h1, h2⟩ | ⟨h1, h2, h3, h4⟩
    · have : i.val = 0 ∨ i.val = 1 ∨ i.val = 2 ∨ i.val = 3 ∨ i.val = 4 := by omega
      rcases this with e | e | e | e | e <;> rw [e] at h2 <;> simp [h2] <;> exact Fin.ext e.symm
    · have : i.val = 5 ∨ i.val = 6 ∨ i.val = 7 ∨ i.val = 8 := by omega
      rcases this with e | e | e | e <;> rw [e] at h3 h4 <;> simp [h2]
      · have h3' : fl.eq v (fl.tenth 590) = true := h3
        simp [h3']; exact Fin.ext e.symm
      · have h3' : fl.eq v (fl.tenth 591) = true := h3
        have h5 : fl.eq v (fl.tenth 590) = false := h4 5 (by omega) (by omega)
        simp [h3', h5]; exact Fin.ext e.symm
      · have h3' : fl.eq v (fl.tenth 592) = true := h3
        have h5 : fl.eq v (fl.tenth 590) = false := h4 5 (by omega) (by omega)
        have h6 : fl.eq v (fl.tenth 591) = false := h4 6 (by omega) (by omega)
        simp [h3', h5, h6]; exact Fin.ext e.symm
      · have h3' : fl.eq v (fl.tenth 593) = true := h3
        have h5 : fl.eq v (fl.tenth 590) = false := h4 5 (by omega) (by omega)
        have h6 : fl.eq v (fl.tenth 591) = false := h4 6 (by omega) (by omega)
        have h7 : fl.eq v (fl.tenth 592) = false := h4 7 (by omega) (by omega)
        simp [h3', h5, h6, h7]; exact Fin.ext e.symm

theorem storeParameter_kept (fl : Num F) (st : State F) (name : List Byte) (v : F) :
    Kept st (storeParameter st name v) := (Quiet.store (fl := fl) name v (.refl st)).kept

/-- **G54 to G59.3 select a coordinate system**; offsets, units and modes, and the position of the machine, stay
as they are. -/
theorem C13_select (was : Bool) (st : State F) (v : F) (line : List Byte) (i : Fin 9)
    (hc : 54 ≤ fl.toInt v ∧ fl.toInt v ≤ 59) (hv : SystemNumber fl v i) :
    ∃ st', commandG fl rc pair was st v line = .ok (st', some line) ∧ Kept { st with origin := .system i } st' ∧
      Unmoved st st' ∧
      (∀ a, zeroOf fl st' a = fl.add (st.system i a) (st.currentOffset fl a)) := by
  refine ⟨changeCoordSystem fl st v, ?_, ?_⟩
  · have hne : ∀ k : Int, ¬ (54 ≤ k ∧ k ≤ 59) → fl.toInt v ≠ k := by
      intro k hk e; rw [e] at hc; exact hk hc
    unfold commandG
    simp only
    rw [if_neg (hne 0 (by omega)), if_neg (hne 1 (by omega)), if_neg (hne 2 (by omega)), if_neg (hne 3 (by omega)),
      if_neg (hne 4 (by omega)), if_neg (hne 5 (by omega)), if_neg (hne 10 (by omega)), if_neg (hne 17 (by omega)),
      if_neg (hne 18 (by omega)), if_neg (hne 19 (by omega)), if_neg (by omega), if_neg (by omega),
      if_neg (hne 28 (by omega)), if_neg (hne 30 (by omega)), if_neg (hne 50 (by omega)), if_neg (hne 51 (by omega)),
      if_pos hc]
  · unfold changeCoordSystem
    rw [(coordSystemOf_iff v i).2 hv]
    simp only
    have hk := storeParameter_kept fl st selectedParam (fl.ofInt (i.val + 1))
    have hu := storeParameter_unmoved st selectedParam (fl.ofInt (i.val + 1))
    generalize storeParameter st selectedParam (fl.ofInt (i.val + 1)) = s1 at hk hu
    have hk2 : Kept { st with origin := .system i } ({ s1 with origin := .system i } : State F) :=
      ⟨hk.pos, hk.scale, hk.machineOrigin, hk.system, hk.g92, rfl, hk.offset, hk.unit, hk.rotUnit, hk.absolute,
        hk.ijkAbsolute, hk.modalAbsolute, hk.modalG1, hk.arcNormal, hk.lastCp2, hk.haveSpline, hk.inProgress⟩
    have hk3 := hk2.trans (say_kept _ (.originOffset (State.frame fl { s1 with origin := .system i }) (.system i)))
    refine ⟨hk3, ?_, ?_⟩
    · exact (say_unmoved _ _ rfl).trans hu
    · intro a
      exact congrFun (hk3.zeroOf (fl := fl)) a

/-- The origins after G10 for system `n`. -/
def g10Origins (fl : Num F) (st : State F) (n : Fin 9) (coords : Axis → Option F) (i : Fin 9) (a : Axis) : F :=
  match coords a with
  | none => st.system i a
  | some v =>
    if i ≠ n then st.system i a
    else if st.modalAbsolute then fl.add (st.machineOrigin a) v else fl.add (st.system n a) v

theorem g10System_eq (st : State F) (n : Fin 9) (coords : Axis → Option F) (i : Fin 9) (a : Axis) :
    (if i = n then g10System fl st n coords else st.system i) a = g10Origins fl st n coords i a := by
  by_cases e : i = n
  · subst e
    rw [if_pos rfl]
    unfold g10System g10Origins
    cases coords a <;> simp
  · rw [if_neg e]
    unfold g10Origins
    cases coords a <;> simp [e]

/-- **G10 L2 Pn sets the origin of coordinate system n** on the axes given (absolute mode: relative to the machine
origin; relative mode: by that much). Other axes and systems, and the position of the machine, stay. -/
theorem C13_g10 (st : State F) (g : G10 F) (n : Fin 9) (hl : g.l = 2) (hp : g.p = n.val + 1) :
    ∃ st', g10Apply fl st g = st' ∧
      Kept { st with system := g10Origins fl st n g.coords } st' ∧ Unmoved st st' := by
  have hcs : (⟨(g.p - 1).toNat, by have := n.isLt; omega⟩ : Fin 9) = n := Fin.ext (by simp [hp])
  have h1 : ¬ (g.p < 1 ∨ g.p > 9) := by have := n.isLt; omega
  have hset : Kept { st with system := g10Origins fl st n g.coords } (g10Set fl st n g.coords) ∧ Unmoved st (g10Set fl st n g.coords) := by
    have q := g10Store_quiet (fl := fl) n g.coords allAxes
      { st with system := fun i => if i = n then g10System fl st n g.coords else st.system i }
    have hk := q.kept
    have hu := q.unmoved
    refine ⟨⟨hk.pos, hk.scale, hk.machineOrigin, ?_, hk.g92, hk.origin, hk.offset, hk.unit, hk.rotUnit, hk.absolute,
        hk.ijkAbsolute, hk.modalAbsolute, hk.modalG1, hk.arcNormal, hk.lastCp2, hk.haveSpline, hk.inProgress⟩, hu⟩
    refine hk.system.trans ?_
    funext i a
    exact g10System_eq st n g.coords i a
  refine ⟨_, rfl, ?_⟩
  unfold g10Apply
  rw [if_neg (by simp [hl]), dif_neg h1]
  simp only
  rw [hcs]
  split
  · exact ⟨hset.1.trans (say_kept _ _), (say_unmoved _ _ rfl).trans hset.2⟩
  · exact hset

/-- What the words of G10 mean: L and P as integers, coordinates in the selected unit. -/
theorem C13_g10_words (hk : Keeps pair T) {st st' : State F} {line rest : List Byte} {g : G10 F}
    {ws : List (Byte × F)} (ht : T line) (hd : st.doWhile = false)
    (h : WordSeq pair (g10Step fl) st ⟨-1, -1, fun _ => none⟩ line ws st' g rest) :
    Kept st st' ∧ Unmoved st st' ∧ g.l = ((letterValueOf 76 ws).map fl.toInt).getD (-1) ∧
      g.p = ((letterValueOf 80 ws).map fl.toInt).getD (-1) ∧
      ∀ a, g.coords a = (axisValue a ws).map fun v => fl.mul v st.unit := by
  refine h.induct hk (fun s g ws => Kept st s ∧ Unmoved st s ∧ g.l = ((letterValueOf 76 ws).map fl.toInt).getD (-1) ∧
    g.p = ((letterValueOf 80 ws).map fl.toInt).getD (-1) ∧
    ∀ a, g.coords a = (axisValue a ws).map fun v => fl.mul v st.unit) ?_ ?_ [] ht hd
    ⟨.refl _, rfl, rfl, rfl, fun _ => rfl⟩
  · intro s s' g ws hi hks hus
    exact ⟨hi.1.trans hks, hus.trans hi.2.1, hi.2.2⟩
  · intro s g ws l v s' g' hi hst
    obtain ⟨i1, i2, i3, i4, i5⟩ := hi
    unfold g10Step at hst
    have hL : letterAxis 76 = none := by decide
    have hP : letterAxis 80 = none := by decide
    split at hst
    · rename_i hl
      subst hl
      injection hst with hst; injection hst with e1 e2; subst e1; subst e2
      refine ⟨⟨i1, i2, ?_, ?_, ?_⟩, rfl⟩
      · simp [letterValueOf_append]
      · simp only [letterValueOf_append]; rw [if_neg (by decide)]; exact i4
      · intro a; rw [axisValue_append, hL, if_neg (by simp)]; exact i5 a
    · split at hst
      · rename_i hl
        subst hl
        injection hst with hst; injection hst with e1 e2; subst e1; subst e2
        refine ⟨⟨i1, i2, ?_, ?_, ?_⟩, rfl⟩
        · simp only [letterValueOf_append]; rw [if_neg (by decide)]; exact i3
        · simp [letterValueOf_append]
        · intro a; rw [axisValue_append, hP, if_neg (by simp)]; exact i5 a
      · split at hst
        · cases hst
        · rename_i n76 n80 _ b hb
          injection hst with hst; injection hst with e1 e2; subst e1; subst e2
          refine ⟨⟨i1, i2, ?_, ?_, ?_⟩, rfl⟩
          · simp only [letterValueOf_append]; rw [if_neg n76]; exact i3
          · simp only [letterValueOf_append]; rw [if_neg n80]; exact i4
          · intro a
            rw [axisValue_append, hb]
            show (if a = b then some (fl.mul v s.unit) else g.coords a) = _
            by_cases e : a = b
            · subst e; simp [i1.unit]
            · rw [if_neg e, if_neg (by simpa using fun h => e h.symm)]; exact i5 a

/-! ### C14: G92 -/

/-- Arithmetic without rounding. -/
structure Exact [CommRing F] (fl : Num F) : Prop where
  zero : fl.zero = 0
  one : fl.one = 1
  add : ∀ a b, fl.add a b = a + b
  sub : ∀ a b, fl.sub a b = a - b
  mul : ∀ a b, fl.mul a b = a * b

/-- The position on an axis, in millimetres or degrees, as a coordinate of the selected coordinate system with the
active offset. -/
def coordinate [CommRing F] (fl : Num F) (st : State F) (a : Axis) : F := st.pos a - zeroOf fl st a

/-- The offset after the words `ws` of a G92. -/
def g92Offset (fl : Num F) (st : State F) (ws : List (Byte × F)) (a : Axis) : F :=
  match axisValue a ws with
  | none => st.g92 a
  | some v => fl.sub (fl.sub (st.pos a) (fl.mul v st.unit)) (st.currentOrigin a)

/-- What the words of G92 do to the stored offset. -/
theorem g92_read (hk : Keeps pair T) {st st' : State F} {line rest : List Byte}
    {ws : List (Byte × F)} (ht : T line) (hd : st.doWhile = false)
    (h : WordSeq pair (g92Step fl) st () line ws st' () rest) :
    Unmoved st st' ∧ Kept { st with g92 := g92Offset fl st ws } st' := by
  refine h.induct hk (fun s _ ws => Unmoved st s ∧ Kept { st with g92 := g92Offset fl st ws } s) ?_ ?_ [] ht hd
      ⟨rfl, .refl _⟩
  · intro s s' _ ws hi hks hus
    exact ⟨hus.trans hi.1, hi.2.trans hks⟩
  · intro s _ ws l v s' _ hi hst
    unfold g92Step at hst
    split at hst
    · cases hst
    · rename_i b hb
      injection hst with hst; injection hst with e1 _; subst e1
      have hk := hi.2
      refine ⟨⟨hi.1, ⟨hk.pos, hk.scale, hk.machineOrigin, hk.system, ?_, hk.origin, hk.offset, hk.unit, hk.rotUnit, hk.absolute,
        hk.ijkAbsolute, hk.modalAbsolute, hk.modalG1, hk.arcNormal, hk.lastCp2, hk.haveSpline, hk.inProgress⟩⟩, rfl⟩
      funext a
      have ho : s.currentOrigin = st.currentOrigin := by
        unfold State.currentOrigin
        rw [show s.origin = st.origin from hk.origin, show s.machineOrigin = st.machineOrigin from hk.machineOrigin,
          show s.system = st.system from hk.system]
      have hg := congrFun hk.g92 a
      have hp : s.pos = st.pos := hk.pos
      have hu : s.unit = st.unit := hk.unit
      simp only [g92Offset] at hg
      simp only [setAxis, g92Offset, axisValue_append, hb, Option.some.injEq, hp, hu, ho]
      by_cases e : a = b
      · subst e; simp
      · rw [if_neg e, if_neg (fun h => e h.symm)]; exact hg

/-- **C14, G92.** On an axis with a word the position becomes the given coordinate (in the selected unit); the
machine is not moved, and nothing else changes except that the offset is active. On the other axes the coordinate
stays what it was if the offset was active before (or is zero on that axis). -/
theorem C14_g92_partial [CommRing F] (hx : Exact fl) (hk : Keeps pair T) {st st' : State F} {sub : F} {line : List Byte}
    {l : Option (List Byte)} (ht : T line) (hd : st.doWhile = false) (hsub : fl.eq sub (fl.tenth 920) = true)
    (h : handleG92 fl pair st sub line = .ok (st', l)) :
    ∃ (ws : List (Byte × F)) (st1 : State F) (rest : List Byte), WordSeq pair (g92Step fl) st () line ws st1 () rest ∧
      Unmoved st st' ∧ Kept { st with g92 := st'.g92, offset := .g92 } st' ∧
      (∀ a v, axisValue a ws = some v → coordinate fl st' a = v * st.unit) ∧
      (∀ a, axisValue a ws = none → st.offset = .g92 ∨ st.g92 a = 0 → coordinate fl st' a = coordinate fl st a) := by
  unfold handleG92 at h
  rw [if_pos hsub] at h
  cases hw : words pair (g92Step fl) (wordFuel line) st () line with
  | fault f => rw [hw] at h; cases h
  | outOfFuel => rw [hw] at h; cases h
  | ok r =>
    obtain ⟨st1, u, rest, b⟩ := r
    rw [hw] at h
    simp only [Out.bind, Out.ok.injEq, Prod.mk.injEq] at h
    obtain ⟨h1, h2⟩ := h
    obtain ⟨ws, hws⟩ := words_seq _ _ _ _ _ _ _ _ hw
    obtain ⟨hu, hk1⟩ := g92_read hk ht hd hws
    subst h1
    refine ⟨ws, st1, rest, hws, (say_unmoved _ _ rfl).trans hu, ?_, ?_, ?_⟩
    · exact ⟨hk1.pos, hk1.scale, hk1.machineOrigin, hk1.system, rfl, hk1.origin, rfl, hk1.unit, hk1.rotUnit, hk1.absolute,
        hk1.ijkAbsolute, hk1.modalAbsolute, hk1.modalG1, hk1.arcNormal, hk1.lastCp2, hk1.haveSpline, hk1.inProgress⟩
    all_goals
      have ho : ∀ a, (setCurrentOffset fl st1 .g92 .g92).currentOrigin a = st.currentOrigin a := by
        intro a
        have e1 : st1.origin = st.origin := hk1.origin
        have e2 : st1.machineOrigin = st.machineOrigin := hk1.machineOrigin
        have e3 : st1.system = st.system := hk1.system
        simp only [setCurrentOffset, informOrigin, State.say, State.currentOrigin, e1, e2, e3]
      have hoff : ∀ a, (setCurrentOffset fl st1 .g92 .g92).currentOffset fl a = st1.g92 a := fun a => rfl
      have hpos : ∀ a, (setCurrentOffset fl st1 .g92 .g92).pos a = st.pos a := fun a => congrFun hk1.pos a
    · intro a v hv
      have hg := congrFun hk1.g92 a
      simp only [g92Offset, hv] at hg
      simp only [coordinate, zeroOf, ho, hoff, hpos, hg, hx.add, hx.sub, hx.mul]
      ring
    · intro a hv hor
      have hg := congrFun hk1.g92 a
      simp only [g92Offset, hv] at hg
      have : st.currentOffset fl a = st.g92 a := by
        unfold State.currentOffset
        cases ho : st.offset with
        | zero =>
          rcases hor with h | h
          · rw [ho] at h; cases h
          · rw [h]; exact hx.zero
        | g92 => rfl
      simp only [coordinate, zeroOf, ho, hoff, hpos, hg, this]

/-- **C14, G92.1, G92.2 and G92.3.** G92.2 suspends the offset and keeps its values; G92.3 activates them again;
G92.1 clears them for good. Nothing else changes. -/
theorem C14_suspend_restore_clear (st : State F) (line : List Byte) (sub : F) (h0 : fl.eq sub (fl.tenth 920) = false) :
    (fl.eq sub (fl.tenth 921) = true → ∃ st', handleG92 fl pair st sub line = .ok (st', some line) ∧ Unmoved st st' ∧
      Kept { st with g92 := fun _ => fl.zero, offset := .g92 } st') ∧
    (fl.eq sub (fl.tenth 921) = false → fl.eq sub (fl.tenth 922) = true →
      ∃ st', handleG92 fl pair st sub line = .ok (st', some line) ∧ Unmoved st st' ∧
        Kept { st with offset := .zero } st') ∧
    (fl.eq sub (fl.tenth 921) = false → fl.eq sub (fl.tenth 922) = false → fl.eq sub (fl.tenth 923) = true →
      ∃ st', handleG92 fl pair st sub line = .ok (st', some line) ∧ Unmoved st st' ∧
        Kept { st with offset := .g92 } st') := by
  refine ⟨fun h1 => ?_, fun h1 h2 => ?_, fun h1 h2 h3 => ?_⟩
  · exact ⟨setCurrentOffset fl { st with g92 := fun _ => fl.zero } .g92 .empty, by simp [handleG92, h0, h1],
      say_unmoved { st with g92 := fun _ => fl.zero, offset := .g92 } _ rfl, say_kept _ _⟩
  · exact ⟨setCurrentOffset fl st .zero .empty, by simp [handleG92, h0, h1, h2],
      say_unmoved { st with offset := .zero } _ rfl, say_kept _ _⟩
  · exact ⟨setCurrentOffset fl st .g92 .g92, by simp [handleG92, h0, h1, h2, h3],
      say_unmoved { st with offset := .g92 } _ rfl, say_kept _ _⟩

/-- Consequences for the coordinates of the position: without offset after G92.2; as before after G92.2 and
G92.3; without offset after G92.1, also after a further G92.3. -/
theorem C14_readings [CommRing F] (hx : Exact fl) (st st1 st2 : State F) :
    (Kept { st with offset := .zero } st1 → ∀ a, coordinate fl st1 a = st.pos a - st.currentOrigin a) ∧
    (st.offset = .g92 → Kept { st with offset := .zero } st1 → Kept { st1 with offset := .g92 } st2 →
      ∀ a, coordinate fl st2 a = coordinate fl st a) ∧
    (Kept { st with g92 := fun _ => fl.zero, offset := .g92 } st1 →
      (∀ a, coordinate fl st1 a = st.pos a - st.currentOrigin a) ∧
      (Kept { st1 with offset := .g92 } st2 → ∀ a, coordinate fl st2 a = st.pos a - st.currentOrigin a)) := by
  have hz : ∀ {s s' : State F}, Kept s s' → ∀ a, coordinate fl s' a = coordinate fl s a := by
    intro s s' h a
    simp only [coordinate, h.zeroOf (fl := fl), h.pos]
  refine ⟨fun h a => ?_, fun ho h1 h2 a => ?_, fun h => ⟨fun a => ?_, fun h2 a => ?_⟩⟩
  · rw [hz h a]
    show st.pos a - fl.add (st.currentOrigin a) fl.zero = _
    rw [hx.add, hx.zero, add_zero]
  · rw [hz h2 a]
    have e1 : st1.g92 = st.g92 := h1.g92
    have e2 : st1.pos = st.pos := h1.pos
    have e3 : st1.currentOrigin = st.currentOrigin := by
      have a1 : st1.origin = st.origin := h1.origin
      have a2 : st1.machineOrigin = st.machineOrigin := h1.machineOrigin
      have a3 : st1.system = st.system := h1.system
      simp only [State.currentOrigin, a1, a2, a3]
    show st1.pos a - fl.add (st1.currentOrigin a) (st1.g92 a) = st.pos a - fl.add (st.currentOrigin a) (st.currentOffset fl a)
    rw [e1, e2, e3]
    simp only [State.currentOffset, ho]
  · rw [hz h a]
    show st.pos a - fl.add (st.currentOrigin a) fl.zero = _
    rw [hx.add, hx.zero, add_zero]
  · rw [hz h2 a]
    have e1 : st1.g92 = fun _ => fl.zero := h.g92
    have e2 : st1.pos = st.pos := h.pos
    have e3 : st1.currentOrigin = st.currentOrigin := by
      have a1 : st1.origin = st.origin := h.origin
      have a2 : st1.machineOrigin = st.machineOrigin := h.machineOrigin
      have a3 : st1.system = st.system := h.system
      simp only [State.currentOrigin, a1, a2, a3]
    show st1.pos a - fl.add (st1.currentOrigin a) (st1.g92 a) = _
    rw [e1, e2, e3, hx.add, hx.zero, add_zero]

/-- After G92 a move to the same coordinates does not move the machine (linear axes, no scaling, absolute mode). -/
theorem C14_move_to_reading [CommRing F] (hx : Exact fl) (st : State F) (a : Axis) (v : F) (ws : List (Byte × F))
    (hv : axisValue a ws = some v) (hc : coordinate fl st a = v * st.unit) (hr : isRotational a = false)
    (hs : st.scale a = 1) (habs : st.absolute a = true) : moveTarget fl st ws a = st.pos a := by
  simp only [moveTarget, hv, habs, if_true, unitOf, hr, Bool.false_eq_true, if_false, hs, hx.add, hx.mul]
  unfold coordinate at hc
  linear_combination -hc

/-- **Selecting another coordinate system keeps the offset**: the coordinate of the position changes by the
difference of the origins. -/
theorem C14_other_system [CommRing F] (hx : Exact fl) (st st' : State F) (i : Fin 9)
    (h : Kept { st with origin := .system i } st') (a : Axis) :
    coordinate fl st' a = coordinate fl st a + st.currentOrigin a - st.system i a := by
  have : coordinate fl st' a = coordinate fl { st with origin := .system i } a := by
    simp only [coordinate, h.zeroOf (fl := fl), h.pos]
  rw [this]
  show st.pos a - fl.add (st.system i a) (st.currentOffset fl a) = st.pos a - fl.add (st.currentOrigin a) (st.currentOffset fl a) + _ - _
  rw [hx.add, hx.add]
  ring

/-! ### C14: what does not hold, and examples -/

theorem ratNum_exact : Exact ratNum := ⟨rfl, rfl, fun _ _ => rfl, fun _ _ => rfl, fun _ _ => rfl⟩

/-- C14 does not hold for rotational axes in inch mode: G92 converts degrees from inches. After `G92 A10` the
move to A10 turns the axis by 244 degrees. -/
theorem C14_rotary_inch : ∃ st, runLines ratNum (ratReceiver true) 0 ratState
    [text "G20", text "G92 A10", text "G1 A10"] = .ok st ∧ st.pos .A = -244 := by
  have h : (runLines ratNum (ratReceiver true) 0 ratState
    [text "G20", text "G92 A10", text "G1 A10"]).ends (fun st => decide (st.pos .A = -244)) = true := by decide +kernel
  simpa using Out.ends_ok h

/-- C14 does not hold with scaling: after `G92 X5` the move to X5 goes elsewhere. -/
theorem C14_scaled : ∃ st, runLines ratNum (ratReceiver true) 0 ratState
    [text "G51 X2", text "G92 X5", text "G1 X5"] = .ok st ∧ st.pos .X = 5 := by
  have h : (runLines ratNum (ratReceiver true) 0 ratState
    [text "G51 X2", text "G92 X5", text "G1 X5"]).ends (fun st => decide (st.pos .X = 5)) = true := by decide +kernel
  simpa using Out.ends_ok h

/-- C14 does not hold while the offset is suspended: a G92 on X activates the old offset on Y again. -/
theorem C14_suspended : ∃ st, runLines ratNum (ratReceiver true) 0 ratState
    [text "G92 X5 Y7", text "G92.2", text "G92 X1", text "G1 Y0"] = .ok st ∧ st.pos .Y = -7 := by
  have h : (runLines ratNum (ratReceiver true) 0 ratState
    [text "G92 X5 Y7", text "G92.2", text "G92 X1", text "G1 Y0"]).ends (fun st => decide (st.pos .Y = -7)) = true := by
    decide +kernel
  simpa using Out.ends_ok h

/-- Non-vacuity: G92, a change of the coordinate system, suspended and restored offset. -/
example : (runLines ratNum (ratReceiver true) 0 ratState
    [text "G10 L2 P2 X100 Y50", text "G55 G1 X1 Y2", text "G92 X5", text "G1 X6 Y3", text "G92.2 G1 X6",
      text "G92.3 G1 X6", text "G54 G1 X6", text "G20 G91 G1 X1"]).ends (fun st =>
    decide (st.pos .Y = 53 ∧ st.g92 .X = -4 ∧ (movesOf st.log).length = 6 ∧ st.pos .X = 2 + 254 / 10)) = true := by
  decide +kernel

end BeagleG.Parser
