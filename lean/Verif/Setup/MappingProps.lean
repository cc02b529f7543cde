import Verif.Setup.HardwareProps
/-!
# C62: the mapping a file describes
-/
namespace BeagleG.Setup

open Text Config Hardware
open Planner (Axis Motor)

variable {F : Type}

/-- The sections concerned. -/
def hwSection (s : List Byte) : Bool :=
  s = ascii "aux-mapping" || s = ascii "pwm-mapping" || s = ascii "switch-mapping" || s = ascii "motor-mapping"

/-- The lines of these sections. -/
def hwEntries (shapes : List Shape) : List Entry := entries hwSection none shapes

theorem hw_uniform (c : Cape) : Uniform (hwReader (F := F) c) HwReader.hw hwSection (hardwareOption c)
    (fun r s => r.section_ = s) where
  answer _ _ _ := rfl
  view_section _ _ _ := rfl
  good_section _ _ _ _ := rfl
  pair r n s name v h := by
    subst h
    exact ⟨rfl, rfl, rfl⟩

/-! ### Lines that go together -/

/-- The second line contradicts the first: a motor belongs to one axis, an output has one PWM timer. -/
def Conflict (c : Cape) : Line → Line → Prop
  | .motor m _ _, .motor m' _ _ => m = m'
  | .pwm i o, .pwm _ o' => o = o' ∧ c.pwm i ≠ 0
  | _, _ => False

/-- Lines that can be installed one after the other. -/
def AllOk (c : Cape) : Hw F → List Line → Prop
  | _, [] => True
  | h, l :: ls => l.ok c h ∧ AllOk c (l.apply c h) ls

/-- Words change nothing but the switches. -/
theorem word_apply (i : Fin 9) (h : Hw F) (w : SwitchWord) :
    (w.apply i h).axisToDriver = h.axisToDriver ∧ (w.apply i h).driverFlip = h.driverFlip ∧
    (w.apply i h).auxOf = h.auxOf ∧ (w.apply i h).pwmOf = h.pwmOf ∧ (w.apply i h).estop = h.estop ∧
    (w.apply i h).motorsEnabled = h.motorsEnabled ∧ (w.apply i h).auxBits = h.auxBits ∧
    (w.apply i h).initialized = h.initialized ∧ (w.apply i h).level = h.level ∧ (w.apply i h).pwmOn = h.pwmOn ∧
    (w.apply i h).duty = h.duty := by
  cases w with
  | use u => cases u <;> exact ⟨rfl, rfl, rfl, rfl, rfl, rfl, rfl, rfl, rfl, rfl, rfl⟩
  | level b => exact ⟨rfl, rfl, rfl, rfl, rfl, rfl, rfl, rfl, rfl, rfl, rfl⟩

theorem words_apply (i : Fin 9) : ∀ (ws : List SwitchWord) (h : Hw F),
    (ws.foldl (SwitchWord.apply i) h).axisToDriver = h.axisToDriver ∧ (ws.foldl (SwitchWord.apply i) h).driverFlip = h.driverFlip ∧
    (ws.foldl (SwitchWord.apply i) h).auxOf = h.auxOf ∧ (ws.foldl (SwitchWord.apply i) h).pwmOf = h.pwmOf ∧
    (ws.foldl (SwitchWord.apply i) h).estop = h.estop ∧ (ws.foldl (SwitchWord.apply i) h).motorsEnabled = h.motorsEnabled ∧
    (ws.foldl (SwitchWord.apply i) h).auxBits = h.auxBits ∧ (ws.foldl (SwitchWord.apply i) h).initialized = h.initialized ∧
    (ws.foldl (SwitchWord.apply i) h).level = h.level ∧ (ws.foldl (SwitchWord.apply i) h).pwmOn = h.pwmOn ∧
    (ws.foldl (SwitchWord.apply i) h).duty = h.duty
  | [], h => ⟨rfl, rfl, rfl, rfl, rfl, rfl, rfl, rfl, rfl, rfl, rfl⟩
  | w :: ws, h => by
    rw [List.foldl_cons]
    obtain ⟨a1, a2, a3, a4, a5, a6, a7, a8, a9, a10, a11⟩ := words_apply i ws (w.apply i h)
    obtain ⟨b1, b2, b3, b4, b5, b6, b7, b8, b9, b10, b11⟩ := word_apply i h w
    exact ⟨a1.trans b1, a2.trans b2, a3.trans b3, a4.trans b4, a5.trans b5, a6.trans b6, a7.trans b7, a8.trans b8,
      a9.trans b9, a10.trans b10, a11.trans b11⟩

theorem addAux_fields (c : Cape) (h : Hw F) (o : Output) (n : Int) : ∃ f, (addAuxMapping c h o n).1 = { h with auxOf := f } := by
  unfold addAuxMapping
  split
  · exact ⟨h.auxOf, rfl⟩
  · split
    · split
      · exact ⟨h.auxOf, rfl⟩
      · exact ⟨_, rfl⟩
    · exact ⟨h.auxOf, rfl⟩

theorem addPwm_fields (c : Cape) (h : Hw F) (o : Output) (n : Int) : ∃ f, (addPwmMapping c h o n).1 = { h with pwmOf := f } := by
  unfold addPwmMapping
  split
  · exact ⟨h.pwmOf, rfl⟩
  · split
    · split
      · exact ⟨h.pwmOf, rfl⟩
      · exact ⟨_, rfl⟩
    · exact ⟨h.pwmOf, rfl⟩

theorem addMotor_fields (h : Hw F) (a : Axis) (n : Int) (b : Bool) :
    ∃ f g, (addMotorMapping h a n b).1 = { h with axisToDriver := f, driverFlip := g } := by
  unfold addMotorMapping
  split
  · exact ⟨h.axisToDriver, h.driverFlip, rfl⟩
  · split
    · dsimp only
      split
      · exact ⟨h.axisToDriver, h.driverFlip, rfl⟩
      · exact ⟨_, _, rfl⟩
    · exact ⟨h.axisToDriver, h.driverFlip, rfl⟩

theorem apply_pwmOf (c : Cape) (h : Hw F) (l : Line) (hl : l.ok c h) (o : Output) :
    (l.apply c h).pwmOf o = match (generalizing := false) l with
      | .pwm i o' => if o = o' then c.pwm i else h.pwmOf o
      | _ => h.pwmOf o := by
  cases l with
  | aux i o' =>
    obtain ⟨f, hf⟩ := addAux_fields c h o' ((i.val : Int) + 1)
    show (addAuxMapping c h o' ((i.val : Int) + 1)).1.pwmOf o = _
    rw [hf]
  | pwm i o' =>
    show (addPwmMapping c h o' ((i.val : Int) + 1)).1.pwmOf o = _
    rw [(C39_pwm_mapping c h o' ((i.val : Int) + 1)).2.2 i rfl hl]
  | motor m a b =>
    obtain ⟨f, g, hf⟩ := addMotor_fields h a ((m.val : Int) + 1) b
    show (addMotorMapping h a ((m.val : Int) + 1) b).1.pwmOf o = _
    rw [hf]
  | switch i ws =>
    show (ws.foldl (SwitchWord.apply i) h).pwmOf o = _
    rw [(words_apply i ws h).2.2.2.1]

theorem apply_drives (c : Cape) (h : Hw F) (l : Line) (hl : l.ok c h) (m : Motor) :
    (∀ a, (l.apply c h).drives a m = true ↔ h.drives a m = true ∨ ∃ b, l = .motor m a b) ∧
    (l.apply c h).driverFlip m = match (generalizing := false) l with
      | .motor m' _ b => if m = m' then (if b then -1 else 1) else h.driverFlip m
      | _ => h.driverFlip m := by
  cases l with
  | aux i o =>
    obtain ⟨f, hf⟩ := addAux_fields c h o ((i.val : Int) + 1)
    show (∀ a, (addAuxMapping c h o ((i.val : Int) + 1)).1.drives a m = true ↔ _) ∧ (addAuxMapping c h o ((i.val : Int) + 1)).1.driverFlip m = _
    rw [hf]
    exact ⟨fun a => ⟨.inl, fun h => h.elim id (fun ⟨_, h⟩ => by cases h)⟩, rfl⟩
  | pwm i o =>
    obtain ⟨f, hf⟩ := addPwm_fields c h o ((i.val : Int) + 1)
    show (∀ a, (addPwmMapping c h o ((i.val : Int) + 1)).1.drives a m = true ↔ _) ∧ (addPwmMapping c h o ((i.val : Int) + 1)).1.driverFlip m = _
    rw [hf]
    exact ⟨fun a => ⟨.inl, fun h => h.elim id (fun ⟨_, h⟩ => by cases h)⟩, rfl⟩
  | motor m' a b =>
    obtain ⟨h1, h2⟩ := addMotor_step h ⟨a, (m'.val : Int) + 1, b⟩ m
    have hk : ((m'.val : Int) + 1 = (m.val : Int) + 1) ↔ m = m' := ⟨fun e => Fin.ext (by omega), fun e => by rw [e]⟩
    have ho : h.driverFlip m' = 0 := hl
    refine ⟨fun a' => ?_, ?_⟩
    · have := h1 a'
      show (MotorRequest.run h ⟨a, (m'.val : Int) + 1, b⟩).drives a' m = true ↔ _
      rw [this, Bool.or_eq_true, decide_eq_true_eq]
      dsimp only
      rw [hk]
      refine or_congr Iff.rfl ?_
      constructor
      · rintro ⟨rfl, _, rfl⟩; exact ⟨b, rfl⟩
      · rintro ⟨b', he⟩; cases he; exact ⟨rfl, ho, rfl⟩
    · show (MotorRequest.run h ⟨a, (m'.val : Int) + 1, b⟩).driverFlip m = _
      rw [h2]
      by_cases e : m = m'
      · subst e; rw [if_pos ⟨rfl, ho⟩]; dsimp only; rw [if_pos rfl]
      · rw [if_neg (fun h => e (hk.1 h.1))]; dsimp only; rw [if_neg e]
  | switch i ws =>
    obtain ⟨w1, w2, _⟩ := words_apply i ws h
    refine ⟨fun a => ?_, congrFun w2 m⟩
    show ((ws.foldl (SwitchWord.apply i) h).axisToDriver a).getLsbD m.val = true ↔ _
    rw [w1]
    exact ⟨.inl, fun h => h.elim id (fun ⟨_, h⟩ => by cases h)⟩

theorem ok_apply (c : Cape) (h : Hw F) (l l' : Line) (hl : l.ok c h) :
    l'.ok c (l.apply c h) ↔ l'.ok c h ∧ ¬Conflict c l l' := by
  cases l' with
  | aux i o => simp [Line.ok, Conflict]
  | pwm i o =>
    show (l.apply c h).pwmOf o = 0 ↔ h.pwmOf o = 0 ∧ _
    rw [apply_pwmOf c h l hl]
    cases l with
    | pwm i' o' =>
      have hz : h.pwmOf o' = 0 := hl
      by_cases e : o = o'
      · subst e
        simp [Conflict, hz]
      · have e' : ¬o' = o := fun h => e h.symm
        simp [Conflict, e, e']
    | _ => simp [Conflict]
  | motor m a b =>
    show (l.apply c h).driverFlip m = 0 ↔ h.driverFlip m = 0 ∧ _
    rw [(apply_drives c h l hl m).2]
    cases l with
    | motor m' a' b' =>
      have hz : h.driverFlip m' = 0 := hl
      by_cases e : m = m'
      · subst e
        cases b' <;> simp [Conflict, hz]
      · have e' : ¬m' = m := fun h => e h.symm
        simp [Conflict, e, e']
    | _ => simp [Conflict]
  | switch i ws => cases l <;> simp [Line.ok, Conflict]

theorem allOk_iff (c : Cape) : ∀ (ls : List Line) (h : Hw F),
    AllOk c h ls ↔ (∀ l ∈ ls, l.ok c h) ∧ ls.Pairwise (fun l l' => ¬Conflict c l l')
  | [], h => by simp [AllOk]
  | l :: ls, h => by
    rw [AllOk, List.pairwise_cons]
    constructor
    · rintro ⟨h1, h2⟩
      rw [allOk_iff c ls] at h2
      have h3 := fun x hx => (ok_apply c h l x h1).1 (h2.1 x hx)
      refine ⟨fun x hx => ?_, fun x hx => (h3 x hx).2, h2.2⟩
      rcases List.mem_cons.1 hx with rfl | hx
      · exact h1
      · exact (h3 x hx).1
    · rintro ⟨h1, h2, h3⟩
      have hl := h1 l (by simp)
      refine ⟨hl, (allOk_iff c ls _).2 ⟨fun x hx => ?_, h3⟩⟩
      exact (ok_apply c h l x hl).2 ⟨h1 x (by simp [hx]), h2 x hx⟩

/-! ### Files -/

theorem applyAll_lines (c : Cape) : ∀ (es : List Entry) (h : Hw F),
    (∀ ls, List.Forall₂ IsLine es ls → AllOk c h ls → applyAll (hardwareOption c) h es = some (ls.foldl (Line.apply c) h)) ∧
    (∀ h', applyAll (hardwareOption c) h es = some h' → ∃ ls, List.Forall₂ IsLine es ls ∧ AllOk c h ls)
  | [], h => ⟨fun ls hl _ => by cases hl; rfl, fun _ _ => ⟨[], .nil, trivial⟩⟩
  | e :: es, h => by
    refine ⟨fun ls hl ho => ?_, fun h' ha => ?_⟩
    · cases hl with
      | cons h1 h2 =>
        rename_i l ls
        obtain ⟨o1, o2⟩ := ho
        rcases C62_line c h e with ⟨l', k1, k2, k3⟩ | ⟨k1, _⟩
        · rw [isLine_unique k1 h1] at k3
          rw [applyAll, k3, List.foldl_cons]
          exact (applyAll_lines c es _).1 ls h2 o2
        · exact absurd o1 (k1 l h1)
    · rw [applyAll] at ha
      rcases C62_line c h e with ⟨l', k1, k2, k3⟩ | ⟨_, k1⟩
      · rw [k3] at ha
        obtain ⟨ls, i1, i2⟩ := (applyAll_lines c es _).2 h' ha
        exact ⟨l' :: ls, .cons k1 i1, k2, i2⟩
      · rw [k1] at ha; cases ha

/-- The lines of a file. -/
def Says (content : List Byte) (ls : List Line) : Prop :=
  ∃ shapes, Shapes content shapes ∧ List.Forall₂ IsLine (hwEntries shapes) ls

/-- **C62, files**: a well-formed file is accepted if and only if all its lines in the sections concerned are lines that
may be written, none contradicts what is configured already, and no line contradicts one before it. -/
theorem C62_accepted (c : Cape) (h : Hw F) (content : List Byte) :
    (configureHw c h content).1 = true ↔
      ∃ ls, Says content ls ∧ (∀ l ∈ ls, l.ok c h) ∧ ls.Pairwise (fun l l' => ¬Conflict c l l') := by
  constructor
  · intro ha
    obtain ⟨shapes, hs⟩ := emit_wellformed (R := hwReader c) ⟨h, []⟩ content ha
    have h1 := (emit_shapes (hw_uniform c) ⟨h, []⟩ content hs).2 ha
    obtain ⟨ls, l1, l2⟩ := (applyAll_lines c _ h).2 _ h1
    exact ⟨ls, ⟨shapes, hs, l1⟩, (allOk_iff c ls h).1 l2⟩
  · rintro ⟨ls, ⟨shapes, hs, l1⟩, l2⟩
    have h1 := (applyAll_lines c _ h).1 ls l1 ((allOk_iff c ls h).2 l2)
    exact (emit_shapes (hw_uniform c) ⟨h, []⟩ content hs).1.2 (by
      show (applyAll (hardwareOption c) h (hwEntries shapes)).isSome
      rw [h1]; rfl)

theorem configureHw_eq {c : Cape} {h h' : Hw F} {content : List Byte} (ha : configureHw c h content = (true, h')) :
    ∃ ls, Says content ls ∧ AllOk c h ls ∧ h' = ls.foldl (Line.apply c) h := by
  have hb : (configureHw c h content).1 = true := by rw [ha]
  obtain ⟨ls, ⟨shapes, hs, l1⟩, l2⟩ := (C62_accepted c h content).1 hb
  have l2 := (allOk_iff c ls h).2 l2
  have h1 := (applyAll_lines c _ h).1 ls l1 l2
  have h2 := (emit_shapes (hw_uniform c) ⟨h, []⟩ content hs).2 hb
  refine ⟨ls, ⟨shapes, hs, l1⟩, l2, ?_⟩
  have : some (emitConfigValues (hwReader c) ⟨h, []⟩ content).2.hw = some (ls.foldl (Line.apply c) h) := h2.symm.trans h1
  have h3 : (configureHw c h content).2 = ls.foldl (Line.apply c) h := Option.some.inj this
  rw [ha] at h3; exact h3

theorem forall₂_isLine_unique {es : List Entry} {s t : List Line} (h : List.Forall₂ IsLine es s) (h' : List.Forall₂ IsLine es t) :
    s = t := by
  induction h generalizing t with
  | nil => cases h'; rfl
  | cons a _ ih =>
    cases h' with
    | cons b h2 => rw [isLine_unique a b, ih h2]

/-- A reader that keeps what it is given. -/
def recorder (wants : List Byte → Bool) : Reader (List Byte × List Entry) where
  seenSection r _ name := (wants name, (name, r.2))
  seenNameValue r _ name value := (true, (r.1, r.2 ++ [⟨r.1, name, value⟩]))
  reportError r _ _ := r

theorem recorder_uniform (wants : List Byte → Bool) :
    Uniform (recorder wants) Prod.snd wants (fun k e => (true, k ++ [e])) (fun r s => r.1 = s) where
  answer _ _ _ := rfl
  view_section _ _ _ := rfl
  good_section _ _ _ _ := rfl
  pair r n s name v h := by
    subst h
    exact ⟨rfl, rfl, rfl⟩

theorem applyAll_record : ∀ (es k : List Entry), applyAll (fun k e => (true, k ++ [e])) k es = some (k ++ es)
  | [], k => by simp [applyAll]
  | e :: es, k => by
    rw [applyAll, if_pos rfl, applyAll_record es]
    simp

/-- The lines of a text are determined by it. -/
theorem entries_unique (wants : List Byte → Bool) {content : List Byte} {s t : List Shape} (hs : Shapes content s)
    (ht : Shapes content t) : entries wants none s = entries wants none t := by
  have key : ∀ {s : List Shape}, Shapes content s →
      some (entries wants none s) = some (emitConfigValues (recorder wants) ([], []) content).2.2 := by
    intro s hs
    obtain ⟨h1, h2⟩ := emit_shapes (recorder_uniform wants) ([], []) content hs
    have h3 := applyAll_record (entries wants none s) []
    rw [← h2 (h1.2 (by rw [h3]; rfl)), h3]
    rfl
  exact Option.some.inj ((key hs).trans (key ht).symm)

theorem says_unique {content : List Byte} {s t : List Line} (hs : Says content s) (ht : Says content t) : s = t := by
  obtain ⟨s', h1, h2⟩ := hs
  obtain ⟨t', h3, h4⟩ := ht
  have h2 : List.Forall₂ IsLine (entries hwSection none s') s := h2
  rw [entries_unique hwSection h1 h3] at h2
  exact forall₂_isLine_unique h2 h4

theorem foldl_drives (c : Cape) (m : Motor) : ∀ (ls : List Line) (h : Hw F), AllOk c h ls →
    (∀ a, (ls.foldl (Line.apply c) h).drives a m = true ↔ h.drives a m = true ∨ ∃ b, .motor m a b ∈ ls) ∧
    (∀ a b, .motor m a b ∈ ls → (ls.foldl (Line.apply c) h).driverFlip m = if b then -1 else 1) ∧
    ((∀ a b, .motor m a b ∉ ls) → (ls.foldl (Line.apply c) h).driverFlip m = h.driverFlip m)
  | [], h, _ => by simp
  | l :: ls, h, ho => by
    have hall := (allOk_iff c _ _).1 ho
    obtain ⟨o1, o2⟩ := ho
    obtain ⟨i1, i2, i3⟩ := foldl_drives c m ls (l.apply c h) o2
    obtain ⟨a1, a2⟩ := apply_drives c h l o1 m
    rw [List.foldl_cons]
    refine ⟨fun a => ?_, fun a b hm => ?_, fun hn => ?_⟩
    · rw [i1, a1]
      simp only [List.mem_cons]
      constructor
      · rintro ((h1 | ⟨b, rfl⟩) | ⟨b, hb⟩)
        · exact .inl h1
        · exact .inr ⟨b, .inl rfl⟩
        · exact .inr ⟨b, .inr hb⟩
      · rintro (h1 | ⟨b, rfl | hb⟩)
        · exact .inl (.inl h1)
        · exact .inl (.inr ⟨b, rfl⟩)
        · exact .inr ⟨b, hb⟩
    · rcases List.mem_cons.1 hm with rfl | hm
      · rw [i3, a2]
        · dsimp only; rw [if_pos rfl]
        · intro a' b' hm'
          exact (List.pairwise_cons.1 hall.2).1 _ hm' rfl
      · exact i2 a b hm
    · rw [i3 (fun a b hm => hn a b (by simp [hm])), a2]
      cases l with
      | motor m' a b =>
        dsimp only
        rw [if_neg]
        rintro rfl
        exact hn a b (by simp)
      | _ => rfl

/-- **C62, motors**: an accepted file maps exactly the motors it names, each to one axis and with the mirroring given. -/
theorem C62_motors {c : Cape} {h h' : Hw F} {content : List Byte} (ha : configureHw c h content = (true, h'))
    {ls : List Line} (hls : Says content ls) (m : Motor) :
    (∀ a, h'.drives a m = true ↔ h.drives a m = true ∨ ∃ b, .motor m a b ∈ ls) ∧
    (∀ a b, .motor m a b ∈ ls → h'.driverFlip m = if b then -1 else 1) ∧
    ((∀ a b, .motor m a b ∉ ls) → h'.driverFlip m = h.driverFlip m) := by
  obtain ⟨ls', hs', ho, rfl⟩ := configureHw_eq ha
  rw [says_unique hls hs']
  exact foldl_drives c m ls' h ho

theorem apply_auxMap (c : Cape) (h : Hw F) (l : Line) (o : Output) (i : Fin 16) :
    (l.apply c h).auxMap o i = true ↔ h.auxMap o i = true ∨ (c.aux i ≠ 0 ∧ l = .aux i o) := by
  cases l with
  | aux i' o' =>
    have := C39_aux_mapping c h [⟨o', (i'.val : Int) + 1⟩] o i
    rw [List.foldl_cons, List.foldl_nil] at this
    show (addAuxMapping c h o' ((i'.val : Int) + 1)).1.auxMap o i = true ↔ _
    rw [this]
    simp only [List.mem_singleton, exists_eq_left, Line.aux.injEq]
    refine or_congr Iff.rfl (and_congr Iff.rfl ?_)
    constructor
    · rintro ⟨rfl, e⟩; exact ⟨Fin.ext (by omega), rfl⟩
    · rintro ⟨rfl, rfl⟩; exact ⟨rfl, rfl⟩
  | pwm i' o' =>
    obtain ⟨f, hf⟩ := addPwm_fields c h o' ((i'.val : Int) + 1)
    show (addPwmMapping c h o' ((i'.val : Int) + 1)).1.auxMap o i = true ↔ _
    rw [hf]
    exact ⟨.inl, fun h => h.elim id (fun h => by cases h.2)⟩
  | motor m a b =>
    obtain ⟨f, g, hf⟩ := addMotor_fields h a ((m.val : Int) + 1) b
    show (addMotorMapping h a ((m.val : Int) + 1) b).1.auxMap o i = true ↔ _
    rw [hf]
    exact ⟨.inl, fun h => h.elim id (fun h => by cases h.2)⟩
  | switch i' ws =>
    show ((ws.foldl (SwitchWord.apply i') h).auxOf o).getLsbD i.val = true ↔ _
    rw [(words_apply i' ws h).2.2.1]
    exact ⟨.inl, fun h => h.elim id (fun h => by cases h.2)⟩

/-- **C62, auxiliary outputs**: an output gets exactly the connectors named for it that exist on the cape. -/
theorem C62_aux {c : Cape} {h h' : Hw F} {content : List Byte} (ha : configureHw c h content = (true, h'))
    {ls : List Line} (hls : Says content ls) (o : Output) (i : Fin 16) :
    h'.auxMap o i = true ↔ h.auxMap o i = true ∨ (c.aux i ≠ 0 ∧ .aux i o ∈ ls) := by
  obtain ⟨ls', hs', ho, rfl⟩ := configureHw_eq ha
  rw [says_unique hls hs']
  clear ha hls hs' ho
  induction ls' generalizing h with
  | nil => simp
  | cons l ls ih =>
    rw [List.foldl_cons, ih, apply_auxMap]
    simp only [List.mem_cons]
    constructor
    · rintro ((h1 | ⟨h1, rfl⟩) | ⟨h1, h2⟩)
      · exact .inl h1
      · exact .inr ⟨h1, .inl rfl⟩
      · exact .inr ⟨h1, .inr h2⟩
    · rintro (h1 | ⟨h1, rfl | h2⟩)
      · exact .inl (.inl h1)
      · exact .inl (.inr ⟨h1, rfl⟩)
      · exact .inr ⟨h1, h2⟩

theorem foldl_pwm (c : Cape) (o : Output) : ∀ (ls : List Line) (h : Hw F), AllOk c h ls →
    (∀ i, .pwm i o ∈ ls → c.pwm i ≠ 0 → (ls.foldl (Line.apply c) h).pwmOf o = c.pwm i) ∧
    ((∀ i, .pwm i o ∈ ls → c.pwm i = 0) → (ls.foldl (Line.apply c) h).pwmOf o = h.pwmOf o)
  | [], h, _ => by simp
  | l :: ls, h, ho => by
    have hall := (allOk_iff c _ _).1 ho
    obtain ⟨o1, o2⟩ := ho
    obtain ⟨i1, i2⟩ := foldl_pwm c o ls (l.apply c h) o2
    have a1 := apply_pwmOf c h l o1 o
    rw [List.foldl_cons]
    refine ⟨fun i hm hc => ?_, fun hn => ?_⟩
    · rcases List.mem_cons.1 hm with rfl | hm
      · rw [i2, a1]
        · dsimp only; rw [if_pos rfl]
        · intro i' hm'
          exact absurd ⟨rfl, hc⟩ ((List.pairwise_cons.1 hall.2).1 _ hm')
      · exact i1 i hm hc
    · rw [i2 (fun i hm => hn i (by simp [hm])), a1]
      cases l with
      | pwm i o' =>
        dsimp only
        by_cases e : o = o'
        · subst e
          rw [if_pos rfl, hn i (by simp)]
          exact o1.symm
        · rw [if_neg e]
      | _ => rfl

/-- **C62, PWM outputs**: an output gets the timer named for it. -/
theorem C62_pwm {c : Cape} {h h' : Hw F} {content : List Byte} (ha : configureHw c h content = (true, h'))
    {ls : List Line} (hls : Says content ls) (o : Output) :
    (∀ i, .pwm i o ∈ ls → c.pwm i ≠ 0 → h'.pwmOf o = c.pwm i) ∧
    ((∀ i, .pwm i o ∈ ls → c.pwm i = 0) → h'.pwmOf o = h.pwmOf o) := by
  obtain ⟨ls', hs', ho, rfl⟩ := configureHw_eq ha
  rw [says_unique hls hs']
  exact foldl_pwm c o ls' h ho

/-! ### Switches -/

/-- What is said about switches, in order. -/
def Line.words : Line → List (Fin 9 × SwitchWord)
  | .switch i ws => ws.map fun w => (i, w)
  | _ => []

/-- The number of the switch that is last said to be used for something. -/
def lastUse (ls : List Line) (u : Use) : Option Nat :=
  ((ls.flatMap Line.words).filter (fun p => p.2 = .use u)).getLast?.map fun p => p.1.val + 1

/-- The level a switch is last said to have when active. -/
def lastLevel (ls : List Line) (i : Fin 9) : Option Bool :=
  ((ls.flatMap Line.words).filterMap fun p => match p.2 with
    | .level b => if p.1 = i then some b else none
    | .use _ => none).getLast?

theorem word_switchFor (i : Fin 9) (h : Hw F) (w : SwitchWord) (u : Use) :
    switchFor (w.apply i h) u = if w = .use u then i.val + 1 else switchFor h u := by
  cases w with
  | level b => cases u <;> simp [SwitchWord.apply, switchFor]
  | use v =>
    cases v <;> cases u <;> simp [SwitchWord.apply, switchFor, put]
    · rename_i a b
      by_cases e : b = a
      · simp [e]
      · have e' : ¬a = b := fun h => e h.symm
        simp [e, e']
    · rename_i a b
      by_cases e : b = a
      · simp [e]
      · have e' : ¬a = b := fun h => e h.symm
        simp [e, e']

theorem word_level (i j : Fin 9) (h : Hw F) (w : SwitchWord) :
    (w.apply i h).triggerLevel j = match w with
      | .level b => if i = j then b else h.triggerLevel j
      | .use _ => h.triggerLevel j := by
  cases w with
  | level b =>
    show (if j = i then b else _) = _
    by_cases e : i = j
    · subst e; simp
    · have e' : ¬j = i := fun h => e h.symm
      simp [e, e']
  | use v => cases v <;> rfl

/-- The words of all the lines are what counts for the switches. -/
theorem apply_words (c : Cape) (h : Hw F) (l : Line) :
    (∀ u, switchFor (l.apply c h) u = switchFor (l.words.foldl (fun h p => p.2.apply p.1 h) h) u) ∧
    (l.apply c h).triggerLevel = (l.words.foldl (fun h p => p.2.apply p.1 h) h).triggerLevel := by
  cases l with
  | aux i o =>
    obtain ⟨f, hf⟩ := addAux_fields c h o ((i.val : Int) + 1)
    show (∀ u, switchFor (addAuxMapping c h o ((i.val : Int) + 1)).1 u = _) ∧ (addAuxMapping c h o ((i.val : Int) + 1)).1.triggerLevel = _
    rw [hf]
    exact ⟨fun u => by cases u <;> rfl, rfl⟩
  | pwm i o =>
    obtain ⟨f, hf⟩ := addPwm_fields c h o ((i.val : Int) + 1)
    show (∀ u, switchFor (addPwmMapping c h o ((i.val : Int) + 1)).1 u = _) ∧ (addPwmMapping c h o ((i.val : Int) + 1)).1.triggerLevel = _
    rw [hf]
    exact ⟨fun u => by cases u <;> rfl, rfl⟩
  | motor m a b =>
    obtain ⟨f, g, hf⟩ := addMotor_fields h a ((m.val : Int) + 1) b
    show (∀ u, switchFor (addMotorMapping h a ((m.val : Int) + 1) b).1 u = _) ∧ (addMotorMapping h a ((m.val : Int) + 1) b).1.triggerLevel = _
    rw [hf]
    exact ⟨fun u => by cases u <;> rfl, rfl⟩
  | switch i ws =>
    show (∀ u, switchFor (ws.foldl (SwitchWord.apply i) h) u = switchFor ((ws.map fun w => (i, w)).foldl _ h) u) ∧
      (ws.foldl (SwitchWord.apply i) h).triggerLevel = ((ws.map fun w => (i, w)).foldl _ h).triggerLevel
    rw [List.foldl_map]
    exact ⟨fun _ => rfl, rfl⟩

theorem words_switchFor (u : Use) : ∀ (ps : List (Fin 9 × SwitchWord)) (h : Hw F),
    switchFor (ps.foldl (fun h p => p.2.apply p.1 h) h) u =
      ((ps.filter (fun p => p.2 = .use u)).getLast?.map fun p => p.1.val + 1).getD (switchFor h u)
  | [], h => rfl
  | p :: ps, h => by
    rw [List.foldl_cons, words_switchFor u ps, word_switchFor]
    by_cases hp : p.2 = .use u
    · rw [if_pos hp, List.filter_cons_of_pos (by simpa using hp)]
      cases hf : ps.filter (fun p => p.2 = .use u) with
      | nil => rfl
      | cons q qs =>
        rw [List.getLast?_cons_cons, List.getLast?_eq_getLast_of_ne_nil (List.cons_ne_nil q qs)]
        rfl
    · rw [if_neg hp, List.filter_cons_of_neg (by simpa using hp)]

theorem words_level (i : Fin 9) : ∀ (ps : List (Fin 9 × SwitchWord)) (h : Hw F),
    (ps.foldl (fun h p => p.2.apply p.1 h) h).triggerLevel i =
      ((ps.filterMap fun p => match p.2 with
        | .level b => if p.1 = i then some b else none
        | .use _ => none).getLast?).getD (h.triggerLevel i)
  | [], h => rfl
  | p :: ps, h => by
    rw [List.foldl_cons, words_level i ps, word_level]
    obtain ⟨j, w⟩ := p
    cases w with
    | use v => rfl
    | level b =>
      by_cases e : j = i
      · subst e
        dsimp only
        rw [if_pos rfl, List.filterMap_cons_some (b := b) (by simp)]
        generalize List.filterMap _ ps = q
        cases q with
        | nil => rfl
        | cons x q =>
          rw [List.getLast?_cons_cons, List.getLast?_eq_getLast_of_ne_nil (List.cons_ne_nil x q)]
          rfl
      · dsimp only
        rw [if_neg e, List.filterMap_cons_none (by simp [e])]

/-- Two mappings with the same switches. -/
theorem words_congr (ps : List (Fin 9 × SwitchWord)) {h k : Hw F} (h1 : ∀ u, switchFor h u = switchFor k u)
    (h2 : h.triggerLevel = k.triggerLevel) :
    (∀ u, switchFor (ps.foldl (fun h p => p.2.apply p.1 h) h) u = switchFor (ps.foldl (fun h p => p.2.apply p.1 h) k) u) ∧
    (ps.foldl (fun h p => p.2.apply p.1 h) h).triggerLevel = (ps.foldl (fun h p => p.2.apply p.1 h) k).triggerLevel := by
  refine ⟨fun u => ?_, funext fun i => ?_⟩
  · rw [words_switchFor, words_switchFor, h1]
  · rw [words_level, words_level, h2]

theorem foldl_words (c : Cape) : ∀ (ls : List Line) (h : Hw F),
    (∀ u, switchFor (ls.foldl (Line.apply c) h) u = switchFor ((ls.flatMap Line.words).foldl (fun h p => p.2.apply p.1 h) h) u) ∧
    (ls.foldl (Line.apply c) h).triggerLevel = ((ls.flatMap Line.words).foldl (fun h p => p.2.apply p.1 h) h).triggerLevel
  | [], h => ⟨fun _ => rfl, rfl⟩
  | l :: ls, h => by
    rw [List.foldl_cons, List.flatMap_cons, List.foldl_append]
    obtain ⟨i1, i2⟩ := foldl_words c ls (l.apply c h)
    obtain ⟨a1, a2⟩ := apply_words c h l
    obtain ⟨c1, c2⟩ := words_congr (ls.flatMap Line.words) a1 a2
    exact ⟨fun u => (i1 u).trans (c1 u), i2.trans c2⟩

/-- **C62, switches**: a switch is used for what the last line that names the use says, and has the level said last. -/
theorem C62_switches {c : Cape} {h h' : Hw F} {content : List Byte} (ha : configureHw c h content = (true, h'))
    {ls : List Line} (hls : Says content ls) :
    (∀ u, switchFor h' u = (lastUse ls u).getD (switchFor h u)) ∧
    (∀ i, h'.triggerLevel i = (lastLevel ls i).getD (h.triggerLevel i)) := by
  obtain ⟨ls', hs', ho, rfl⟩ := configureHw_eq ha
  rw [says_unique hls hs']
  obtain ⟨i1, i2⟩ := foldl_words c ls' h
  refine ⟨fun u => ?_, fun i => ?_⟩
  · rw [i1, words_switchFor]; rfl
  · rw [i2, words_level]; rfl

/-- All end switches that are configured are connected. -/
def Connected (c : Cape) (h : Hw F) : Prop :=
  ∀ a, (h.minEndstop a = 0 ∨ c.switchPin (h.minEndstop a) ≠ 0) ∧ (h.maxEndstop a = 0 ∨ c.switchPin (h.maxEndstop a) ≠ 0)

theorem lastUse_ok {c : Cape} {h : Hw F} {ls : List Line} (ho : AllOk c h ls) {u : Use} {n : Nat} (hn : lastUse ls u = some n) :
    ∃ i : Fin 9, n = i.val + 1 ∧ SwitchWord.ok c i (.use u) := by
  unfold lastUse at hn
  rw [Option.map_eq_some_iff] at hn
  obtain ⟨⟨i, w⟩, hp, rfl⟩ := hn
  have hm := List.mem_of_getLast? hp
  obtain ⟨hm, hw⟩ := List.mem_filter.1 hm
  obtain ⟨l, hl, hm⟩ := List.mem_flatMap.1 hm
  have hw : w = .use u := of_decide_eq_true hw
  subst hw
  refine ⟨i, rfl, ?_⟩
  have hok := ((allOk_iff c ls h).1 ho).1 l hl
  cases l with
  | switch j ws =>
    obtain ⟨w, hw, he⟩ := List.mem_map.1 hm
    cases he
    exact hok _ hw
  | _ => cases hm

/-- **C62, end switches** configured by an accepted file are connected on the cape. -/
theorem C62_connected {c : Cape} {h h' : Hw F} {content : List Byte} (ha : configureHw c h content = (true, h'))
    (hc : Connected c h) : Connected c h' := by
  obtain ⟨ls, hs, ho, rfl⟩ := configureHw_eq ha
  obtain ⟨k, _⟩ := C62_switches ha hs
  intro a
  constructor
  · have h1 : (ls.foldl (Line.apply c) h).minEndstop a = _ := k (.min a)
    rw [h1]
    cases hl : lastUse ls (.min a) with
    | none => exact (hc a).1
    | some n =>
      obtain ⟨i, rfl, hi⟩ := lastUse_ok ho hl
      right
      show c.switchPin (i.val + 1) ≠ 0
      rw [switchPin_succ]; exact hi
  · have h1 : (ls.foldl (Line.apply c) h).maxEndstop a = _ := k (.max a)
    rw [h1]
    cases hl : lastUse ls (.max a) with
    | none => exact (hc a).2
    | some n =>
      obtain ⟨i, rfl, hi⟩ := lastUse_ok ho hl
      right
      show c.switchPin (i.val + 1) ≠ 0
      rw [switchPin_succ]; exact hi

theorem apply_rest (c : Cape) (h : Hw F) (l : Line) :
    (l.apply c h).estop = h.estop ∧ (l.apply c h).motorsEnabled = h.motorsEnabled ∧ (l.apply c h).auxBits = h.auxBits ∧
    (l.apply c h).initialized = h.initialized ∧ (l.apply c h).level = h.level ∧ (l.apply c h).pwmOn = h.pwmOn ∧
    (l.apply c h).duty = h.duty := by
  cases l with
  | aux i o =>
    obtain ⟨f, hf⟩ := addAux_fields c h o ((i.val : Int) + 1)
    have : Line.apply c h (.aux i o) = _ := hf
    rw [this]; exact ⟨rfl, rfl, rfl, rfl, rfl, rfl, rfl⟩
  | pwm i o =>
    obtain ⟨f, hf⟩ := addPwm_fields c h o ((i.val : Int) + 1)
    have : Line.apply c h (.pwm i o) = _ := hf
    rw [this]; exact ⟨rfl, rfl, rfl, rfl, rfl, rfl, rfl⟩
  | motor m a b =>
    obtain ⟨f, g, hf⟩ := addMotor_fields h a ((m.val : Int) + 1) b
    have : Line.apply c h (.motor m a b) = _ := hf
    rw [this]; exact ⟨rfl, rfl, rfl, rfl, rfl, rfl, rfl⟩
  | switch i ws => exact (words_apply i ws h).2.2.2.2

/-- **Configuring switches nothing**: outputs and state are as before. -/
theorem C62_passive {c : Cape} {h h' : Hw F} {content : List Byte} (ha : configureHw c h content = (true, h')) :
    h'.estop = h.estop ∧ h'.motorsEnabled = h.motorsEnabled ∧ h'.auxBits = h.auxBits ∧ h'.initialized = h.initialized ∧
    h'.level = h.level ∧ h'.pwmOn = h.pwmOn ∧ h'.duty = h.duty := by
  obtain ⟨ls, hs, ho, rfl⟩ := configureHw_eq ha
  clear ho ha hs
  induction ls generalizing h with
  | nil => exact ⟨rfl, rfl, rfl, rfl, rfl, rfl, rfl⟩
  | cons l ls ih =>
    rw [List.foldl_cons]
    obtain ⟨a1, a2, a3, a4, a5, a6, a7⟩ := ih (h := l.apply c h)
    obtain ⟨b1, b2, b3, b4, b5, b6, b7⟩ := apply_rest c h l
    exact ⟨a1.trans b1, a2.trans b2, a3.trans b3, a4.trans b4, a5.trans b5, a6.trans b6, a7.trans b7⟩

theorem mapOk_add {h : Hw F} (ok : h.MapOk) (r : MotorRequest) : (r.run h).MapOk := by
  refine ⟨fun a b m h1 h2 => ?_, fun m => ?_⟩
  · obtain ⟨k, _⟩ := addMotor_step h r m
    rw [k, Bool.or_eq_true, decide_eq_true_eq] at h1 h2
    rcases h1 with h1 | ⟨_, e, h1⟩ <;> rcases h2 with h2 | ⟨_, e', h2⟩
    · exact ok.1 a b m h1 h2
    · rw [(ok.2 m).1 e' a] at h1; cases h1
    · rw [(ok.2 m).1 e b] at h2; cases h2
    · rw [h1, h2]
  · obtain ⟨k1, k2⟩ := addMotor_step h r m
    rw [k2]
    by_cases hr : r.motor = (m.val : Int) + 1 ∧ h.driverFlip m = 0
    · rw [if_pos hr]
      constructor
      · intro h0; split at h0 <;> omega
      · intro h0
        have := h0 r.axis
        rw [k1] at this
        simp [hr.1, hr.2] at this
    · rw [if_neg hr, ok.2 m]
      refine forall_congr' fun a => ?_
      rw [k1]
      have : decide (r.motor = (m.val : Int) + 1 ∧ h.driverFlip m = 0 ∧ a = r.axis) = false :=
        decide_eq_false fun h => hr ⟨h.1, h.2.1⟩
      rw [this, Bool.or_false]

/-- **C62**: after an accepted file every motor belongs to at most one axis. -/
theorem C62_one_axis {c : Cape} {h h' : Hw F} {content : List Byte} (ha : configureHw c h content = (true, h'))
    (ok : h.MapOk) : h'.MapOk := by
  obtain ⟨ls, hs, ho, rfl⟩ := configureHw_eq ha
  clear ho ha hs
  induction ls generalizing h with
  | nil => exact ok
  | cons l ls ih =>
    rw [List.foldl_cons]
    refine ih ?_
    cases l with
    | aux i o =>
      obtain ⟨f, hf⟩ := addAux_fields c h o ((i.val : Int) + 1)
      have : Line.apply c h (.aux i o) = _ := hf
      rw [this]; exact ok
    | pwm i o =>
      obtain ⟨f, hf⟩ := addPwm_fields c h o ((i.val : Int) + 1)
      have : Line.apply c h (.pwm i o) = _ := hf
      rw [this]; exact ok
    | motor m a b => exact mapOk_add ok ⟨a, (m.val : Int) + 1, b⟩
    | switch i ws =>
      obtain ⟨w1, w2, _⟩ := words_apply i ws h
      show (ws.foldl (SwitchWord.apply i) h).MapOk
      unfold Hw.MapOk Hw.drives
      rw [w1, w2]
      exact ok

/-! ### What is accepted although it should not -/

/-- What follows the letter of an axis is not read. -/
theorem C62_motor_tail :
    (fun r : Bool × Hw Nat => (r.1, r.2.axisToDriver 0)) (configureHw cramps (Hw.blank Nat) (ascii "[motor-mapping]\nmotor_1=axis:xyz bogus"))
      = (true, 1#8) := by decide +kernel

/-- **An emergency stop switch that is not connected is accepted**; reading it always gives the default, as if it was
never pressed. -/
theorem C62_unconnected_estop :
    (fun r : Bool × Hw Nat => (r.1, r.2.estopInput)) (configureHw cramps (Hw.blank Nat) (ascii "[switch-mapping]\nswitch_9=e-stop"))
      = (true, 9) ∧ cramps.switchPin 9 = 0 ∧
    ∀ (h : Hw Nat) (samples : List Bool), testSwitch cramps h 9 false samples = some (false, samples) := by
  refine ⟨by decide +kernel, by decide, fun h samples => ?_⟩
  unfold testSwitch
  split
  · rfl
  · rw [if_pos (by decide)]

end BeagleG.Setup
