import Verif.Setup.FileProps
/-!
# C61: the machine configuration

Every setting has the value given in the last line that names it, and the default if there is none; a file is accepted
only if every line of the sections concerned names a known setting and gives a value for it.
-/
namespace BeagleG.Setup

open Text Config
open Planner (Axis Arith)

variable {D F : Type}

/-! ### What the file may contain -/

/-- The axis of the section `<letter>-axis`. -/
def sectionAxis (s : List Byte) : Option Axis := if s.drop 1 = ascii "-axis" then letter2axis (s.headD 0) else none

/-- The numbers configured for an axis. -/
inductive Quantity where
  | steps | feedrate | acceleration | range | home | probe
  deriving DecidableEq

/-- The names of the options. -/
def Quantity.names : Quantity → List (List Byte)
  | .steps => [ascii "steps-per-mm", ascii "steps-per-degree"]
  | .feedrate => [ascii "max-feedrate", ascii "max-anglerate"]
  | .acceleration => [ascii "max-acceleration"]
  | .range => [ascii "range"]
  | .home => [ascii "home-feedrate"]
  | .probe => [ascii "max-probe-feedrate"]

/-- The quantity in the configuration. -/
def Machine.get (c : Machine F) : Quantity → Axis → F
  | .steps => c.stepsPerMm
  | .feedrate => c.maxFeedrate
  | .acceleration => c.acceleration
  | .range => c.moveRange
  | .home => c.homeFeedrate
  | .probe => c.maxProbeFeedrate

/-- The configuration with one number changed. -/
def Quantity.store (q : Quantity) (c : Machine F) (a : Axis) (v : F) : Machine F :=
  match q with
  | .steps => { c with stepsPerMm := put c.stepsPerMm a v }
  | .feedrate => { c with maxFeedrate := put c.maxFeedrate a v }
  | .acceleration => { c with acceleration := put c.acceleration a v }
  | .range => { c with moveRange := put c.moveRange a v }
  | .home => { c with homeFeedrate := put c.homeFeedrate a v }
  | .probe => { c with maxProbeFeedrate := put c.maxProbeFeedrate a v }

/-- The value of a setting of the section `general`. -/
inductive Val where
  | text (s : List Byte)
  | flag (b : Bool)
  | int (i : Int)
  deriving DecidableEq

/-- The settings of the section `general`. -/
inductive Setting where
  | homeOrder | requireHoming | rangeCheck | clampToRange | synchronous | enablePause
  | autoMotorDisable | autoFanDisable | autoFanPwm
  deriving DecidableEq

/-- The names in the file. -/
def Setting.name : Setting → List Byte
  | .homeOrder => ascii "home-order"
  | .requireHoming => ascii "require-homing"
  | .rangeCheck => ascii "range-check"
  | .clampToRange => ascii "clamp-to-range"
  | .synchronous => ascii "synchronous"
  | .enablePause => ascii "enable-pause"
  | .autoMotorDisable => ascii "auto-motor-disable-seconds"
  | .autoFanDisable => ascii "auto-fan-disable-seconds"
  | .autoFanPwm => ascii "auto-fan-pwm"

/-- The values that may be written. -/
def Setting.parse : Setting → List Byte → Option Val
  | .homeOrder, s | .clampToRange, s => some (.text s)
  | .requireHoming, s | .rangeCheck, s | .synchronous, s | .enablePause, s => (parseBool s).map .flag
  | .autoMotorDisable, s | .autoFanDisable, s | .autoFanPwm, s => (parseInt s).map .int

/-- The setting in the configuration. -/
def Machine.setting (c : Machine F) : Setting → Val
  | .homeOrder => .text c.homeOrder
  | .requireHoming => .flag c.requireHoming
  | .rangeCheck => .flag c.rangeCheck
  | .clampToRange => .text c.clampToRange
  | .synchronous => .flag c.synchronous
  | .enablePause => .flag c.enablePause
  | .autoMotorDisable => .int c.autoMotorDisable
  | .autoFanDisable => .int c.autoFanDisable
  | .autoFanPwm => .int c.autoFanPwm

/-- A number that is not negative. -/
def number (N : Numbers D F) (value : List Byte) : Option F :=
  match parseFloatExpr N value with
  | some (true, some v) => some v
  | _ => none

/-- The home position named by a text. -/
def homeValue (value : List Byte) : Option AxisTrigger :=
  if toLowerString value = ascii "min" then some .min
  else if toLowerString value = ascii "max" then some .max
  else none

/-- Does the entry give the number for the axis? -/
def Entry.gives (e : Entry) (q : Quantity) (a : Axis) : Bool := sectionAxis e.section_ = some a ∧ e.name ∈ q.names

/-- Does the entry give the setting? -/
def Entry.sets (e : Entry) (s : Setting) : Bool := e.section_ = ascii "general" ∧ e.name = s.name

/-- Does the entry give the home position of the axis? -/
def Entry.homes (e : Entry) (a : Axis) : Bool := sectionAxis e.section_ = some a ∧ e.name = ascii "home-pos"

/-- A line that may be written. -/
def Valid (N : Numbers D F) (e : Entry) : Prop :=
  (∃ s : Setting, e.sets s = true ∧ (s.parse e.value).isSome) ∨
  (∃ a q, e.gives q a = true ∧ (number N e.value).isSome) ∨
  (∃ a, e.homes a = true ∧ (homeValue e.value).isSome)

/-! ### The reader, pair by pair -/

/-- What the reader does with a pair. -/
def machineOption (N : Numbers D F) (c : Machine F) (e : Entry) : Bool × Machine F :=
  if e.section_ = ascii "general" then generalOption c e.name e.value
  else
    match sectionAxis e.section_ with
    | some a => axisOption N c a e.name e.value
    | none => (false, c)

/-- The sections concerned. -/
def machineSection (s : List Byte) : Bool := s = ascii "general" ∨ sectionAxis s ≠ none

theorem machine_uniform (N : Numbers D F) :
    Uniform (machineReader N) MachineReader.config machineSection (machineOption N)
      (fun r s => r.section_ = s ∧ (s ≠ ascii "general" → r.axis = sectionAxis s)) where
  answer r n name := by
    show (MachineReader.seenSection r name).1 = _
    unfold MachineReader.seenSection machineSection sectionAxis
    dsimp only
    by_cases h1 : name = ascii "general"
    · rw [if_pos h1]; simp [h1]
    · rw [if_neg h1]
      by_cases h2 : name.drop 1 = ascii "-axis"
      · by_cases h3 : letter2axis (name.headD 0) = none
        · rw [if_neg (fun h => h.1 h3)]
          simp only [h1, h2, h3, if_true, false_or]
          simp
        · rw [if_pos ⟨h3, h2⟩]
          simp only [h1, h2, if_true, false_or]
          exact (decide_eq_true h3).symm
      · rw [if_neg (fun h => h2 h.2)]
        simp only [h1, h2, if_false, false_or]
        simp
  view_section r n name := by
    show (MachineReader.seenSection r name).2.config = _
    unfold MachineReader.seenSection
    dsimp only
    split
    · rfl
    · split <;> rfl
  good_section r n name h := by
    show (MachineReader.seenSection r name).2.section_ = _ ∧ (_ → (MachineReader.seenSection r name).2.axis = _)
    unfold machineSection sectionAxis at h
    unfold MachineReader.seenSection sectionAxis
    dsimp only
    by_cases h1 : name = ascii "general"
    · rw [if_pos h1]; exact ⟨rfl, fun h => absurd h1 h⟩
    · rw [if_neg h1]
      by_cases h2 : name.drop 1 = ascii "-axis"
      · by_cases h3 : letter2axis (name.headD 0) = none
        · rw [if_neg (fun h => h.1 h3)]
          exact ⟨rfl, fun _ => by rw [if_pos h2, h3]⟩
        · rw [if_pos ⟨h3, h2⟩]
          exact ⟨rfl, fun _ => by rw [if_pos h2]⟩
      · rw [if_neg (fun h => h2 h.2)]
        exact ⟨rfl, fun _ => by rw [if_neg h2]⟩
  pair r n s name v := by
    rintro ⟨g1, g2⟩
    show (MachineReader.seenNameValue N r name v).1 = _ ∧ (MachineReader.seenNameValue N r name v).2.config = _ ∧
      (MachineReader.seenNameValue N r name v).2.section_ = _ ∧ (_ → (MachineReader.seenNameValue N r name v).2.axis = _)
    unfold MachineReader.seenNameValue machineOption
    dsimp only
    refine ⟨?_, ?_, g1, g2⟩
    · rw [g1]
      by_cases h1 : s = ascii "general"
      · rw [if_pos h1, if_pos h1]
      · rw [if_neg h1, if_neg h1, g2 h1]
        cases sectionAxis s <;> rfl
    · rw [g1]
      by_cases h1 : s = ascii "general"
      · rw [if_pos h1, if_pos h1]
      · rw [if_neg h1, if_neg h1, g2 h1]
        cases sectionAxis s <;> rfl

theorem get_store (q q' : Quantity) (c : Machine F) (a b : Axis) (v : F) :
    (q.store c a v).get q' b = if q' = q ∧ b = a then v else c.get q' b := by
  cases q <;> cases q' <;> simp [Quantity.store, Machine.get, put]

theorem setting_store (q : Quantity) (c : Machine F) (a : Axis) (v : F) (s : Setting) :
    (q.store c a v).setting s = c.setting s := by
  cases q <;> cases s <;> rfl

theorem home_store (q : Quantity) (c : Machine F) (a : Axis) (v : F) :
    (q.store c a v).homingTrigger = c.homingTrigger := by
  cases q <;> rfl

theorem names_disjoint (q q' : Quantity) (n : List Byte) (h : n ∈ q.names) (h' : n ∈ q'.names) : q = q' := by
  revert h'
  cases q <;> cases q' <;> simp only [Quantity.names, List.mem_cons, List.not_mem_nil, or_false] at h ⊢ <;>
    first
    | exact fun _ => trivial
    | (rcases h with rfl | rfl <;> decide)

theorem names_not_home (q : Quantity) : ascii "home-pos" ∉ q.names := by cases q <;> decide

theorem setting_inj (s s' : Setting) (h : s.name = s'.name) : s = s' := by
  revert h; cases s <;> cases s' <;> decide

theorem axisOption_number (N : Numbers D F) (c : Machine F) (a : Axis) (q : Quantity) (n v : List Byte) (h : n ∈ q.names) :
    axisOption N c a n v = acceptExpr N c v (q.store c a) := by
  cases q <;> simp only [Quantity.names, List.mem_cons, List.not_mem_nil, or_false] at h <;>
    rcases h with rfl | rfl <;> unfold axisOption <;>
    (repeat (first | rw [if_pos rfl] | rw [if_neg (by decide)])) <;> rfl

theorem axisOption_home (N : Numbers D F) (c : Machine F) (a : Axis) (v : List Byte) :
    axisOption N c a (ascii "home-pos") v = setHomePos c a v := by
  unfold axisOption
  repeat (first | rw [if_pos rfl] | rw [if_neg (by decide)])

theorem axisOption_other (N : Numbers D F) (c : Machine F) (a : Axis) (n v : List Byte) (h : ∀ q : Quantity, n ∉ q.names)
    (hh : n ≠ ascii "home-pos") : axisOption N c a n v = (false, c) := by
  have h1 := h .steps
  have h2 := h .feedrate
  have h3 := h .acceleration
  have h4 := h .range
  have h5 := h .home
  have h6 := h .probe
  simp only [Quantity.names, List.mem_cons, List.not_mem_nil, or_false, not_or] at h1 h2 h3 h4 h5 h6
  unfold axisOption
  rw [if_neg h1.1, if_neg h1.2, if_neg h2.1, if_neg h2.2, if_neg h5, if_neg h6, if_neg h3, if_neg h4, if_neg hh]

/-- The configuration with one setting changed; a value of another kind cannot occur. -/
def Setting.store (s : Setting) (c : Machine F) (v : Val) : Machine F :=
  match s, v with
  | .homeOrder, .text v => { c with homeOrder := v }
  | .requireHoming, .flag v => { c with requireHoming := v }
  | .rangeCheck, .flag v => { c with rangeCheck := v }
  | .clampToRange, .text v => { c with clampToRange := v }
  | .synchronous, .flag v => { c with synchronous := v }
  | .enablePause, .flag v => { c with enablePause := v }
  | .autoMotorDisable, .int v => { c with autoMotorDisable := v }
  | .autoFanDisable, .int v => { c with autoFanDisable := v }
  | .autoFanPwm, .int v => { c with autoFanPwm := v }
  | _, _ => c

theorem generalOption_known (c : Machine F) (s : Setting) (v : List Byte) :
    generalOption c s.name v = match s.parse v with
      | none => (false, c)
      | some x => (true, s.store c x) := by
  cases s <;> unfold generalOption Setting.name <;>
    (repeat (first | rw [if_pos rfl] | rw [if_neg (by decide)])) <;>
    first
    | rfl
    | (unfold acceptBool Setting.parse; dsimp only; cases parseBool v <;> rfl)
    | (unfold acceptInt Setting.parse; dsimp only; cases parseInt v <;> rfl)

theorem generalOption_other (c : Machine F) (n v : List Byte) (h : ∀ s : Setting, n ≠ s.name) :
    generalOption c n v = (false, c) := by
  have h1 := h .homeOrder
  have h2 := h .requireHoming
  have h3 := h .rangeCheck
  have h4 := h .clampToRange
  have h5 := h .synchronous
  have h6 := h .enablePause
  have h7 := h .autoMotorDisable
  have h8 := h .autoFanDisable
  have h9 := h .autoFanPwm
  simp only [Setting.name] at h1 h2 h3 h4 h5 h6 h7 h8 h9
  unfold generalOption
  rw [if_neg h1, if_neg h2, if_neg h3, if_neg h4, if_neg h5, if_neg h6, if_neg h7, if_neg h8, if_neg h9]

theorem setting_get (s s' : Setting) (c : Machine F) (v : List Byte) (x : Val) (h : s.parse v = some x) :
    (s.store c x).setting s' = if s' = s then x else c.setting s' := by
  have hx : (∃ t, x = .text t ∧ (s = .homeOrder ∨ s = .clampToRange)) ∨
      (∃ b, x = .flag b ∧ (s = .requireHoming ∨ s = .rangeCheck ∨ s = .synchronous ∨ s = .enablePause)) ∨
      (∃ i, x = .int i ∧ (s = .autoMotorDisable ∨ s = .autoFanDisable ∨ s = .autoFanPwm)) := by
    cases s <;> simp only [Setting.parse, Option.map_eq_some_iff, Option.some.injEq] at h <;>
      first
      | (subst h; exact .inl ⟨_, rfl, by simp⟩)
      | (obtain ⟨b, _, rfl⟩ := h; first | exact .inr (.inl ⟨_, rfl, by simp⟩) | exact .inr (.inr ⟨_, rfl, by simp⟩))
  rcases hx with ⟨t, rfl, rfl | rfl⟩ | ⟨b, rfl, rfl | rfl | rfl | rfl⟩ | ⟨i, rfl, rfl | rfl | rfl⟩ <;>
    cases s' <;> simp [Setting.store, Machine.setting]

theorem store_get (s : Setting) (c : Machine F) (x : Val) (q : Quantity) (a : Axis) :
    (s.store c x).get q a = c.get q a ∧ (s.store c x).homingTrigger = c.homingTrigger := by
  cases s <;> cases x <;> cases q <;> exact ⟨rfl, rfl⟩

/-- What a number given for an axis does. -/
theorem acceptExpr_cases (N : Numbers D F) (c : Machine F) (v : List Byte) (store : F → Machine F) :
    (∃ x, number N v = some x ∧ acceptExpr N c v store = (true, store x)) ∨
    (number N v = none ∧ (acceptExpr N c v store).1 = false) := by
  unfold number acceptExpr
  cases h : parseFloatExpr N v with
  | none => exact .inr ⟨rfl, rfl⟩
  | some p =>
    obtain ⟨b, w⟩ := p
    cases b with
    | false => exact .inr ⟨by cases w <;> rfl, rfl⟩
    | true =>
      cases w with
      | some x => exact .inl ⟨x, rfl, rfl⟩
      | none =>
        exfalso
        unfold parseFloatExpr at h
        dsimp only at h
        split at h
        · cases h
        · split at h
          · split at h <;> cases h
          · cases h

/-- What a home position does. -/
theorem setHomePos_cases (c : Machine F) (a : Axis) (v : List Byte) :
    (∃ t, c.homingTrigger a = .none ∧ homeValue v = some t ∧
      setHomePos c a v = (true, { c with homingTrigger := put c.homingTrigger a t })) ∨
    ((c.homingTrigger a ≠ .none ∨ homeValue v = none) ∧ setHomePos c a v = (false, c)) := by
  unfold setHomePos homeValue
  dsimp only
  by_cases h0 : c.homingTrigger a = .none
  · have hn : ¬c.homingTrigger a ≠ .none := fun h => h h0
    by_cases h1 : toLowerString v = ascii "min"
    · simp only [if_neg hn, if_pos h1]; exact .inl ⟨_, h0, rfl, rfl⟩
    · by_cases h2 : toLowerString v = ascii "max"
      · simp only [if_neg hn, if_neg h1, if_pos h2]; exact .inl ⟨_, h0, rfl, rfl⟩
      · simp only [if_neg hn, if_neg h1, if_neg h2]; exact .inr ⟨.inr trivial, trivial⟩
  · rw [if_pos h0]; exact .inr ⟨.inl h0, rfl⟩

theorem general_no_axis : sectionAxis (ascii "general") = none := by decide

/-- All that a pair can be. -/
inductive Kind (N : Numbers D F) (c : Machine F) (e : Entry) : Prop
  /-- a setting -/
  | setting (s : Setting) (x : Val) : e.sets s = true → s.parse e.value = some x →
      machineOption N c e = (true, s.store c x) → Kind N c e
  /-- a number -/
  | number (a : Axis) (q : Quantity) (x : F) : e.gives q a = true → Setup.number N e.value = some x →
      machineOption N c e = (true, q.store c a x) → Kind N c e
  /-- a home position -/
  | home (a : Axis) (t : AxisTrigger) : e.homes a = true → c.homingTrigger a = .none → homeValue e.value = some t →
      machineOption N c e = (true, { c with homingTrigger := put c.homingTrigger a t }) → Kind N c e
  /-- a second home position -/
  | again (a : Axis) : e.homes a = true → c.homingTrigger a ≠ .none → (machineOption N c e).1 = false → Kind N c e
  /-- something else -/
  | invalid : ¬Valid N e → (machineOption N c e).1 = false → Kind N c e

theorem kind (N : Numbers D F) (c : Machine F) (e : Entry) : Kind N c e := by
  by_cases hg : e.section_ = ascii "general"
  · have ho : machineOption N c e = generalOption c e.name e.value := by unfold machineOption; rw [if_pos hg]
    have hna : ∀ a, sectionAxis e.section_ ≠ some a := by
      intro a; rw [hg, general_no_axis]; simp
    by_cases hs : ∃ s : Setting, e.name = s.name
    · obtain ⟨s, hs⟩ := hs
      rw [hs, generalOption_known] at ho
      cases hp : s.parse e.value with
      | some x =>
        rw [hp] at ho
        exact .setting s x (decide_eq_true ⟨hg, hs⟩) hp ho
      | none =>
        rw [hp] at ho
        refine .invalid ?_ (by rw [ho])
        rintro (⟨s', h1, h2⟩ | ⟨a, q, h1, _⟩ | ⟨a, h1, _⟩)
        · have := setting_inj s s' (hs.symm.trans (of_decide_eq_true h1).2)
          subst this
          rw [hp] at h2; cases h2
        · exact hna a (of_decide_eq_true h1).1
        · exact hna a (of_decide_eq_true h1).1
    · have hs' : ∀ s : Setting, e.name ≠ s.name := fun s h => hs ⟨s, h⟩
      rw [generalOption_other c _ _ hs'] at ho
      refine .invalid ?_ (by rw [ho])
      rintro (⟨s', h1, h2⟩ | ⟨a, q, h1, _⟩ | ⟨a, h1, _⟩)
      · exact hs' s' (of_decide_eq_true h1).2
      · exact hna a (of_decide_eq_true h1).1
      · exact hna a (of_decide_eq_true h1).1
  · have hns : ∀ s, ¬e.sets s = true := fun s h => hg (of_decide_eq_true h).1
    cases ha : sectionAxis e.section_ with
    | none =>
      refine .invalid ?_ (by unfold machineOption; rw [if_neg hg, ha])
      rintro (⟨s', h1, h2⟩ | ⟨a, q, h1, _⟩ | ⟨a, h1, _⟩)
      · exact hns s' h1
      · have := (of_decide_eq_true h1).1; rw [ha] at this; cases this
      · have := (of_decide_eq_true h1).1; rw [ha] at this; cases this
    | some a =>
      have ho : machineOption N c e = axisOption N c a e.name e.value := by unfold machineOption; rw [if_neg hg, ha]
      by_cases hq : ∃ q : Quantity, e.name ∈ q.names
      · obtain ⟨q, hq⟩ := hq
        rw [axisOption_number N c a q _ _ hq] at ho
        rcases acceptExpr_cases N c e.value (q.store c a) with ⟨x, h1, h2⟩ | ⟨h1, h2⟩
        · exact .number a q x (decide_eq_true ⟨ha, hq⟩) h1 (ho.trans h2)
        · refine .invalid ?_ (by rw [ho, h2])
          rintro (⟨s', h3, h4⟩ | ⟨b, q', h3, h4⟩ | ⟨b, h3, _⟩)
          · exact hns s' h3
          · rw [h1] at h4; cases h4
          · have := (of_decide_eq_true h3).2
            rw [this] at hq
            exact names_not_home q hq
      · have hq' : ∀ q : Quantity, e.name ∉ q.names := fun q h => hq ⟨q, h⟩
        by_cases hh : e.name = ascii "home-pos"
        · rw [hh, axisOption_home] at ho
          rcases setHomePos_cases c a e.value with ⟨t, h1, h2, h3⟩ | ⟨h1, h2⟩
          · exact .home a t (decide_eq_true ⟨ha, hh⟩) h1 h2 (ho.trans h3)
          · rw [h2] at ho
            by_cases h3 : c.homingTrigger a = .none
            · have h4 : homeValue e.value = none := h1.resolve_left (fun h => h h3)
              refine .invalid ?_ (by rw [ho])
              rintro (⟨s', h5, h6⟩ | ⟨b, q', h5, h6⟩ | ⟨b, h5, h6⟩)
              · exact hns s' h5
              · exact hq' q' (of_decide_eq_true h5).2
              · rw [h4] at h6; cases h6
            · exact .again a (decide_eq_true ⟨ha, hh⟩) h3 (by rw [ho])
        · rw [axisOption_other N c a _ _ hq' hh] at ho
          refine .invalid ?_ (by rw [ho])
          rintro (⟨s', h5, h6⟩ | ⟨b, q', h5, h6⟩ | ⟨b, h5, h6⟩)
          · exact hns s' h5
          · exact hq' q' (of_decide_eq_true h5).2
          · exact hh (of_decide_eq_true h5).2

theorem not_gives_of_sets {e : Entry} {s : Setting} (h : e.sets s = true) (q : Quantity) (a : Axis) :
    e.gives q a = false ∧ e.homes a = false := by
  have hg := (of_decide_eq_true h).1
  have : sectionAxis e.section_ ≠ some a := by rw [hg, general_no_axis]; simp
  exact ⟨decide_eq_false fun k => this k.1, decide_eq_false fun k => this k.1⟩

theorem not_sets_of_gives {e : Entry} {q : Quantity} {a : Axis} (h : e.gives q a = true ∨ e.homes a = true) (s : Setting) :
    e.sets s = false := by
  refine Bool.eq_false_iff.2 fun k => ?_
  have := not_gives_of_sets k q a
  rcases h with h | h
  · rw [this.1] at h; cases h
  · rw [this.2] at h; cases h

theorem not_homes_of_gives {e : Entry} {q : Quantity} {a : Axis} (h : e.gives q a = true) (b : Axis) : e.homes b = false := by
  refine decide_eq_false fun k => ?_
  have := (of_decide_eq_true h).2
  rw [k.2] at this
  exact names_not_home q this

theorem gives_unique {e : Entry} {q q' : Quantity} {a b : Axis} (h : e.gives q a = true) (h' : e.gives q' b = true) :
    q' = q ∧ b = a := by
  have h1 := of_decide_eq_true h
  have h2 := of_decide_eq_true h'
  refine ⟨names_disjoint _ _ _ h2.2 h1.2, ?_⟩
  have := h1.1.symm.trans h2.1
  cases this; rfl

/-- The pairs that concern the machine. -/
def machineEntries (shapes : List Shape) : List Entry := entries machineSection none shapes

theorem applyAll_inv {κ : Type} {option : κ → Entry → Bool × κ} {α : Type} (get : κ → α)
    (step : ∀ k e, (option k e).1 = true → get (option k e).2 = get k) : ∀ (es : List Entry) (k k' : κ),
    applyAll option k es = some k' → get k' = get k
  | [], k, k', h => by cases h; rfl
  | e :: es, k, k', h => by
    unfold applyAll at h
    by_cases ha : (option k e).1 = true
    · rw [if_pos ha] at h
      rw [applyAll_inv get step es _ _ h, step k e ha]
    · rw [if_neg ha] at h; cases h

/-- **C61, the numbers**: after a file has been accepted, each number of each axis is the one given in the last line of the
section of this axis that names it; without such a line it is what it was before. -/
theorem C61_numbers (N : Numbers D F) {c c' : Machine F} {content : List Byte} {shapes : List Shape}
    (hs : Shapes content shapes) (h : configureMachine N c content = (true, c')) (q : Quantity) (a : Axis) :
    c'.get q a = (((machineEntries shapes).filter (·.gives q a)).getLast?.bind fun e => number N e.value).getD (c.get q a) := by
  have h' := (emit_shapes (machine_uniform N) ⟨c, [], none⟩ content hs).2 (congrArg Prod.fst h)
  have hc : (emitConfigValues (machineReader N) ⟨c, [], none⟩ content).2.config = c' := congrArg Prod.snd h
  rw [hc] at h'
  refine (applyAll_last (fun c => c.get q a) (·.gives q a) (fun e => number N e.value) ?_ _ _ _ h').2
  intro k e ha
  rcases kind N k e with ⟨s, x, h1, h2, h3⟩ | ⟨b, q', x, h1, h2, h3⟩ | ⟨b, t, h1, h2, h3, h4⟩ | ⟨b, h1, h2, h3⟩ | ⟨h1, h2⟩
  · rw [(not_gives_of_sets h1 q a).1, h3]
    exact ⟨fun h => (by cases h), fun _ => (store_get s k x q a).1⟩
  · rw [h3]
    refine ⟨fun hg => ⟨x, h2, ?_⟩, fun hg => ?_⟩
    · rw [get_store, if_pos (gives_unique h1 hg)]
    · rw [get_store, if_neg]
      rintro ⟨rfl, rfl⟩
      rw [h1] at hg; cases hg
  · rw [h4]
    refine ⟨fun hg => ?_, fun _ => by cases q <;> rfl⟩
    rw [not_homes_of_gives hg b] at h1; cases h1
  · rw [h3] at ha; cases ha
  · rw [h2] at ha; cases ha

/-- **C61, the general settings**, likewise. -/
theorem C61_settings (N : Numbers D F) {c c' : Machine F} {content : List Byte} {shapes : List Shape}
    (hs : Shapes content shapes) (h : configureMachine N c content = (true, c')) (s : Setting) :
    c'.setting s = (((machineEntries shapes).filter (·.sets s)).getLast?.bind fun e => s.parse e.value).getD (c.setting s) := by
  have h' := (emit_shapes (machine_uniform N) ⟨c, [], none⟩ content hs).2 (congrArg Prod.fst h)
  have hc : (emitConfigValues (machineReader N) ⟨c, [], none⟩ content).2.config = c' := congrArg Prod.snd h
  rw [hc] at h'
  refine (applyAll_last (fun c => c.setting s) (·.sets s) (fun e => s.parse e.value) ?_ _ _ _ h').2
  intro k e ha
  rcases kind N k e with ⟨s', x, h1, h2, h3⟩ | ⟨b, q', x, h1, h2, h3⟩ | ⟨b, t, h1, h2, h3, h4⟩ | ⟨b, h1, h2, h3⟩ | ⟨h1, h2⟩
  · rw [h3]
    refine ⟨fun hg => ⟨x, ?_, ?_⟩, fun hg => ?_⟩
    · have := setting_inj s s' ((of_decide_eq_true hg).2.symm.trans (of_decide_eq_true h1).2)
      rw [this]; exact h2
    · have := setting_inj s s' ((of_decide_eq_true hg).2.symm.trans (of_decide_eq_true h1).2)
      rw [setting_get s' s k e.value x h2, if_pos this]
    · rw [setting_get s' s k e.value x h2, if_neg]
      rintro rfl
      rw [h1] at hg; cases hg
  · rw [h3, not_sets_of_gives (.inl h1) s]
    exact ⟨fun h => (by cases h), fun _ => setting_store q' k b x s⟩
  · rw [h4, not_sets_of_gives (q := .steps) (.inr h1) s]
    exact ⟨fun h => (by cases h), fun _ => by cases s <;> rfl⟩
  · rw [h3] at ha; cases ha
  · rw [h2] at ha; cases ha

/-- What the file has no say in. -/
theorem C61_untouched (N : Numbers D F) {c c' : Machine F} {content : List Byte}
    (h : configureMachine N c content = (true, c')) :
    c'.speedFactor = c.speedFactor ∧ c'.thresholdAngle = c.thresholdAngle ∧ c'.speedTuneAngle = c.speedTuneAngle := by
  obtain ⟨shapes, hs⟩ := emit_wellformed (R := machineReader N) ⟨c, [], none⟩ content (congrArg Prod.fst h)
  have h' := (emit_shapes (machine_uniform N) ⟨c, [], none⟩ content hs).2 (congrArg Prod.fst h)
  have hc : (emitConfigValues (machineReader N) ⟨c, [], none⟩ content).2.config = c' := congrArg Prod.snd h
  rw [hc] at h'
  have := applyAll_inv (fun c : Machine F => (c.speedFactor, c.thresholdAngle, c.speedTuneAngle)) ?_ _ _ _ h'
  · simpa using this
  intro k e ha
  rcases kind N k e with ⟨s', x, h1, h2, h3⟩ | ⟨b, q', x, h1, h2, h3⟩ | ⟨b, t, h1, h2, h3, h4⟩ | ⟨b, h1, h2, h3⟩ | ⟨h1, h2⟩
  · rw [h3]; cases s' <;> cases x <;> rfl
  · rw [h3]; cases q' <;> rfl
  · rw [h4]
  · rw [h3] at ha; cases ha
  · rw [h2] at ha; cases ha

/-- Home positions are given at most once and stay. -/
theorem home_once (N : Numbers D F) (a : Axis) : ∀ (es : List Entry) (c c' : Machine F),
    applyAll (machineOption N) c es = some c' →
    (c.homingTrigger a ≠ .none → es.filter (·.homes a) = [] ∧ c'.homingTrigger a = c.homingTrigger a) ∧
    (c.homingTrigger a = .none → (es.filter (·.homes a) = [] ∧ c'.homingTrigger a = .none) ∨
      ∃ e t, es.filter (·.homes a) = [e] ∧ homeValue e.value = some t ∧ c'.homingTrigger a = t)
  | [], c, c', h => by cases h; exact ⟨fun _ => ⟨rfl, rfl⟩, fun h => .inl ⟨rfl, h⟩⟩
  | e :: es, c, c', h => by
    unfold applyAll at h
    by_cases ha : (machineOption N c e).1 = true
    · rw [if_pos ha] at h
      have ih := home_once N a es _ _ h
      have same : ∀ k : Machine F, (machineOption N c e).2 = k → k.homingTrigger a = c.homingTrigger a → e.homes a = false →
          (c.homingTrigger a ≠ .none → (e :: es).filter (·.homes a) = [] ∧ c'.homingTrigger a = c.homingTrigger a) ∧
          (c.homingTrigger a = .none → ((e :: es).filter (·.homes a) = [] ∧ c'.homingTrigger a = .none) ∨
            ∃ e' t, (e :: es).filter (·.homes a) = [e'] ∧ homeValue e'.value = some t ∧ c'.homingTrigger a = t) := by
        intro k hk ht he
        rw [hk, ht] at ih
        rw [List.filter_cons_of_neg (by rw [he]; decide)]
        exact ih
      rcases kind N c e with ⟨s', x, h1, h2, h3⟩ | ⟨b, q', x, h1, h2, h3⟩ | ⟨b, t, h1, h2, h3, h4⟩ | ⟨b, h1, h2, h3⟩ | ⟨h1, h2⟩
      · exact same _ (congrArg Prod.snd h3) (by rw [(store_get s' c x .steps a).2]) (not_gives_of_sets h1 .steps a).2
      · exact same _ (congrArg Prod.snd h3) (by rw [home_store]) (not_homes_of_gives h1 a)
      · by_cases hb : a = b
        · subst hb
          rw [h4] at ih
          have ht : t ≠ .none := by
            rintro rfl
            unfold homeValue at h3
            split at h3
            · cases h3
            · split at h3 <;> cases h3
          have hput : ({ c with homingTrigger := put c.homingTrigger a t } : Machine F).homingTrigger a = t := by
            simp [put]
          obtain ⟨i1, i2⟩ := ih.1 (by rw [hput]; exact ht)
          refine ⟨fun hn => absurd h2 hn, fun _ => .inr ⟨e, t, ?_, h3, ?_⟩⟩
          · rw [List.filter_cons_of_pos (p := fun x : Entry => x.homes a) (a := e) (l := es) h1, i1]
          · rw [i2, hput]
        · refine same _ (congrArg Prod.snd h4) (by simp [put, hb]) (decide_eq_false fun k => ?_)
          have := k.1.symm.trans (of_decide_eq_true h1).1
          cases this
          exact hb rfl
      · rw [h3] at ha; cases ha
      · rw [h2] at ha; cases ha
    · rw [if_neg ha] at h; cases h

/-- **C61, the home positions**: the file gives at most one for an axis. It is the one configured. -/
theorem C61_home (N : Numbers D F) {c c' : Machine F} {content : List Byte} {shapes : List Shape}
    (hs : Shapes content shapes) (h : configureMachine N c content = (true, c')) (a : Axis)
    (hn : c.homingTrigger a = .none) :
    ((machineEntries shapes).filter (·.homes a) = [] ∧ c'.homingTrigger a = .none) ∨
    ∃ e t, (machineEntries shapes).filter (·.homes a) = [e] ∧ homeValue e.value = some t ∧ c'.homingTrigger a = t := by
  have h' := (emit_shapes (machine_uniform N) ⟨c, [], none⟩ content hs).2 (congrArg Prod.fst h)
  have hc : (emitConfigValues (machineReader N) ⟨c, [], none⟩ content).2.config = c' := congrArg Prod.snd h
  rw [hc] at h'
  exact (home_once N a _ _ _ h').2 hn

theorem accepts_all (N : Numbers D F) : ∀ (es : List Entry) (c : Machine F),
    (applyAll (machineOption N) c es).isSome ↔
      (∀ e ∈ es, Valid N e) ∧
        ∀ a, (es.filter (·.homes a)).length ≤ if c.homingTrigger a = .none then 1 else 0
  | [], c => by simp [applyAll]
  | e :: es, c => by
    unfold applyAll
    have no : (machineOption N c e).1 = false → (¬Valid N e ∨ ∃ a, e.homes a = true ∧ c.homingTrigger a ≠ .none) →
        ((if (machineOption N c e).1 = true then applyAll (machineOption N) (machineOption N c e).2 es else none).isSome = true ↔
          (∀ x ∈ e :: es, Valid N x) ∧
            ∀ a, ((e :: es).filter (·.homes a)).length ≤ if c.homingTrigger a = .none then 1 else 0) := by
      intro hf hw
      rw [if_neg (by rw [hf]; decide)]
      refine ⟨fun h => (by cases h), fun ⟨k1, k2⟩ => ?_⟩
      exfalso
      rcases hw with hw | ⟨a, h1, h2⟩
      · exact hw (k1 e (by simp))
      · have := k2 a
        rw [List.filter_cons_of_pos (p := fun x : Entry => x.homes a) (a := e) (l := es) h1, if_neg h2] at this
        simp at this
    have yes : ∀ c' : Machine F, machineOption N c e = (true, c') → Valid N e →
        (∀ a, ((es.filter (·.homes a)).length ≤ if c'.homingTrigger a = .none then 1 else 0) ↔
          (((e :: es).filter (·.homes a)).length ≤ if c.homingTrigger a = .none then 1 else 0)) →
        ((if (machineOption N c e).1 = true then applyAll (machineOption N) (machineOption N c e).2 es else none).isSome = true ↔
          (∀ x ∈ e :: es, Valid N x) ∧
            ∀ a, ((e :: es).filter (·.homes a)).length ≤ if c.homingTrigger a = .none then 1 else 0) := by
      intro c' hc hv hh
      rw [if_pos (by rw [hc]), accepts_all N es, hc]
      constructor
      · rintro ⟨k1, k2⟩
        exact ⟨fun x hx => (List.mem_cons.1 hx).elim (fun k => k ▸ hv) (k1 x), fun a => (hh a).1 (k2 a)⟩
      · rintro ⟨k1, k2⟩
        exact ⟨fun x hx => k1 x (by simp [hx]), fun a => (hh a).2 (k2 a)⟩
    rcases kind N c e with ⟨s', x, h1, h2, h3⟩ | ⟨b, q', x, h1, h2, h3⟩ | ⟨b, t, h1, h2, h3, h4⟩ | ⟨b, h1, h2, h3⟩ | ⟨h1, h2⟩
    · refine yes _ h3 (.inl ⟨s', h1, by rw [h2]; rfl⟩) fun a => ?_
      rw [List.filter_cons_of_neg (by rw [(not_gives_of_sets h1 .steps a).2]; decide), (store_get s' c x .steps a).2]
    · refine yes _ h3 (.inr (.inl ⟨b, q', h1, by rw [h2]; rfl⟩)) fun a => ?_
      rw [List.filter_cons_of_neg (by rw [not_homes_of_gives h1 a]; decide), home_store]
    · refine yes _ h4 (.inr (.inr ⟨b, h1, by rw [h3]; rfl⟩)) fun a => ?_
      have ht : t ≠ .none := by
        rintro rfl
        unfold homeValue at h3
        split at h3
        · cases h3
        · split at h3 <;> cases h3
      by_cases hb : a = b
      · subst hb
        have hput : ({ c with homingTrigger := put c.homingTrigger a t } : Machine F).homingTrigger a = t := by
          simp [put]
        rw [List.filter_cons_of_pos (p := fun x : Entry => x.homes a) (a := e) (l := es) h1, hput, if_neg ht, if_pos h2]
        simp
      · have he : e.homes a = false := decide_eq_false fun k => by
          have := k.1.symm.trans (of_decide_eq_true h1).1
          cases this
          exact hb rfl
        rw [List.filter_cons_of_neg (by rw [he]; decide)]
        simp [put, hb]
    · exact no h3 (.inr ⟨b, h1, h2⟩)
    · exact no h2 (.inl h1)

/-- **C61, acceptance**: a file is accepted if and only if all its lines are well-formed, all the lines in the sections
of the machine name a setting and give a value for it, and no home position is given twice. -/
theorem C61_accepted (N : Numbers D F) (c : Machine F) (content : List Byte) (hn : ∀ a, c.homingTrigger a = .none) :
    (configureMachine N c content).1 = true ↔
      ∃ shapes, Shapes content shapes ∧ (∀ e ∈ machineEntries shapes, Valid N e) ∧
        ∀ a, ((machineEntries shapes).filter (·.homes a)).length ≤ 1 := by
  have key : ∀ shapes, Shapes content shapes → ((configureMachine N c content).1 = true ↔
      (∀ e ∈ machineEntries shapes, Valid N e) ∧ ∀ a, ((machineEntries shapes).filter (·.homes a)).length ≤ 1) := by
    intro shapes hs
    have h1 : ((configureMachine N c content).1 = true ↔ (applyAll (machineOption N) c (machineEntries shapes)).isSome) :=
      (emit_shapes (machine_uniform N) ⟨c, [], none⟩ content hs).1
    rw [h1, accepts_all]
    refine and_congr_right fun _ => forall_congr' fun a => ?_
    rw [if_pos (hn a)]
  constructor
  · intro h
    obtain ⟨shapes, hs⟩ := emit_wellformed (R := machineReader N) ⟨c, [], none⟩ content h
    exact ⟨shapes, hs, (key shapes hs).1 h⟩
  · rintro ⟨shapes, hs, h⟩
    exact (key shapes hs).2 h

/-- **C61**: a number that is accepted is not negative. -/
theorem C61_not_negative (N : Numbers D F) (v : List Byte) (x : F) (h : number N v = some x) : N.negative x = false := by
  unfold number parseFloatExpr at h
  dsimp only at h
  split at h
  · rename_i h'
    cases h
    split at h'
    · cases h'
    · split at h'
      · split at h'
        · cases h'
        · rename_i hneg
          cases h'
          exact Bool.eq_false_iff.2 hneg
      · cases h'
  · cases h

/-- The section of an axis is its letter followed by `-axis`. -/
theorem C61_section (s : List Byte) (a : Axis) :
    sectionAxis (toLowerString s) = some a ↔ ∃ l, letter2axis l = some a ∧ toLowerString s = l :: ascii "-axis" := by
  unfold sectionAxis
  cases h : toLowerString s with
  | nil =>
    rw [if_neg (by decide)]
    simp
  | cons l t =>
    simp only [List.drop_succ_cons, List.drop_zero, List.headD_cons]
    by_cases ht : t = ascii "-axis"
    · rw [if_pos ht, ht]
      constructor
      · exact fun h => ⟨l, h, rfl⟩
      · rintro ⟨l', h1, h2⟩
        cases h2
        exact h1
    · rw [if_neg ht]
      constructor
      · intro h; cases h
      · rintro ⟨l', h1, h2⟩
        cases h2
        exact absurd rfl ht

end BeagleG.Setup
