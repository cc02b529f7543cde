import Verif.Setup.FileProps
import Verif.Hardware.MotorProps
/-!
# C62: the configuration of the hardware

The lines of the sections `aux-mapping`, `pwm-mapping`, `motor-mapping` and `switch-mapping`, what they mean, and that
an accepted file establishes exactly the mapping they describe.
-/
namespace BeagleG.Setup

open Text Config Hardware
open Planner (Axis Motor)

variable {F : Type}

/-! ### What the file may contain -/

/-- The names of an output. -/
def outputNames : Output → List (List Byte)
  | .spindle => [ascii "spindle", ascii "spindle-on"]
  | .spindleSpeed => [ascii "spindle-speed", ascii "spindle-pwm"]
  | o => [outputToName o]

/-- What a switch is good for. -/
inductive Use where
  | estop | pause | start | probe
  | min (a : Axis)
  | max (a : Axis)
  deriving DecidableEq

/-- What a word of the line of a switch says. -/
inductive SwitchWord where
  | use (u : Use)
  | level (high : Bool)
  deriving DecidableEq

/-- The meaning of a word in lower case. -/
inductive Means : List Byte → SwitchWord → Prop
  | estop : Means (ascii "e-stop") (.use .estop)
  | pause : Means (ascii "pause") (.use .pause)
  | start : Means (ascii "start") (.use .start)
  | probe : Means (ascii "probe") (.use .probe)
  | low : Means (ascii "active:low") (.level false)
  | high : Means (ascii "active:high") (.level true)
  | min (l : Byte) (a : Axis) : letter2axis l = some a → Means (ascii "min_" ++ [l]) (.use (.min a))
  | max (l : Byte) (a : Axis) : letter2axis l = some a → Means (ascii "max_" ++ [l]) (.use (.max a))

/-- The words of a value in lower case; they are separated by blanks, tabulators and commas. -/
def switchWords (value : List Byte) : List (List Byte) :=
  ((splitString value separators).map toLowerString).filter (· ≠ [])

/-- What a line says. -/
inductive Line where
  | aux (i : Fin 16) (o : Output)
  | pwm (i : Fin 4) (o : Output)
  | motor (m : Motor) (a : Axis) (mirrored : Bool)
  | switch (i : Fin 9) (words : List SwitchWord)

/-- The lines that may be written. -/
inductive IsLine : Entry → Line → Prop
  /-- `aux_<n> = <output>`; no heaters; number 16 is the LED, and the LED is number 16. -/
  | aux (e : Entry) (i : Fin 16) (o : Output) : e.section_ = ascii "aux-mapping" → e.name = ascii "aux_" ++ decimal (i.val + 1) →
      toLowerString e.value ∈ outputNames o → o ≠ .hotend → o ≠ .heatedBed → (o = .led ↔ i = 15) → IsLine e (.aux i o)
  /-- `pwm_<n> = <output>` -/
  | pwm (e : Entry) (i : Fin 4) (o : Output) : e.section_ = ascii "pwm-mapping" → e.name = ascii "pwm_" ++ decimal (i.val + 1) →
      toLowerString e.value ∈ outputNames o → IsLine e (.pwm i o)
  /-- `motor_<n> = axis:<letter>` or `motor_<n> = axis:-<letter>`, and what follows. -/
  | motor (e : Entry) (m : Motor) (a : Axis) (mirrored : Bool) (first letter tail rest) :
      e.section_ = ascii "motor-mapping" → e.name = ascii "motor_" ++ decimal (m.val + 1) →
      splitString e.value separators = first :: rest →
      toLowerString first = ascii "axis:" ++ ((if mirrored then [45] else []) ++ letter :: tail) →
      letter2axis letter = some a → IsLine e (.motor m a mirrored)
  /-- `switch_<n> = <words>` -/
  | switch (e : Entry) (i : Fin 9) (ws : List SwitchWord) :
      e.section_ = ascii "switch-mapping" → e.name = ascii "switch_" ++ decimal (i.val + 1) →
      List.Forall₂ Means (switchWords e.value) ws → IsLine e (.switch i ws)

/-- A switch that limits an axis must be connected. -/
def SwitchWord.ok (c : Cape) (i : Fin 9) : SwitchWord → Prop
  | .use (.min _) | .use (.max _) => c.switch i ≠ 0
  | _ => True

/-- Lines that contradict what was configured before. -/
def Line.ok (c : Cape) (h : Hw F) : Line → Prop
  | .aux _ _ => True
  | .pwm _ o => h.pwmOf o = 0
  | .motor m _ _ => h.driverFlip m = 0
  | .switch i ws => ∀ w ∈ ws, w.ok c i

/-- The number of the switch that is used for something. -/
def switchFor (h : Hw F) : Use → Nat
  | .estop => h.estopInput
  | .pause => h.pauseInput
  | .start => h.startInput
  | .probe => h.probeInput
  | .min a => h.minEndstop a
  | .max a => h.maxEndstop a

/-- The mapping after a word. -/
def SwitchWord.apply (i : Fin 9) (h : Hw F) : SwitchWord → Hw F
  | .use .estop => { h with estopInput := i.val + 1 }
  | .use .pause => { h with pauseInput := i.val + 1 }
  | .use .start => { h with startInput := i.val + 1 }
  | .use .probe => { h with probeInput := i.val + 1 }
  | .use (.min a) => { h with minEndstop := put h.minEndstop a (i.val + 1) }
  | .use (.max a) => { h with maxEndstop := put h.maxEndstop a (i.val + 1) }
  | .level b => { h with triggerLevel := fun j => if j = i then b else h.triggerLevel j }

/-- The mapping after a line. -/
def Line.apply (c : Cape) (h : Hw F) : Line → Hw F
  | .aux i o => (addAuxMapping c h o ((i.val : Int) + 1)).1
  | .pwm i o => (addPwmMapping c h o ((i.val : Int) + 1)).1
  | .motor m a mirrored => (addMotorMapping h a ((m.val : Int) + 1) mirrored).1
  | .switch i ws => ws.foldl (SwitchWord.apply i) h

/-! ### Names -/

theorem or_not_elim {α : Type} {p : Prop} [Decidable p] {a b : Option α} {x : α} {g : Prop} (h1 : p ∧ a = some x → g)
    (h2 : b = some x → g) (h : (if p then a else b) = some x) : g := by
  split at h
  · exact h1 ⟨‹p›, h⟩
  · exact h2 h

/-- **C62, outputs**: an output is recognised by its names, in any case. -/
theorem C62_names (v : List Byte) (o : Output) : nameToOutput v = some o ↔ toLowerString v ∈ outputNames o := by
  unfold nameToOutput
  dsimp only
  generalize toLowerString v = n
  constructor
  · intro h
    iterate 15
      refine or_not_elim (fun hn => ?_) (fun hn => ?_) h
      · have h := Option.some.inj hn.2
        subst h
        first
        | (rw [hn.1]; decide)
        | (rcases hn.1 with hn | hn <;> rw [hn] <;> decide)
      clear h
      have h := hn
      clear hn
    cases h
  · intro h
    cases o <;> simp only [outputNames, outputToName, List.mem_cons, List.not_mem_nil, or_false] at h <;>
      rcases h with rfl | rfl <;> decide +kernel

/-- **The name that is shown is a name that is understood.** -/
theorem C62_round_trip (o : Output) : nameToOutput (outputToName o) = some o := by
  cases o <;> decide +kernel

theorem decimal_inj : ∀ i j : Fin 17, decimal i.val = decimal j.val → i = j := by decide +kernel

theorem connector_some {pre name : List Byte} {count i : Nat} (h : connector pre count name = some i) :
    1 ≤ i ∧ i ≤ count ∧ name = pre ++ decimal i := by
  unfold connector at h
  have h1 := List.mem_of_find?_eq_some h
  have h2 := List.find?_some h
  rw [List.mem_range'_1] at h1
  exact ⟨h1.1, by omega, of_decide_eq_true h2⟩

theorem connector_none {pre name : List Byte} {count i : Nat} (h : connector pre count name = none) (h1 : 1 ≤ i)
    (h2 : i ≤ count) : name ≠ pre ++ decimal i := by
  unfold connector at h
  rw [List.find?_eq_none] at h
  intro hn
  exact h i (List.mem_range'_1.2 ⟨h1, by omega⟩) (decide_eq_true hn)

/-- The connector named is the one found. -/
theorem connector_of {pre name : List Byte} {count i : Nat} (hc : count ≤ 16) (h1 : 1 ≤ i) (h2 : i ≤ count)
    (hn : name = pre ++ decimal i) : connector pre count name = some i := by
  cases h : connector pre count name with
  | none => exact absurd hn (connector_none h h1 h2)
  | some j =>
    obtain ⟨j1, j2, j3⟩ := connector_some h
    have : decimal i = decimal j := List.append_cancel_left (hn.symm.trans j3)
    have := decimal_inj ⟨i, by omega⟩ ⟨j, by omega⟩ this
    rw [Fin.mk.injEq] at this
    rw [this]

/-! ### The words of a switch -/

/-- The meaning of a word, computed. -/
def meaning (w : List Byte) : Option SwitchWord :=
  if w = ascii "e-stop" then some (.use .estop)
  else if w = ascii "pause" then some (.use .pause)
  else if w = ascii "start" then some (.use .start)
  else if w = ascii "probe" then some (.use .probe)
  else if w = ascii "active:low" then some (.level false)
  else if w = ascii "active:high" then some (.level true)
  else
    match w.drop 4 with
    | [l] =>
      if w.take 4 = ascii "min_" then (letter2axis l).map fun a => .use (.min a)
      else if w.take 4 = ascii "max_" then (letter2axis l).map fun a => .use (.max a)
      else none
    | _ => none

theorem take_ne {w k p : List Byte} (h : w.take 4 = p) (hk : k.take 4 ≠ p) : w ≠ k := by
  rintro rfl; exact hk h

theorem means_iff (w : List Byte) (s : SwitchWord) : Means w s ↔ meaning w = some s := by
  constructor
  · intro h
    cases h with
    | estop => rfl
    | pause => rfl
    | start => rfl
    | probe => rfl
    | low => rfl
    | high => rfl
    | min l a ha =>
      have ht : (ascii "min_" ++ [l]).take 4 = ascii "min_" := rfl
      have hd : (ascii "min_" ++ [l]).drop 4 = [l] := rfl
      unfold meaning
      rw [if_neg (take_ne ht (by decide)), if_neg (take_ne ht (by decide)), if_neg (take_ne ht (by decide)),
        if_neg (take_ne ht (by decide)), if_neg (take_ne ht (by decide)), if_neg (take_ne ht (by decide)), hd]
      dsimp only
      rw [if_pos ht, ha]; rfl
    | max l a ha =>
      have ht : (ascii "max_" ++ [l]).take 4 = ascii "max_" := rfl
      have hd : (ascii "max_" ++ [l]).drop 4 = [l] := rfl
      unfold meaning
      rw [if_neg (take_ne ht (by decide)), if_neg (take_ne ht (by decide)), if_neg (take_ne ht (by decide)),
        if_neg (take_ne ht (by decide)), if_neg (take_ne ht (by decide)), if_neg (take_ne ht (by decide)), hd]
      dsimp only
      rw [if_neg (by rw [ht]; decide), if_pos ht, ha]; rfl
  · intro h
    unfold meaning at h
    by_cases h1 : w = ascii "e-stop"
    · rw [if_pos h1] at h; cases h; rw [h1]; exact .estop
    rw [if_neg h1] at h
    by_cases h1 : w = ascii "pause"
    · rw [if_pos h1] at h; cases h; rw [h1]; exact .pause
    rw [if_neg h1] at h
    by_cases h1 : w = ascii "start"
    · rw [if_pos h1] at h; cases h; rw [h1]; exact .start
    rw [if_neg h1] at h
    by_cases h1 : w = ascii "probe"
    · rw [if_pos h1] at h; cases h; rw [h1]; exact .probe
    rw [if_neg h1] at h
    by_cases h1 : w = ascii "active:low"
    · rw [if_pos h1] at h; cases h; rw [h1]; exact .low
    rw [if_neg h1] at h
    by_cases h1 : w = ascii "active:high"
    · rw [if_pos h1] at h; cases h; rw [h1]; exact .high
    rw [if_neg h1] at h
    split at h
    · rename_i l hd
      by_cases h2 : w.take 4 = ascii "min_"
      · rw [if_pos h2, Option.map_eq_some_iff] at h
        obtain ⟨a, ha, rfl⟩ := h
        rw [← List.take_append_drop 4 w, h2, hd]
        exact .min l a ha
      · rw [if_neg h2] at h
        by_cases h3 : w.take 4 = ascii "max_"
        · rw [if_pos h3, Option.map_eq_some_iff] at h
          obtain ⟨a, ha, rfl⟩ := h
          rw [← List.take_append_drop 4 w, h3, hd]
          exact .max l a ha
        · rw [if_neg h3] at h; cases h
    · cases h

theorem forall₂_unique {w : List (List Byte)} {s t : List SwitchWord} (h : List.Forall₂ Means w s)
    (h' : List.Forall₂ Means w t) : s = t := by
  induction h generalizing t with
  | nil => cases h'; rfl
  | cons a _ ih =>
    cases h' with
    | cons b h2 =>
      rw [means_iff] at a b
      rw [a] at b
      cases b
      rw [ih h2]

theorem switchPin_succ (c : Cape) (i : Fin 9) : c.switchPin (i.val + 1) = c.switch i := by
  unfold Cape.switchPin
  rw [dif_pos (by omega)]
  rfl

/-- What the reader does with a word of a switch. -/
theorem switchOption_spec (c : Cape) (h : Hw F) (i : Fin 9) (o : List Byte) :
    (toLowerString o = [] ∧ switchOption c h (i.val + 1) o = (true, h)) ∨
    (toLowerString o ≠ [] ∧ ((∃ s, meaning (toLowerString o) = some s ∧ s.ok c i ∧ switchOption c h (i.val + 1) o = (true, s.apply i h)) ∨
      ((∀ s, meaning (toLowerString o) = some s → ¬s.ok c i) ∧ (switchOption c h (i.val + 1) o).1 = false))) := by
  unfold switchOption
  dsimp only
  generalize toLowerString o = w
  by_cases h0 : w = []
  · rw [if_pos h0]; exact .inl ⟨h0, rfl⟩
  refine .inr ⟨h0, ?_⟩
  rw [if_neg h0]
  unfold meaning
  by_cases h1 : w = ascii "e-stop"
  · rw [if_pos h1, if_pos h1]; exact .inl ⟨_, rfl, trivial, rfl⟩
  rw [if_neg h1, if_neg h1]
  by_cases h2 : w = ascii "pause"
  · rw [if_pos h2, if_pos h2]; exact .inl ⟨_, rfl, trivial, rfl⟩
  rw [if_neg h2, if_neg h2]
  by_cases h3 : w = ascii "start"
  · rw [if_pos h3, if_pos h3]; exact .inl ⟨_, rfl, trivial, rfl⟩
  rw [if_neg h3, if_neg h3]
  by_cases h4 : w = ascii "probe"
  · rw [if_pos h4, if_pos h4]; exact .inl ⟨_, rfl, trivial, rfl⟩
  rw [if_neg h4, if_neg h4]
  by_cases hl : w.length = 5
  · rw [if_pos hl]
    have n5 : w ≠ ascii "active:low" := fun e => absurd (e ▸ hl) (by decide)
    have n6 : w ≠ ascii "active:high" := fun e => absurd (e ▸ hl) (by decide)
    rw [if_neg n5, if_neg n6]
    obtain ⟨a, b, d, e, l, rfl⟩ : ∃ a b d e l, w = [a, b, d, e, l] := by
      match w, hl with
      | [a, b, d, e, l], _ => exact ⟨a, b, d, e, l, rfl⟩
    have t1 : [a, b, d, e, l].take 4 = [a, b, d, e] := rfl
    have t2 : [a, b, d, e, l].drop 4 = [l] := rfl
    have t3 : [a, b, d, e, l].getD 4 0 = l := rfl
    rw [t1, t2, t3]
    dsimp only
    rw [C06_hasPrefix _ _ (by decide), C06_hasPrefix _ _ (by decide)]
    have p1 : (ascii "min_" <+: [a, b, d, e, l]) ↔ [a, b, d, e] = ascii "min_" := by
      rw [List.prefix_iff_eq_take]; exact eq_comm
    have p2 : (ascii "max_" <+: [a, b, d, e, l]) ↔ [a, b, d, e] = ascii "max_" := by
      rw [List.prefix_iff_eq_take]; exact eq_comm
    rw [switchPin_succ]
    cases hx : letter2axis l with
    | none =>
      refine .inr ⟨fun s hs => ?_, rfl⟩
      split at hs
      · cases hs
      · split at hs <;> cases hs
    | some x =>
      dsimp only
      simp only [Option.some.injEq, decide_eq_true_eq, p1, p2]
      by_cases hm : [a, b, d, e] = ascii "min_"
      · simp only [hm, if_true]
        by_cases hc : c.switch i = 0
        · right
          simp only [hc, if_true]
          refine ⟨fun s hs => ?_, trivial⟩
          have := hs
          cases this
          exact fun hn => hn hc
        · left
          simp only [hc, if_false]
          refine ⟨.use (.min x), ?_, hc, rfl⟩
          rfl
      · simp only [hm, if_false]
        by_cases hM : [a, b, d, e] = ascii "max_"
        · simp only [hM, if_true]
          by_cases hc : c.switch i = 0
          · right
            simp only [hc, if_true]
            refine ⟨fun s hs => ?_, trivial⟩
            have := hs
            cases this
            exact fun hn => hn hc
          · left
            simp only [hc, if_false]
            refine ⟨.use (.max x), ?_, hc, rfl⟩
            rfl
        · right
          simp only [hM, if_false]
          refine ⟨fun s hs => (by cases hs), ?_⟩
          split <;> rfl
  · rw [if_neg hl]
    by_cases h5 : w = ascii "active:low"
    · rw [if_pos h5, if_pos h5]
      refine .inl ⟨_, rfl, trivial, ?_⟩
      simp only [SwitchWord.apply, Nat.add_sub_cancel, Fin.ext_iff]
    rw [if_neg h5, if_neg h5]
    by_cases h6 : w = ascii "active:high"
    · rw [if_pos h6, if_pos h6]
      refine .inl ⟨_, rfl, trivial, ?_⟩
      simp only [SwitchWord.apply, Nat.add_sub_cancel, Fin.ext_iff]
    rw [if_neg h6, if_neg h6]
    right
    refine ⟨fun s hs => ?_, rfl⟩
    exfalso
    split at hs
    · rename_i l hd
      have e1 : w.length = (w.take 4).length + (w.drop 4).length := by
        rw [← List.length_append, List.take_append_drop]
      rw [hd] at e1
      split at hs
      · rename_i ht; rw [ht] at e1; exact hl e1
      · split at hs
        · rename_i ht; rw [ht] at e1; exact hl e1
        · cases hs
    · cases hs

theorem forall₂_cons_exists {w : List Byte} {ws : List (List Byte)} {ss : List SwitchWord}
    (h : List.Forall₂ Means (w :: ws) ss) : ∃ s ss', ss = s :: ss' ∧ meaning w = some s ∧ List.Forall₂ Means ws ss' := by
  cases h with
  | cons a b => exact ⟨_, _, rfl, (means_iff _ _).1 a, b⟩

/-- What the reader does with the words of a switch. -/
theorem switchOptions_spec (c : Cape) (i : Fin 9) : ∀ (os : List (List Byte)) (h : Hw F),
    (∃ ss, List.Forall₂ Means ((os.map toLowerString).filter (· ≠ [])) ss ∧ (∀ s ∈ ss, s.ok c i) ∧
      switchOptions c (i.val + 1) h os = (true, ss.foldl (SwitchWord.apply i) h)) ∨
    ((∀ ss, List.Forall₂ Means ((os.map toLowerString).filter (· ≠ [])) ss → ¬∀ s ∈ ss, s.ok c i) ∧
      (switchOptions c (i.val + 1) h os).1 = false)
  | [], h => .inl ⟨[], .nil, fun s hs => (by cases hs), rfl⟩
  | o :: os, h => by
    rcases switchOption_spec c h i o with ⟨h1, h2⟩ | ⟨h0, ⟨s, h1, h2, h3⟩ | ⟨h1, h2⟩⟩
    · have hf : ((o :: os).map toLowerString).filter (· ≠ []) = (os.map toLowerString).filter (· ≠ []) := by
        rw [List.map_cons, List.filter_cons_of_neg (by simp [h1])]
      have he : switchOptions c (i.val + 1) h (o :: os) = switchOptions c (i.val + 1) h os := by
        rw [switchOptions, h2]; rfl
      rw [hf, he]
      exact switchOptions_spec c i os h
    · have hf : ((o :: os).map toLowerString).filter (· ≠ []) = toLowerString o :: (os.map toLowerString).filter (· ≠ []) := by
        rw [List.map_cons, List.filter_cons_of_pos (by simp [h0])]
      have he : switchOptions c (i.val + 1) h (o :: os) = switchOptions c (i.val + 1) (s.apply i h) os := by
        rw [switchOptions, h3]; rfl
      rw [hf, he]
      rcases switchOptions_spec c i os (s.apply i h) with ⟨ss, i1, i2, i3⟩ | ⟨i1, i2⟩
      · refine .inl ⟨s :: ss, .cons ((means_iff _ _).2 h1) i1, fun x hx => ?_, i3⟩
        rcases List.mem_cons.1 hx with rfl | hx
        · exact h2
        · exact i2 x hx
      · refine .inr ⟨fun ss hs ho => ?_, i2⟩
        obtain ⟨t, ts, rfl, _, ht⟩ := forall₂_cons_exists hs
        exact i1 ts ht fun x hx => ho x (by simp [hx])
    · have hf : ((o :: os).map toLowerString).filter (· ≠ []) = toLowerString o :: (os.map toLowerString).filter (· ≠ []) := by
        rw [List.map_cons, List.filter_cons_of_pos (by simp [h0])]
      rw [hf]
      refine .inr ⟨fun ss hs ho => ?_, ?_⟩
      · obtain ⟨t, ts, rfl, hm, ht⟩ := forall₂_cons_exists hs
        exact h1 t hm (ho t (by simp))
      · rw [switchOptions]
        simp [h2]

/-! ### Lines -/

theorem fin_of {n i : Nat} (h1 : 1 ≤ i) (h2 : i ≤ n) : ∃ k : Fin n, i = k.val + 1 := ⟨⟨i - 1, by omega⟩, by simp; omega⟩

theorem addAux_true (c : Cape) (h : Hw F) (o : Output) (i : Fin 16) : (addAuxMapping c h o ((i.val : Int) + 1)).2 = true :=
  (C39_aux_refused c h o _).1.2 (by omega)

theorem means_value {v : List Byte} {o o' : Output} (h : toLowerString v ∈ outputNames o) (h' : toLowerString v ∈ outputNames o') :
    o = o' := by
  have h1 := (C62_names v o).2 h
  have h2 := (C62_names v o').2 h'
  rw [h1] at h2
  exact Option.some.inj h2

theorem fin_inj {n : Nat} {pre name : List Byte} (hn : n ≤ 16) {i j : Fin n} (h : name = pre ++ decimal (i.val + 1))
    (h' : name = pre ++ decimal (j.val + 1)) : i = j := by
  have : decimal (i.val + 1) = decimal (j.val + 1) := List.append_cancel_left (h.symm.trans h')
  have := decimal_inj ⟨i.val + 1, by omega⟩ ⟨j.val + 1, by omega⟩ this
  rw [Fin.mk.injEq] at this
  exact Fin.ext (by omega)

theorem letter_minus : letter2axis 45 = none := by decide

/-- The section of a line. -/
def Line.section_ : Line → List Byte
  | .aux _ _ => ascii "aux-mapping"
  | .pwm _ _ => ascii "pwm-mapping"
  | .motor _ _ _ => ascii "motor-mapping"
  | .switch _ _ => ascii "switch-mapping"

theorem isLine_section {e : Entry} {l : Line} (h : IsLine e l) : e.section_ = l.section_ := by
  cases h <;> assumption

/-- A line says one thing. -/
theorem isLine_unique {e : Entry} {l l' : Line} (h : IsLine e l) (h' : IsLine e l') : l = l' := by
  have hsec := (isLine_section h).symm.trans (isLine_section h')
  cases h <;> cases h'
  case aux.aux i o s n v _ _ _ i' o' s' n' v' _ _ _ =>
    rw [fin_inj (by omega) n n', means_value v v']
  case pwm.pwm i o s n v i' o' s' n' v' => rw [fin_inj (by omega) n n', means_value v v']
  case motor.motor m a b f l t r s n hs hv hl m' a' b' f' l' t' r' s' n' hs' hv' hl' =>
    rw [hs] at hs'
    cases hs'
    rw [hv] at hv'
    have hv' := List.append_cancel_left hv'
    rw [fin_inj (by omega) n n']
    cases b <;> cases b'
    · simp only [Bool.false_eq_true, if_false, List.nil_append, List.cons.injEq] at hv'
      rw [hv'.1, hl'] at hl
      cases hl; rfl
    · simp only [Bool.false_eq_true, if_false, if_true, List.nil_append, List.cons.injEq, List.cons_append] at hv'
      rw [hv'.1, letter_minus] at hl; cases hl
    · simp only [Bool.false_eq_true, if_false, if_true, List.nil_append, List.cons.injEq, List.cons_append] at hv'
      rw [← hv'.1, letter_minus] at hl'; cases hl'
    · simp only [if_true, List.nil_append, List.cons.injEq, List.cons_append] at hv'
      rw [hv'.2.1, hl'] at hl
      cases hl; rfl
  case switch.switch i ws s n hw i' ws' s' n' hw' =>
    rw [fin_inj (by omega) n n', forall₂_unique hw hw']
  all_goals exact absurd hsec (by simp only [Line.section_]; decide)

/-- What the reader does with an auxiliary output. -/
theorem setAux_spec (c : Cape) (h : Hw F) (e : Entry) (i : Fin 16) (hs : e.section_ = ascii "aux-mapping")
    (hn : e.name = ascii "aux_" ++ decimal (i.val + 1)) :
    (∃ l, IsLine e l ∧ l.ok c h ∧ setAuxMapping c h (i.val + 1) e.value = (true, l.apply c h)) ∨
    ((∀ l, ¬IsLine e l) ∧ (setAuxMapping c h (i.val + 1) e.value).1 = false) := by
  have hno : ∀ {o}, IsLine e (.aux i o) → ∀ l, IsLine e l → l = .aux i o := fun h l hl => isLine_unique hl h
  unfold setAuxMapping
  cases ho : nameToOutput e.value with
  | none =>
    refine .inr ⟨fun l hl => ?_, rfl⟩
    have := isLine_section hl
    cases hl with
    | aux i o _ _ hv =>
      rw [← C62_names, ho] at hv; cases hv
    | _ => rw [hs] at this; exact absurd this (by simp only [Line.section_]; decide)
  | some o =>
    dsimp only
    have key : ∀ l, IsLine e l → l = .aux i o ∧ o ≠ .hotend ∧ o ≠ .heatedBed ∧ (o = .led ↔ i = 15) := by
      intro l hl
      have := isLine_section hl
      cases hl with
      | aux i' o' _ hn' hv h1 h2 h3 =>
        rw [← C62_names, ho] at hv
        cases hv
        have := fin_inj (by omega) hn' hn
        subst this
        exact ⟨rfl, h1, h2, h3⟩
      | _ => rw [hs] at this; exact absurd this (by simp only [Line.section_]; decide)
    have h15 : (i.val + 1 = 16) ↔ i = 15 := by
      constructor
      · intro h; exact Fin.ext (show i.val = 15 by omega)
      · rintro rfl; rfl
    by_cases h1 : o = .hotend ∨ o = .heatedBed
    · rw [if_pos h1]
      refine .inr ⟨fun l hl => ?_, rfl⟩
      obtain ⟨_, k1, k2, _⟩ := key l hl
      exact h1.elim k1 k2
    · rw [if_neg h1]
      by_cases h2 : i.val + 1 = 16 ∧ o ≠ .led
      · rw [if_pos h2]
        refine .inr ⟨fun l hl => ?_, rfl⟩
        exact h2.2 ((key l hl).2.2.2.2 (h15.1 h2.1))
      · rw [if_neg h2]
        by_cases h3 : o = .led ∧ i.val + 1 ≠ 16
        · rw [if_pos h3]
          refine .inr ⟨fun l hl => ?_, rfl⟩
          exact h3.2 (h15.2 ((key l hl).2.2.2.1 h3.1))
        · rw [if_neg h3]
          refine .inl ⟨.aux i o, ?_, trivial, ?_⟩
          · refine .aux e i o hs hn ((C62_names _ _).1 ho) (fun h => h1 (.inl h)) (fun h => h1 (.inr h)) ?_
            constructor
            · intro h; by_contra hc; exact h3 ⟨h, fun h => hc (h15.1 h)⟩
            · intro h; by_contra hc; exact h2 ⟨h15.2 h, hc⟩
          · have := addAux_true c h o i
            show Prod.swap (addAuxMapping c h o ((i.val + 1 : Nat) : Int)) = _
            rw [show ((i.val + 1 : Nat) : Int) = (i.val : Int) + 1 by omega]
            exact Prod.ext this rfl

/-- What the reader does with a PWM output. -/
theorem setPwm_spec (c : Cape) (h : Hw F) (e : Entry) (i : Fin 4) (hs : e.section_ = ascii "pwm-mapping")
    (hn : e.name = ascii "pwm_" ++ decimal (i.val + 1)) :
    (∃ l, IsLine e l ∧ l.ok c h ∧ setPwmMapping c h (i.val + 1) e.value = (true, l.apply c h)) ∨
    ((∀ l, IsLine e l → ¬l.ok c h) ∧ (setPwmMapping c h (i.val + 1) e.value).1 = false) := by
  unfold setPwmMapping
  cases ho : nameToOutput e.value with
  | none =>
    refine .inr ⟨fun l hl => ?_, rfl⟩
    have := isLine_section hl
    cases hl with
    | pwm i o _ _ hv =>
      rw [← C62_names, ho] at hv; cases hv
    | _ => rw [hs] at this; exact absurd this (by simp only [Line.section_]; decide)
  | some o =>
    dsimp only
    have hl : IsLine e (.pwm i o) := .pwm e i o hs hn ((C62_names _ _).1 ho)
    rw [show ((i.val + 1 : Nat) : Int) = (i.val : Int) + 1 by omega]
    have hp := (C39_pwm_mapping c h o ((i.val : Int) + 1)).1
    by_cases hk : h.pwmOf o = 0
    · refine .inl ⟨_, hl, hk, Prod.ext (hp.2 (.inr ⟨by omega, by omega, hk⟩)) rfl⟩
    · refine .inr ⟨fun l' hl' => ?_, ?_⟩
      · rw [isLine_unique hl' hl]; exact hk
      · show (addPwmMapping c h o ((i.val : Int) + 1)).2 = false
        rw [Bool.eq_false_iff]
        intro hc
        rcases hp.1 hc with h0 | h0
        · omega
        · exact hk h0.2.2

/-- What the reader does with a motor. -/
theorem setMotor_spec (c : Cape) (h : Hw F) (e : Entry) (m : Motor) (hs : e.section_ = ascii "motor-mapping")
    (hn : e.name = ascii "motor_" ++ decimal (m.val + 1)) :
    (∃ l, IsLine e l ∧ l.ok c h ∧ setMotorAxis h (m.val + 1) e.value = (true, l.apply c h)) ∨
    ((∀ l, IsLine e l → ¬l.ok c h) ∧ (setMotorAxis h (m.val + 1) e.value).1 = false) := by
  have hsec : ∀ l, IsLine e l → ∃ (first : List Byte) (letter : Byte) (tail : List Byte) (rest : List (List Byte)) (a : Axis) (b : Bool), splitString e.value separators = first :: rest ∧
      toLowerString first = ascii "axis:" ++ ((if b then [45] else []) ++ letter :: tail) ∧ letter2axis letter = some a := by
    intro l hl
    have := isLine_section hl
    cases hl with
    | motor m a b first letter tail rest _ _ h1 h2 h3 => exact ⟨first, letter, tail, rest, a, b, h1, h2, h3⟩
    | _ => rw [hs] at this; exact absurd this (by simp only [Line.section_]; decide)
  have hmap : ∀ a b, IsLine e (.motor m a b) →
      (∃ l, IsLine e l ∧ l.ok c h ∧ (addMotorMapping h a ((m.val + 1 : Nat) : Int) b).swap = (true, l.apply c h)) ∨
      ((∀ l, IsLine e l → ¬l.ok c h) ∧ ((addMotorMapping h a ((m.val + 1 : Nat) : Int) b).swap).1 = false) := by
    intro a b hl
    rw [show ((m.val + 1 : Nat) : Int) = (m.val : Int) + 1 by omega]
    have hr := (C40_refused h a ((m.val : Int) + 1) b).1
    by_cases hk : h.driverFlip m = 0
    · refine .inl ⟨_, hl, hk, Prod.ext ?_ rfl⟩
      show (addMotorMapping h a ((m.val : Int) + 1) b).2 = true
      by_contra hc
      rcases hr.1 (by simpa using hc) with h0 | h0 | ⟨m', h0, h1⟩
      · omega
      · omega
      · have : m' = m := Fin.ext (by omega)
        rw [this] at h1; exact h1 hk
    · refine .inr ⟨fun l' hl' => ?_, hr.2 (.inr (.inr ⟨m, rfl, hk⟩))⟩
      rw [isLine_unique hl' hl]; exact hk
  unfold setMotorAxis
  cases hsp : splitString e.value separators with
  | nil =>
    have := (C06_split e.value separators).1
    rw [hsp] at this; simp at this
  | cons first rest =>
    dsimp only
    rw [C06_hasPrefix _ _ (by decide)]
    by_cases hp : ascii "axis:" <+: toLowerString first
    · rw [if_pos (by rw [decide_eq_true hp])]
      obtain ⟨t, ht⟩ := hp
      have hd : (toLowerString first).drop 5 = t := by rw [← ht]; rfl
      rw [hd]
      have hbad : (∀ letter tail b a, t = (if b = true then [45] else []) ++ letter :: tail → letter2axis letter ≠ some a) →
          ∀ l, IsLine e l → ¬l.ok c h := by
        intro hb l hl
        obtain ⟨f, x, tl, r, a, b, h1, h2, h3⟩ := hsec l hl
        rw [hsp] at h1
        cases h1
        rw [← ht] at h2
        exact absurd h3 (hb x tl b a (List.append_cancel_left h2))
      cases t with
      | nil =>
        refine .inr ⟨hbad ?_, rfl⟩
        intro x tl b a h1; cases b <;> simp at h1
      | cons d t =>
        dsimp only
        by_cases hm : d = 45
        · subst hm
          simp only [if_true, decide_true]
          cases t with
          | nil =>
            refine .inr ⟨hbad ?_, rfl⟩
            intro x tl b a h1
            cases b
            · simp at h1; rw [← h1.1, letter_minus]; simp
            · simp at h1
          | cons x t =>
            dsimp only
            cases hx : letter2axis x with
            | none =>
              refine .inr ⟨hbad ?_, rfl⟩
              intro y tl b a h1
              cases b
              · simp at h1; rw [← h1.1, letter_minus]; simp
              · simp at h1; rw [← h1.1, hx]; simp
            | some a =>
              exact hmap a true (.motor e m a true first x t rest hs hn hsp (by rw [← ht]; rfl) hx)
        · simp only [hm, if_false, decide_false]
          cases hx : letter2axis d with
          | none =>
            refine .inr ⟨hbad ?_, rfl⟩
            intro y tl b a h1
            cases b
            · simp at h1; rw [← h1.1, hx]; simp
            · simp at h1; exact absurd h1.1 hm
          | some a =>
            exact hmap a false (.motor e m a false first d t rest hs hn hsp (by rw [← ht]; rfl) hx)
    · rw [if_neg (by rw [decide_eq_false hp]; simp)]
      refine .inr ⟨fun l hl => ?_, rfl⟩
      obtain ⟨f, x, tl, r, a, b, h1, h2, h3⟩ := hsec l hl
      rw [hsp] at h1
      cases h1
      exact absurd ⟨_, h2.symm⟩ hp

/-- What the reader does with a switch. -/
theorem setSwitch_spec (c : Cape) (h : Hw F) (e : Entry) (i : Fin 9) (hs : e.section_ = ascii "switch-mapping")
    (hn : e.name = ascii "switch_" ++ decimal (i.val + 1)) :
    (∃ l, IsLine e l ∧ l.ok c h ∧ setSwitchOptions c h (i.val + 1) e.value = (true, l.apply c h)) ∨
    ((∀ l, IsLine e l → ¬l.ok c h) ∧ (setSwitchOptions c h (i.val + 1) e.value).1 = false) := by
  unfold setSwitchOptions
  rcases switchOptions_spec c i (splitString e.value separators) h with ⟨ss, h1, h2, h3⟩ | ⟨h1, h2⟩
  · exact .inl ⟨.switch i ss, .switch e i ss hs hn h1, h2, h3⟩
  · refine .inr ⟨fun l hl => ?_, h2⟩
    have := isLine_section hl
    cases hl with
    | switch i' ss _ hn' hw =>
      have := fin_inj (by omega) hn' hn
      subst this
      exact h1 ss hw
    | _ => rw [hs] at this; exact absurd this (by simp only [Line.section_]; decide)

/-- What the reader does with a pair. -/
def hardwareOption (c : Cape) (h : Hw F) (e : Entry) : Bool × Hw F := hwOption c h e.section_ e.name e.value

/-- **C62, lines**: a line is accepted if and only if it is one of those that may be written and does not contradict what
was configured before: a motor belongs to one axis, an output has one PWM timer, and a switch that limits an axis is
connected. Then it does what it says. -/
theorem C62_line (c : Cape) (h : Hw F) (e : Entry) :
    (∃ l, IsLine e l ∧ l.ok c h ∧ hardwareOption c h e = (true, l.apply c h)) ∨
    ((∀ l, IsLine e l → ¬l.ok c h) ∧ (hardwareOption c h e).1 = false) := by
  unfold hardwareOption hwOption
  by_cases h1 : e.section_ = ascii "aux-mapping"
  · rw [if_pos h1]
    cases hc : connector (ascii "aux_") 16 e.name with
    | some i =>
      obtain ⟨k1, k2, k3⟩ := connector_some hc
      obtain ⟨k, rfl⟩ := fin_of k1 k2
      rcases setAux_spec c h e k h1 k3 with h | ⟨h2, h3⟩
      · exact .inl h
      · exact .inr ⟨fun l hl => absurd hl (h2 l), h3⟩
    | none =>
      refine .inr ⟨fun l hl => ?_, rfl⟩
      have := isLine_section hl
      cases hl with
      | aux i o _ hn => exact absurd hn (connector_none hc (by omega) (by omega))
      | _ => rw [h1] at this; exact absurd this (by simp only [Line.section_]; decide)
  rw [if_neg h1]
  by_cases h2 : e.section_ = ascii "pwm-mapping"
  · rw [if_pos h2]
    cases hc : connector (ascii "pwm_") 4 e.name with
    | some i =>
      obtain ⟨k1, k2, k3⟩ := connector_some hc
      obtain ⟨k, rfl⟩ := fin_of k1 k2
      exact setPwm_spec c h e k h2 k3
    | none =>
      refine .inr ⟨fun l hl => ?_, rfl⟩
      have := isLine_section hl
      cases hl with
      | pwm i o _ hn => exact absurd hn (connector_none hc (by omega) (by omega))
      | _ => rw [h2] at this; exact absurd this (by simp only [Line.section_]; decide)
  rw [if_neg h2]
  by_cases h3 : e.section_ = ascii "motor-mapping"
  · rw [if_pos h3]
    cases hc : connector (ascii "motor_") 8 e.name with
    | some i =>
      obtain ⟨k1, k2, k3⟩ := connector_some hc
      obtain ⟨k, rfl⟩ := fin_of k1 k2
      exact setMotor_spec c h e k h3 k3
    | none =>
      refine .inr ⟨fun l hl => ?_, rfl⟩
      have := isLine_section hl
      cases hl with
      | motor m a b _ _ _ _ _ hn => exact absurd hn (connector_none hc (by omega) (by omega))
      | _ => rw [h3] at this; exact absurd this (by simp only [Line.section_]; decide)
  rw [if_neg h3]
  by_cases h4 : e.section_ = ascii "switch-mapping"
  · rw [if_pos h4]
    cases hc : connector (ascii "switch_") 9 e.name with
    | some i =>
      obtain ⟨k1, k2, k3⟩ := connector_some hc
      obtain ⟨k, rfl⟩ := fin_of k1 k2
      exact setSwitch_spec c h e k h4 k3
    | none =>
      refine .inr ⟨fun l hl => ?_, rfl⟩
      have := isLine_section hl
      cases hl with
      | switch m a _ hn => exact absurd hn (connector_none hc (by omega) (by omega))
      | _ => rw [h4] at this; exact absurd this (by simp only [Line.section_]; decide)
  rw [if_neg h4]
  refine .inr ⟨fun l hl => ?_, rfl⟩
  have := isLine_section hl
  cases l
  · exact absurd this h1
  · exact absurd this h2
  · exact absurd this h3
  · exact absurd this h4

end BeagleG.Setup
