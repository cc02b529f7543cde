import Verif.Parser.Steps
import Verif.Parser.Example
import Verif.Text.StringProps
/-!
# The parser: parameters (C10), and staying within the text (C18)
-/
namespace BeagleG.Parser
open Text Expr

variable {F : Type} {fl : Num F} {rc : Receiver F}

/-- Two names of one parameter: surrounding white space and case do not matter. -/
def SameName (a b : List Byte) : Prop := toLowerString (trimWhitespace a) = toLowerString (trimWhitespace b)

instance (a b : List Byte) : Decidable (SameName a b) := by unfold SameName; infer_instance

/-- A parameter a program can write: not 0, and no number from 5400 on. -/
def Writable (name : List Byte) : Prop :=
  trimWhitespace name ≠ [48] ∧ ¬ 5400 ≤ parseInt64 (trimWhitespace name) 0

instance (a : List Byte) : Decidable (Writable a) := by unfold Writable; infer_instance

theorem writable_iff (name : List Byte) : Writable name ↔ unsupported (trimWhitespace name) = false := by
  unfold Writable unsupported
  rw [Bool.or_eq_false_iff]
  simp only [decide_eq_false_iff_not, ne_eq]

/-- What a history of writes, the newest first, has left in a parameter. -/
def lastWrite (name : List Byte) : List (List Byte × F) → Option F
  | [] => none
  | (n, v) :: ws => if SameName n name ∧ Writable n then some v else lastWrite name ws

/-- A history of assignments. -/
def storeAll (st : State F) : List (List Byte × F) → State F
  | [] => st
  | (n, v) :: ws => storeParameter (storeAll st ws) n v

theorem lower_facts (c : Byte) : isSpace (toLower c) = isSpace c ∧ isDigit (toLower c) = isDigit c ∧
    (isDigit c = true → toLower c = c) ∧ (toLower c = 43 ↔ c = 43) ∧ (toLower c = 45 ↔ c = 45) ∧
    (toLower c = 48 ↔ c = 48) ∧ letterAxis (toLower c) = letterAxis c := by
  have h : ∀ n : Fin 256, isSpace (toLower (UInt8.ofNat n.val)) = isSpace (UInt8.ofNat n.val) ∧
      isDigit (toLower (UInt8.ofNat n.val)) = isDigit (UInt8.ofNat n.val) ∧
      (isDigit (UInt8.ofNat n.val) = true → toLower (UInt8.ofNat n.val) = UInt8.ofNat n.val) ∧
      (toLower (UInt8.ofNat n.val) = 43 ↔ UInt8.ofNat n.val = 43) ∧
      (toLower (UInt8.ofNat n.val) = 45 ↔ UInt8.ofNat n.val = 45) ∧
      (toLower (UInt8.ofNat n.val) = 48 ↔ UInt8.ofNat n.val = 48) ∧
      letterAxis (toLower (UInt8.ofNat n.val)) = letterAxis (UInt8.ofNat n.val) := by decide +kernel
  have := h ⟨c.toNat, c.toNat_lt⟩
  simpa only [UInt8.ofNat_toNat] using this

theorem readParameter_key (st : State F) (name : List Byte) : readParameter fl st name =
    match st.params with
    | none => (fl.zero, false)
    | some p =>
      match p (toLowerString (trimWhitespace name)) with
      | some v => (v, true)
      | none =>
        match toLowerString (trimWhitespace name) with
        | [c] =>
          match letterAxis c with
          | some a => (st.pos a, true)
          | none => (fl.zero, false)
        | _ => (fl.zero, false) := by
  unfold readParameter
  cases st.params with
  | none => rfl
  | some p =>
    simp only
    cases p (toLowerString (trimWhitespace name)) with
    | some v => rfl
    | none =>
      simp only
      rcases trimWhitespace name with _ | ⟨c, _ | ⟨d, l⟩⟩
      · rfl
      · simp only [toLowerString, List.map_cons, List.map_nil, (lower_facts c).2.2.2.2.2.2]
        cases letterAxis c <;> rfl
      · rfl

/-- Names are case-insensitive. -/
theorem C10_case_insensitive (st : State F) {a b : List Byte} (h : SameName a b) :
    readParameter fl st a = readParameter fl st b := by
  rw [readParameter_key, readParameter_key, h]

/-- **Reading after writing.** -/
theorem C10_store_read (st : State F) (hp : st.params ≠ none) (name : List Byte) (v : F) (other : List Byte)
    (hw : Writable name) : readParameter fl (storeParameter st name v) other =
      if SameName name other then (v, true) else readParameter fl st other := by
  cases hpp : st.params with
  | none => exact absurd hpp hp
  | some p =>
    rw [readParameter_key]
    simp only [storeParameter, hpp, (writable_iff name).1 hw, Bool.false_eq_true, if_false]
    by_cases h : SameName name other
    · rw [if_pos h, if_pos h.symm]
    · rw [if_neg h, if_neg (fun e => h e.symm), readParameter_key, hpp]

/-- **Parameter 0 and parameters from 5400 on are refused with an error**, and nothing else happens. -/
theorem C10_refused (st : State F) (hp : st.params ≠ none) (name : List Byte) (v : F) (hw : ¬ Writable name) :
    storeParameter st name v = st.say .error := by
  cases hpp : st.params with
  | none => exact absurd hpp hp
  | some p =>
    have : unsupported (trimWhitespace name) = true := by
      by_contra h
      exact hw ((writable_iff name).2 (by simpa using h))
    simp only [storeParameter, hpp, this, if_true]

theorem storeAll_params (st : State F) (hp : st.params ≠ none) : ∀ ws, (storeAll st ws).params ≠ none
  | [] => hp
  | (n, v) :: ws => by
    have ih := storeAll_params st hp ws
    simp only [storeAll, storeParameter]
    split
    · exact ih
    · split
      · exact ih
      · simp

theorem storeAll_pos (st : State F) : ∀ ws, (storeAll st ws).pos = st.pos
  | [] => rfl
  | (n, v) :: ws => by
    simp only [storeAll]
    rw [storeParameter_eq]
    exact storeAll_pos st ws

/-- **Every history of writes**: a read returns what the last successful write to that parameter stored; a
parameter that was not written reads as before the history. -/
theorem C10_history (st : State F) (hp : st.params ≠ none) (name : List Byte) : ∀ ws : List (List Byte × F),
    readParameter fl (storeAll st ws) name =
      match lastWrite name ws with
      | some v => (v, true)
      | none => readParameter fl st name
  | [] => rfl
  | (n, v) :: ws => by
    have ih := C10_history st hp name ws
    have hp' := storeAll_params st hp ws
    simp only [storeAll, lastWrite]
    by_cases hw : Writable n
    · rw [C10_store_read _ hp' _ _ _ hw]
      by_cases h : SameName n name
      · simp only [if_pos h, if_pos (And.intro h hw)]
      · simp only [if_neg h, if_neg (fun x : SameName n name ∧ Writable n => h x.1)]
        exact ih
    · rw [C10_refused _ hp' _ _ hw, if_neg (fun x => hw x.2), ← ih]
      rw [readParameter_key, readParameter_key]
      rfl

/-- A parameter that is not set and whose name is the letter of an axis reads as the position of that axis. -/
theorem C10_axis_letter (st : State F) (p : List Byte → Option F) (hp : st.params = some p) (name : List Byte) (c : Byte)
    (a : Axis) (hc : trimWhitespace name = [c]) (ha : letterAxis c = some a)
    (hn : p (toLowerString (trimWhitespace name)) = none) : readParameter fl st name = (st.pos a, true) := by
  unfold readParameter
  rw [hc] at hn
  simp only [hp, hc, hn, ha]

/-- Otherwise a parameter that is not set reads as 0. -/
theorem C10_unset (st : State F) (p : List Byte → Option F) (hp : st.params = some p) (name : List Byte)
    (hn : p (toLowerString (trimWhitespace name)) = none)
    (ha : ∀ c, trimWhitespace name = [c] → letterAxis c = none) : lookup fl st name = fl.zero := by
  unfold lookup readParameter
  simp only [hp, hn]
  rcases h : trimWhitespace name with _ | ⟨c, _ | ⟨d, l⟩⟩
  · rfl
  · simp only [ha c h]
  · rfl

/-! ### All programs -/

theorem takeDigits_lower (l : List Byte) : takeDigits (toLowerString l) = takeDigits l := by
  induction l with
  | nil => rfl
  | cons c cs ih =>
    obtain ⟨_, h2, h3, _⟩ := lower_facts c
    simp only [toLowerString, List.map_cons, takeDigits, h2]
    split
    · rename_i hd
      rw [h3 hd]
      exact congrArg _ ih
    · rfl

theorem skipWhite_lower (l : List Byte) : skipWhite (toLowerString l) = toLowerString (skipWhite l) := by
  induction l with
  | nil => rfl
  | cons c cs ih =>
    obtain ⟨h1, _⟩ := lower_facts c
    simp only [toLowerString, List.map_cons, skipWhite, h1]
    split
    · exact ih
    · rfl

theorem fromChars64_lower (l : List Byte) : fromChars64 (toLowerString l) = fromChars64 l := by
  cases l with
  | nil => rfl
  | cons c cs =>
    have h1 := takeDigits_lower cs
    have h2 := takeDigits_lower (c :: cs)
    have h3 := (lower_facts c).2.2.2.2.1
    simp only [toLowerString, List.map_cons] at h1 h2 ⊢
    simp only [fromChars64]
    rw [h2, h1]
    by_cases hc : c = 45
    · rw [if_pos (h3.2 hc), if_pos hc]
    · rw [if_neg (fun e => hc (h3.1 e)), if_neg hc]

theorem parseInt64_lower (l : List Byte) (d : Int) : parseInt64 (toLowerString l) d = parseInt64 l d := by
  unfold parseInt64
  simp only
  rw [skipWhite_lower]
  have hh : ((toLowerString (skipWhite l)).head? = some 43) ↔ ((skipWhite l).head? = some 43) := by
    cases skipWhite l with
    | nil => rfl
    | cons c cs => simp [toLowerString, (lower_facts c).2.2.2.1]
  have ht : (toLowerString (skipWhite l)).tail = toLowerString (skipWhite l).tail := by
    cases skipWhite l <;> rfl
  by_cases h : (skipWhite l).head? = some 43
  · rw [if_pos h, if_pos (hh.2 h), ht, fromChars64_lower]
  · rw [if_neg h, if_neg (fun e => h (hh.1 e)), fromChars64_lower]

theorem unsupported_lower (l : List Byte) : unsupported (toLowerString l) = unsupported l := by
  unfold unsupported
  rw [parseInt64_lower]
  congr 1
  rw [decide_eq_decide]
  constructor
  · intro h
    rcases l with _ | ⟨c, _ | ⟨d, l⟩⟩
    · simp [toLowerString] at h
    · simp only [toLowerString, List.map_cons, List.map_nil, List.cons.injEq, and_true] at h
      rw [(lower_facts c).2.2.2.2.2.1.1 h]
    · simp [toLowerString] at h
  · rintro rfl
    decide

/-- The parameter memory has no value for parameters that cannot be written. -/
def Clear (st : State F) : Prop := ∀ p, st.params = some p → ∀ k, unsupported k = true → p k = none

theorem Clear.store {st : State F} (h : Clear st) (name : List Byte) (v : F) : Clear (storeParameter st name v) := by
  unfold storeParameter
  cases hp : st.params with
  | none => exact h
  | some p =>
    simp only
    split
    · exact h
    · rename_i hu
      intro q hq k hk
      simp only [Option.some.injEq] at hq
      subst hq
      have hne : k ≠ toLowerString (trimWhitespace name) := by
        rintro rfl
        rw [unsupported_lower] at hk
        exact hu hk
      simp only [if_neg hne]
      exact h p hp k hk

theorem Clear.quiet {st st' : State F} (h : Quiet fl st st') (hc : Clear st) : Clear st' := by
  induction h with
  | refl => exact hc
  | store name v _ ih => exact ih.store name v
  | error _ ih => exact ih
  | done _ _ ih => exact ih

theorem whileStart_params (st : State F) (l : List Byte) : (whileStart st l).params = st.params := by
  unfold whileStart
  split <;> rfl

theorem interleave_mem : ∀ (ps : List (List Byte)) (seps : List Byte) {p : List Byte} {c : Byte}, p ∈ ps → c ∈ p →
    c ∈ interleave ps seps
  | [], _, _, _, h, _ => by cases h
  | q :: ps, [], p, c, h, hc => by
    simp only [interleave, List.mem_append]
    rcases List.mem_cons.1 h with rfl | h
    · exact Or.inl hc
    · exact Or.inr (interleave_mem ps [] h hc)
  | q :: ps, d :: ds, p, c, h, hc => by
    simp only [interleave, List.mem_append, List.mem_cons]
    rcases List.mem_cons.1 h with rfl | h
    · exact Or.inl hc
    · exact Or.inr (Or.inr (interleave_mem ps ds h hc))

/-- The texts without NUL, and any fault. -/
theorem clean_safer : Safer fl (fun _ => True) Clean where
  clean _ h := h
  suffix _ _ h hs := h.suffix hs
  stack _ _ _ := trivial
  comment _ _ _ _ := trivial
  printf _ _ _ := trivial
  nil := by intro c hc; cases hc
  append a b ha hb := by
    intro c hc
    rcases List.mem_append.1 hc with h | h
    · exact ha c h
    · exact hb c h
  pieces l hl p hp := by
    intro c hc
    obtain ⟨-, -, h⟩ := C06_split l [10]
    refine hl c ?_
    rw [← h]
    exact interleave_mem _ _ hp hc
  dangling := trivial

theorem startProgram_params (st : State F) : (startProgram st).params = st.params := by
  unfold startProgram
  split <;> rfl

/-- **Parameter 0 and the numbers from 5400 on keep reading 0**, whatever a program does (provided a parameter
file that it loads does not contain them). -/
theorem C10_reserved_never_written (hfl : fl.toFloat_.Ok) (n : Nat) (lines : List (List Byte)) (st st' : State F)
    (hlines : ∀ l ∈ lines, Clean l) (hx : Texts Clean st) (hc : Clear st)
    (hload : ∀ log p, (∀ k, unsupported k = true → p k = none) → ∀ k, unsupported k = true → rc.load log p k = none)
    (hrun : runLines fl rc n st lines = .ok st') : Clear st' := by
  have h := (runLines_steps (rc := rc) hfl clean_safer n lines st hlines hx).ok hrun
  refine h.induct (I := Clear) ?_ (fun a ha p hp => ha p (startProgram_params a ▸ hp)) (fun a ha => ha) hc
  intro a b ha m
  cases m with
  | quiet q => exact Clear.quiet q ha
  | start => intro p hp; rw [whileStart_params] at hp; exact ha p hp
  | modal h => intro p hp; rw [h.rest.params] at hp; exact ha p hp
  | shift _ h _ => intro p hp; rw [show (informOrigin fl _ _).params = _ from h.params] at hp; exact ha p hp
  | load =>
    intro p hp k hk
    simp only [loadParams] at hp
    cases hq : a.params with
    | none => simp [hq, State.say] at hp
    | some q =>
      simp only [State.say, hq, Option.map_some, Option.some.injEq] at hp
      subst hp
      exact hload _ _ (ha q hq) k hk
  | curve => rw [moves_eq]; exact ha
  | curveRefused => rw [moves_eq]; exact ha
  | _ => exact ha

theorem storeAll_append (st : State F) (a b : List (List Byte × F)) :
    storeAll st (a ++ b) = storeAll (storeAll st b) a := by
  induction a with
  | nil => rfl
  | cons x a ih => simp only [List.cons_append, storeAll, ih]

theorem storeParameter_params {a b : State F} (h : a.params = b.params) (name : List Byte) (v : F) :
    (storeParameter a name v).params = (storeParameter b name v).params := by
  unfold storeParameter
  rw [h]
  cases b.params with
  | none => exact h
  | some p =>
    simp only
    split
    · exact h
    · rfl

/-- **The parameter memory is at any time the result of a history of writes** (of a program that does not load
a parameter file): with `C10_history`, a parameter reads as the last value successfully stored in it. -/
theorem C10_program (hfl : fl.toFloat_.Ok) (n : Nat) (lines : List (List Byte)) (st st' : State F)
    (hlines : ∀ l ∈ lines, Clean l) (hx : Texts Clean st) (hload : ∀ log p, rc.load log p = p)
    (hrun : runLines fl rc n st lines = .ok st') : ∃ ws, st'.params = (storeAll st ws).params := by
  have h := (runLines_steps (rc := rc) hfl clean_safer n lines st hlines hx).ok hrun
  refine h.induct (I := fun s => ∃ ws, s.params = (storeAll st ws).params) ?_ (fun a ha => startProgram_params a ▸ ha)
    (fun a ha => ha) ⟨[], rfl⟩
  intro a b ha m
  cases m with
  | quiet q =>
    induction q with
    | refl => exact ha
    | store name v _ ih =>
      obtain ⟨ws, h⟩ := ih
      exact ⟨(name, v) :: ws, storeParameter_params h name v⟩
    | error _ ih => exact ih
    | done _ _ ih => exact ih
  | start => rw [whileStart_params]; exact ha
  | modal h => rw [h.rest.params]; exact ha
  | shift _ h _ => rw [show (informOrigin fl _ _).params = _ from h.params]; exact ha
  | load =>
    obtain ⟨ws, h⟩ := ha
    refine ⟨ws, ?_⟩
    rw [← h]
    simp only [loadParams, State.say]
    cases a.params with
    | none => rfl
    | some p => simp [hload]
  | curve => rw [moves_eq]; exact ha
  | curveRefused => rw [moves_eq]; exact ha
  | _ => exact ha

/-- **An assignment** `#name = value` stores the value under the name, with the parameters as they were before. -/
theorem C10_assignment (st : State F) {line l rest name : List Byte} {v : F}
    (hn : readParamName fl.toFloat_ (valueOf fl.toFloat_ (lookup fl st)) line = .ok name (61 :: l))
    (hv : valueOf fl.toFloat_ (lookup fl st) (skipWhite l) = .ok v rest) (hq : rest.head? ≠ some 63) :
    setParameter fl st line = .ok ((storeParameter st name v).say (.commandDone 35 v), some rest) := by
  have h1 : after2 43 43 (61 :: l) = none := by cases l <;> simp [after2]
  have h2 : after2 45 45 (61 :: l) = none := by cases l <;> simp [after2]
  have h3 : assignOp (61 :: l) = some (NO_OPERATION, l) := by
    cases l <;> simp [assignOp, after2, after1]
  have h4 : after1 63 rest = none := by
    cases rest with
    | nil => rfl
    | cons c cs =>
      have : c ≠ 63 := by simpa using hq
      simp [after1, this]
  simp [setParameter, hn, fromRes, assignName, h1, h2, h3, hv, assignValue, h4, assign]

/-- **An assignment with a choice** `#name = condition ? yes : no` stores the first value if the condition is not 0
and the second one otherwise. -/
theorem C10_choice (st : State F) {line l rest1 rest2 rest3 name : List Byte} {c yes no : F}
    (hn : readParamName fl.toFloat_ (valueOf fl.toFloat_ (lookup fl st)) line = .ok name (61 :: l))
    (hc : valueOf fl.toFloat_ (lookup fl st) (skipWhite l) = .ok c (63 :: rest1))
    (hyes : valueOf fl.toFloat_ (lookup fl st) (skipWhite rest1) = .ok yes (58 :: rest2))
    (hno : valueOf fl.toFloat_ (lookup fl st) (skipWhite rest2) = .ok no rest3) :
    setParameter fl st line = .ok ((storeParameter st name (if fl.eq c fl.zero then no else yes)).say
      (.commandDone 35 (if fl.eq c fl.zero then no else yes)), some rest3) := by
  have h1 : after2 43 43 (61 :: l) = none := by cases l <;> simp [after2]
  have h2 : after2 45 45 (61 :: l) = none := by cases l <;> simp [after2]
  have h3 : assignOp (61 :: l) = some (NO_OPERATION, l) := by
    cases l <;> simp [assignOp, after2, after1]
  have h4 : after1 63 (63 :: rest1) = some rest1 := by simp [after1]
  have h5 : after1 58 (58 :: rest2) = some rest2 := by simp [after1]
  cases he : fl.eq c fl.zero <;>
    simp [setParameter, hn, fromRes, assignName, h1, h2, h3, hc, assignValue, h4, ternary, hyes, h5, hno, he, assign]

/-- **An assignment with an operation**, `#name += value` and the like, stores the value that the parameter had
before, combined with the value on the right. -/
theorem C10_compound (st : State F) {line l rest name : List Byte} {op : Nat} {sign : Byte} {v w : F}
    (hop : (sign, op) ∈ [((43 : Byte), PLUS), (45, MINUS), (42, TIMES), (47, DIVIDED_BY)])
    (hn : readParamName fl.toFloat_ (valueOf fl.toFloat_ (lookup fl st)) line = .ok name (sign :: 61 :: l))
    (hv : valueOf fl.toFloat_ (lookup fl st) (skipWhite l) = .ok v rest)
    (hw : executeBinary fl.toFloat_ (lookup fl st name) op v = some w) :
    setParameter fl st line = .ok ((storeParameter st name w).say (.commandDone 35 w), some rest) := by
  simp only [List.mem_cons, Prod.mk.injEq, List.not_mem_nil, or_false] at hop
  rcases hop with ⟨rfl, rfl⟩ | ⟨rfl, rfl⟩ | ⟨rfl, rfl⟩ | ⟨rfl, rfl⟩ <;>
    simp_all [setParameter, fromRes, assignName, after2, assignOp, assignValue, assign]

/-- The operations of `C10_compound`. -/
theorem C10_operations (a b : F) : executeBinary fl.toFloat_ a PLUS b = some (fl.add a b) ∧
    executeBinary fl.toFloat_ a MINUS b = some (fl.sub a b) ∧
    executeBinary fl.toFloat_ a TIMES b = some (fl.mul a b) ∧
    executeBinary fl.toFloat_ a DIVIDED_BY b = if fl.eq b fl.zero then none else some (fl.div a b) :=
  ⟨rfl, rfl, rfl, rfl⟩

/-- `#name++` adds one to a parameter, `#name--` subtracts one. -/
theorem C10_increment (st : State F) {line l name : List Byte} (down : Bool)
    (hn : readParamName fl.toFloat_ (valueOf fl.toFloat_ (lookup fl st)) line =
      .ok name (if down then 45 :: 45 :: l else 43 :: 43 :: l)) :
    setParameter fl st line = .ok (storeParameter st name (if down then fl.sub (lookup fl st name) fl.one
      else fl.add (lookup fl st name) fl.one), some (skipWhite l)) := by
  cases down <;> simp_all [setParameter, fromRes, assignName, after2]

/-- Non-vacuity: after `#1=7`, `#<Abc> = 2` and `#<_ABC>=#1` the parameters `1` and `abc` have values 7
and 2, and `0` and `5400` could not be written. -/
example : ∃ st, runLines exNum (exReceiver true) 0 exState
      [text "#1=7", text "#<Abc> = 2 #<_ABC>=#1", text "#0=5", text "#5400=5"] = .ok st ∧
    lookup exNum st (text "1") = 7 ∧ lookup exNum st (text "aBC") = 2 ∧ lookup exNum st (text "_abc") = 7 ∧
    lookup exNum st (text "0") = 0 ∧ lookup exNum st (text "5400") = 0 ∧ lookup exNum st (text "x") = 0 :=
  ⟨_, rfl, by decide +kernel⟩

/-! ### Staying within the text -/

/-- Every comment that is opened is closed. -/
def Closed (l : List Byte) : Prop := ∀ a b, l = a ++ 40 :: b → (41 : Byte) ∈ b

/-- A line as it comes from the line reader (C02), with all comments closed. -/
def Plain (l : List Byte) : Prop := Clean l ∧ (∀ c ∈ l, c ≠ 10) ∧ Closed l

theorem Closed.suffix {l r : List Byte} (h : Closed l) (hs : r <:+ l) : Closed r := by
  obtain ⟨t, rfl⟩ := hs
  intro a b e
  exact h (t ++ a) b (by rw [e, List.append_assoc])

theorem Closed.append {l r : List Byte} (hl : Closed l) (hr : Closed r) : Closed (l ++ r) := by
  intro a b e
  rcases List.append_eq_append_iff.1 e with ⟨c, h1, h2⟩ | ⟨c, h1, h2⟩
  · exact hr c b h2
  · cases c with
    | nil => simp only [List.nil_append] at h2; exact hr [] b (by simpa using h2.symm)
    | cons d c =>
      simp only [List.cons_append, List.cons.injEq] at h2
      obtain ⟨rfl, rfl⟩ := h2
      have := hl a c h1
      simp [this]

theorem afterComment_some : ∀ {l : List Byte}, (41 : Byte) ∈ l → afterComment l ≠ none
  | [], h => by cases h
  | c :: cs, h => by
    simp only [afterComment]
    split
    · simp
    · rename_i hc
      refine afterComment_some ?_
      rcases List.mem_cons.1 h with e | h
      · exact absurd e.symm hc
      · exact h

theorem pieces_one : ∀ (l acc : List Byte), (∀ c ∈ l, c ≠ 10) → pieces [10] acc l = [acc ++ l]
  | [], acc, _ => by simp [pieces]
  | c :: cs, acc, h => by
    have hc : c ≠ 10 := h c (by simp)
    simp only [pieces]
    rw [if_neg (by simpa using hc), pieces_one cs _ (fun d hd => h d (by simp [hd]))]
    simp

theorem plain_safer : Safer fl (fun f => f ≠ .pastEnd) Plain where
  clean _ h := h.1
  suffix _ _ h hs := ⟨h.1.suffix hs, fun c hc => h.2.1 c (hs.subset hc), h.2.2.suffix hs⟩
  stack _ _ _ := by decide
  comment l h h1 h2 := by
    exfalso
    cases l with
    | nil => cases h1
    | cons c cs =>
      simp only [List.head?_cons, Option.some.injEq] at h1
      subst h1
      exact afterComment_some (List.mem_cons_of_mem _ (h.2.2 [] cs rfl)) h2
  printf _ _ _ := by decide
  nil := by
    refine ⟨?_, ?_, ?_⟩
    · intro c hc; cases hc
    · intro c hc; cases hc
    · intro a b e; simp at e
  append a b ha hb := by
    refine ⟨?_, ?_, ha.2.2.append hb.2.2⟩
    · intro c hc
      rcases List.mem_append.1 hc with h | h
      · exact ha.1 c h
      · exact hb.1 c h
    · intro c hc
      rcases List.mem_append.1 hc with h | h
      · exact ha.2.1 c h
      · exact hb.2.1 c h
  pieces l hl p hp := by
    rw [splitString_pieces, pieces_one l [] hl.2.1] at hp
    simp only [List.nil_append, List.mem_singleton] at hp
    subst hp
    exact hl
  dangling := by decide

/-- **No program in which every opened comment is closed makes the parser read behind the end of a line.** -/
theorem C18_within_line_partial (hfl : fl.toFloat_.Ok) (n : Nat) (lines : List (List Byte)) (st : State F)
    (hlines : ∀ l ∈ lines, Plain l) (hx : Texts Plain st) : runLines fl rc n st lines ≠ .fault .pastEnd :=
  fun h => (runLines_steps (rc := rc) hfl plain_safer n lines st hlines hx).fault h rfl

/-- The other kinds of undefined behaviour have other causes: an expression that overruns its stack (C09), a
question mark, or a loop. -/
theorem C18_faults (hfl : fl.toFloat_.Ok) {Q : Fault → Prop} {T : List Byte → Prop} (hs : Safer fl Q T) (n : Nat)
    (lines : List (List Byte)) (st : State F) (hlines : ∀ l ∈ lines, T l) (hx : Texts T st) (f : Fault)
    (h : runLines fl rc n st lines = .fault f) : Q f :=
  (runLines_steps (rc := rc) hfl hs n lines st hlines hx).fault h

/-- **The property does not hold for an open comment**: every line that starts with `(` and contains no `)`
makes the parser read behind its end. -/
theorem C18_open_comment (n : Nat) (st : State F) (hd : st.doWhile = false) (line : List Byte) (h : (41 : Byte) ∉ line) :
    parseBlock fl rc n st (40 :: line) = .fault .pastEnd := by
  have hn : ∀ l : List Byte, (41 : Byte) ∉ l → afterComment l = none := by
    intro l
    induction l with
    | nil => intro _; rfl
    | cons c cs ih =>
      intro h
      simp only [List.mem_cons, not_or] at h
      simp only [afterComment]
      rw [if_neg (fun e => h.1 e.symm)]
      exact ih h.2
  have h1 : skipWhite (40 :: line) = 40 :: line := by simp [skipWhite, isSpace]
  have h2 : afterComment (40 :: line) = none := hn _ (by simp [h])
  simp [parseBlock, blockWith, wordFuel, blockLoop, parsePair, pairLoop, h1, pairStart, hd, h2, Out.bind]

example : Plain (text "G1 X1 (comment) Y2 ; (") → False := by
  intro h
  have := h.2.2 (text "G1 X1 (comment) Y2 ; ") [] (by decide +kernel)
  cases this

/-- Non-vacuity: a program with comments. -/
example : (∀ l ∈ [text "(start) G1 X5 (a)", text "G0 Y1"], Plain l) ∧
    ∃ st, runLines exNum (exReceiver true) 0 exState [text "(start) G1 X5 (a)", text "G0 Y1"] = .ok st ∧
      st.pos .X = 5 ∧ st.pos .Y = 1 := by
  refine ⟨?_, _, rfl, by decide +kernel, by decide +kernel⟩
  intro l hl
  refine ⟨?_, ?_, ?_⟩
  · have : ∀ l ∈ [text "(start) G1 X5 (a)", text "G0 Y1"], ∀ c ∈ l, c ≠ 0 := by decide +kernel
    exact this l hl
  · have : ∀ l ∈ [text "(start) G1 X5 (a)", text "G0 Y1"], ∀ c ∈ l, c ≠ 10 := by decide +kernel
    exact this l hl
  · intro a b e
    have key : ∀ l ∈ [text "(start) G1 X5 (a)", text "G0 Y1"], ∀ i : Fin l.length,
        l[i] = 40 → (41 : Byte) ∈ l.drop (i + 1) := by decide +kernel
    have hlen : a.length < l.length := by rw [e]; simp
    have := key l hl ⟨a.length, hlen⟩ (by simp [e])
    simpa [e] using this

end BeagleG.Parser
