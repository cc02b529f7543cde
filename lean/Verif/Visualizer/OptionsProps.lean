import Verif.Visualizer.Options
import Verif.Text.NumberProps
import Verif.Life.Options
import Mathlib.Tactic.Tauto
import Mathlib.Data.List.Infix
/-!
# C100: the command line of gcode2ps
-/
namespace BeagleG.Visualizer.Options

open BeagleG.Text (Byte toLowerString skipWhite)
open BeagleG.Text.Number (sign mantissa exponent word inf inity)
open BeagleG.Planner (Arith)
open BeagleG.Setup (ascii Machine configureMachine)

variable {D F : Type} {A : Arith F} {W : Sys F}

/-! ### Rotations -/

/-- The text of a PostScript number: sign, digits with or without point, exponent, and nothing else. -/
def PsNumber (s : List Byte) : Prop :=
  ∃ q r, mantissa (sign s).2 = some (q, r) ∧ (r = [] ∨ ∃ e, exponent r = some (e, []))

/-- `inf`, `infinity`, `nan` in any case, with a sign or not. -/
def Special (s : List Byte) : Prop :=
  mantissa (sign s).2 = none ∧ (word inf (sign s).2 = some [] ∨ (∃ r, word inf (sign s).2 = some r ∧ word inity r = some []) ∨
    (word inf (sign s).2 = none ∧ word [110, 97, 110] (sign s).2 = some []))

/-- **C100, angles**: an angle is accepted exactly if it is a number also for PostScript (after white space), or one of the special values,
or empty; it is printed as it was given, with the operation behind it. -/
theorem C100_angle_partial (arg op : List Byte) (result : List (List Byte)) :
    (appendFloatOp arg op result ≠ none ↔ PsNumber (skipWhite arg) ∨ Special (skipWhite arg) ∨ arg = []) ∧
    ∀ r, appendFloatOp arg op result = some r → r = result ++ [arg ++ 32 :: op] := by
  constructor
  · unfold appendFloatOp
    have hk : strtofRest arg = [] ↔ PsNumber (skipWhite arg) ∨ Special (skipWhite arg) ∨ arg = [] := by
      by_cases ha : arg = []
      · subst ha
        refine ⟨fun _ => .inr (.inr rfl), fun _ => by decide +kernel⟩
      unfold strtofRest PsNumber Special
      dsimp only
      generalize (sign (skipWhite arg)).2 = t
      rcases hm : mantissa t with _ | ⟨q, r⟩
      · rcases hi : word inf t with _ | r
        · rcases hn : word [110, 97, 110] t with _ | r
          · simp [ha]
          · simp [ha]
        · rcases hy : word inity r with _ | r'
          · simp only [hy, Option.getD_none, Option.some.injEq]
            constructor
            · intro h; right; left; exact ⟨trivial, .inl h⟩
            · rintro (⟨_, _, h, _⟩ | ⟨_, h | ⟨_, h, h'⟩ | ⟨h, _⟩⟩ | h)
              · cases h
              · exact h
              · subst h; rw [hy] at h'; cases h'
              · cases h
              · exact absurd h ha
          · simp only [hy, Option.getD_some, Option.some.injEq]
            constructor
            · intro h; right; left; exact ⟨trivial, .inr (.inl ⟨r, rfl, by rw [hy, h]⟩)⟩
            · rintro (⟨_, _, h, _⟩ | ⟨_, h | ⟨_, h, h'⟩ | ⟨h, _⟩⟩ | h)
              · cases h
              · subst h
                have : word inity [] = none := by decide +kernel
                rw [this] at hy; cases hy
              · subst h; rw [hy] at h'; exact Option.some.inj h'
              · cases h
              · exact absurd h ha
      · rcases he : exponent r with _ | ⟨e, r'⟩
        · simp only [he, Option.some.injEq, Prod.mk.injEq, reduceCtorEq, false_and, or_false, ha]
          constructor
          · intro h; exact ⟨q, r, ⟨rfl, rfl⟩, .inl h⟩
          · rintro ⟨_, _, ⟨rfl, rfl⟩, h | ⟨e, h⟩⟩
            · exact h
            · rw [he] at h; cases h
        · simp only [he, Option.some.injEq, Prod.mk.injEq, reduceCtorEq, false_and, or_false, ha]
          constructor
          · intro h; exact ⟨q, r, ⟨rfl, rfl⟩, .inr ⟨e, by rw [he, h]⟩⟩
          · rintro ⟨_, _, ⟨rfl, rfl⟩, h | ⟨e, h⟩⟩
            · subst h; cases he
            · rw [he] at h; exact (Prod.mk.inj (Option.some.inj h)).2
    rw [← hk]
    split <;> simp_all
  · intro r h
    unfold appendFloatOp at h
    split at h
    · exact (Option.some.inj h).symm
    · cases h

/-- **C100, violated**: an empty angle and `inf` are accepted, which makes a program that PostScript cannot run: an operation without number. -/
theorem C100_bad_angle (op : List Byte) : appendFloatOp [] op [] = some [32 :: op] ∧ ¬ PsNumber [] ∧
    appendFloatOp (ascii "inf") op [] = some [ascii "inf " ++ op] ∧ ¬ PsNumber (ascii "inf") := by
  have h1 : mantissa (sign []).2 = none := by decide +kernel
  have h2 : mantissa (sign (ascii "inf")).2 = none := by decide +kernel
  refine ⟨?_, ?_, ?_, ?_⟩
  · unfold appendFloatOp
    rw [if_pos (by decide +kernel)]
    rfl
  · rintro ⟨q, r, h, _⟩; rw [h1] at h; cases h
  · unfold appendFloatOp
    rw [if_pos (by decide +kernel)]
    rfl
  · rintro ⟨q, r, h, _⟩; rw [h2] at h; cases h

/-- **C100, views**: a view is accepted exactly if it is, in any case, the beginning of one of the five names. -/
theorem C100_view (view : List Byte) : (viewOp view ≠ none ↔ ∃ v ∈ views, toLowerString view <+: v.1) ∧
    (∀ v ∈ views, toLowerString view ≠ [] → toLowerString view <+: v.1 → viewOp view = some [v.2]) ∧
    (view = [] → viewOp view = some [ascii "-90 pitch-rotate3d % front view"]) := by
  have all : ∀ v ∈ views, ∀ key ∈ v.1.inits, key ≠ [] → (views.find? fun w => !before w.1 key) = some v := by decide +kernel
  have get : ∀ v ∈ views, toLowerString view ≠ [] → toLowerString view <+: v.1 → viewOp view = some [v.2] := by
    intro v hv hne hp
    unfold viewOp
    dsimp only
    rw [all v hv _ ((List.mem_inits _ _).2 hp) hne]
    simp [hp]
  have emp : view = [] → viewOp view = some [ascii "-90 pitch-rotate3d % front view"] := by
    rintro rfl; decide +kernel
  refine ⟨⟨?_, ?_⟩, get, emp⟩
  · intro h
    unfold viewOp at h
    dsimp only at h
    rcases hf : views.find? fun v => !before v.1 (toLowerString view) with _ | v
    · rw [hf] at h; exact absurd rfl h
    · rw [hf] at h
      dsimp only at h
      by_cases hp : toLowerString view <+: v.1
      · exact ⟨v, List.mem_of_find?_eq_some hf, hp⟩
      · rw [if_neg hp] at h; exact absurd rfl h
  · rintro ⟨v, hv, hp⟩
    by_cases hne : toLowerString view = []
    · have : view = [] := by
        unfold toLowerString at hne
        exact List.map_eq_nil_iff.1 hne
      rw [emp this]
      simp
    · rw [get v hv hne hp]
      simp

/-! ### Options -/

/-- The rotations of a list of options alone. -/
def rotations : List (List Byte) → List Item → Option (List (List Byte))
  | r, [] => some r
  | _, .bad :: _ => none
  | r, .opt ch arg :: is =>
    if ch = 82 ∨ ch = 80 ∨ ch = 89 ∨ ch = 86 then (rotate r ch arg).bind fun r' => rotations r' is else rotations r is

/-- The last argument of a letter. -/
def lastArg (ch : Byte) : List Item → Option (List Byte)
  | [] => none
  | .opt c arg :: is => (lastArg ch is).orElse fun _ => if c = ch then some arg else none
  | .bad :: is => lastArg ch is

/-- Is the letter there? -/
def given (ch : Byte) (is : List Item) : Bool := (lastArg ch is).isSome

/-- How often. -/
def count (ch : Byte) : List Item → Nat
  | [] => 0
  | .opt c _ :: is => (if c = ch then 1 else 0) + count ch is
  | .bad :: is => count ch is

theorem lastArg_cons (ch c : Byte) (arg : List Byte) (is : List Item) :
    lastArg ch (.opt c arg :: is) = (lastArg ch is).orElse fun _ => if c = ch then some arg else none := rfl

theorem orElse_getD {α β : Type} (a : Option α) (b : Option α) (f : α → β) (d : β) :
    ((a.orElse fun _ => b).map f).getD d = (a.map f).getD ((b.map f).getD d) := by
  cases a <;> rfl

theorem given_cons (ch c : Byte) (arg : List Byte) (is : List Item) :
    given ch (.opt c arg :: is) = (given ch is || decide (c = ch)) := by
  unfold given
  rw [lastArg_cons]
  cases lastArg ch is
  · by_cases h : c = ch <;> simp [h]
  · rfl

/-- The variables an accepted list of options leaves: for each letter the last argument, for flags whether they are there. -/
structure Meaning (W : Sys F) (A : Arith F) (v : Vars F) (is : List Item) (v' : Vars F) : Prop where
  config : v'.config = ((lastArg 99 is).map some).getD v.config
  out : v'.out = (lastArg 111 is).getD v.out
  writable : v'.writable = ((lastArg 111 is).map W.create).getD v.writable
  tool : v'.tool = ((lastArg 84 is).map W.atof).getD v.tool
  threshold : v'.threshold = ((lastArg 116 is).map W.atof).getD v.threshold
  tune : v'.tune = ((lastArg 65 is).map W.atof).getD v.tune
  scale : v'.scale = ((lastArg 83 is).map W.atof).getD v.scale
  width : v'.width = ((lastArg 119 is).map (widthOf A W)).getD v.width
  eye : v'.eye = ((lastArg 101 is).map W.atof).getD v.eye
  frames : v'.frames = ((lastArg 97 is).map W.atoi).getD v.frames
  grid : v'.grid = ((lastArg 103 is).map (gridOf A W)).getD v.grid
  title : v'.title = (lastArg 67 is).getD v.title
  dimensions : v'.dimensions = (v.dimensions && !given 68 is)
  machinePath : v'.machinePath = (v.machinePath && !given 77 is)
  gcodePath : v'.gcodePath = (v.gcodePath && !given 71 is)
  rangeCheck : v'.rangeCheck = (v.rangeCheck || given 114 is)
  quiet : v'.quiet = (v.quiet || given 113 is)
  speeds : v'.speeds = (v.speeds || given 115 is)
  laser : v'.laser = (v.laser || given 108 is)
  ijk : v'.ijk = (v.ijk ^^ decide (count 105 is % 2 = 1))
  rotations : rotations v.rotations is = some v'.rotations

/-- Letters that change a rotation. -/
def IsRotation (ch : Byte) : Prop := ch = 82 ∨ ch = 80 ∨ ch = 89 ∨ ch = 86

/-- Letters of the `switch` with a meaning. -/
def known : List Byte := ascii "oqtAglCcDMGTsSweiraRPYV"

theorem take_eq (v : Vars F) (ch : Byte) (arg : List Byte) (v' : Vars F) (h : v.take A W (.opt ch arg) = some v') :
    Meaning W A v [.opt ch arg] v' := by
  unfold Vars.take at h
  dsimp only at h
  by_cases hr : ch = 82 ∨ ch = 80 ∨ ch = 89 ∨ ch = 86
  · have e : v.take A W (.opt ch arg) = (rotate v.rotations ch arg).map fun r => { v with rotations := r } := by
      unfold Vars.take
      rcases hr with rfl | rfl | rfl | rfl <;> rfl
    have h' : (rotate v.rotations ch arg).map (fun r => { v with rotations := r }) = some v' := by
      rw [← e]; exact h
    rcases hq : rotate v.rotations ch arg with _ | r
    · rw [hq] at h'; cases h'
    · rw [hq] at h'
      obtain rfl := Option.some.inj h'
      have hrot : rotations v.rotations [.opt ch arg] = some r := by
        show (if _ then _ else _) = _
        rw [if_pos hr, hq]; rfl
      rcases hr with rfl | rfl | rfl | rfl <;>
        constructor <;> first | exact hrot | simp [lastArg, given, count]
  · have hrot : rotations v.rotations [.opt ch arg] = some v.rotations := by
      show (if _ then _ else _) = _
      rw [if_neg hr]; rfl
    by_cases c : ch = 111
    · rw [if_pos c] at h; obtain rfl := Option.some.inj h; subst c
      constructor <;> first | exact hrot | simp [lastArg, given, count]
    rw [if_neg c] at h; clear c
    by_cases c : ch = 113
    · rw [if_pos c] at h; obtain rfl := Option.some.inj h; subst c
      constructor <;> first | exact hrot | simp [lastArg, given, count]
    rw [if_neg c] at h; clear c
    by_cases c : ch = 116
    · rw [if_pos c] at h; obtain rfl := Option.some.inj h; subst c
      constructor <;> first | exact hrot | simp [lastArg, given, count]
    rw [if_neg c] at h; clear c
    by_cases c : ch = 65
    · rw [if_pos c] at h; obtain rfl := Option.some.inj h; subst c
      constructor <;> first | exact hrot | simp [lastArg, given, count]
    rw [if_neg c] at h; clear c
    by_cases c : ch = 103
    · rw [if_pos c] at h; obtain rfl := Option.some.inj h; subst c
      constructor <;> first | exact hrot | simp [lastArg, given, count]
    rw [if_neg c] at h; clear c
    by_cases c : ch = 108
    · rw [if_pos c] at h; obtain rfl := Option.some.inj h; subst c
      constructor <;> first | exact hrot | simp [lastArg, given, count]
    rw [if_neg c] at h; clear c
    by_cases c : ch = 67
    · rw [if_pos c] at h; obtain rfl := Option.some.inj h; subst c
      constructor <;> first | exact hrot | simp [lastArg, given, count]
    rw [if_neg c] at h; clear c
    by_cases c : ch = 99
    · rw [if_pos c] at h; obtain rfl := Option.some.inj h; subst c
      constructor <;> first | exact hrot | simp [lastArg, given, count]
    rw [if_neg c] at h; clear c
    by_cases c : ch = 68
    · rw [if_pos c] at h; obtain rfl := Option.some.inj h; subst c
      constructor <;> first | exact hrot | simp [lastArg, given, count]
    rw [if_neg c] at h; clear c
    by_cases c : ch = 77
    · rw [if_pos c] at h; obtain rfl := Option.some.inj h; subst c
      constructor <;> first | exact hrot | simp [lastArg, given, count]
    rw [if_neg c] at h; clear c
    by_cases c : ch = 71
    · rw [if_pos c] at h; obtain rfl := Option.some.inj h; subst c
      constructor <;> first | exact hrot | simp [lastArg, given, count]
    rw [if_neg c] at h; clear c
    by_cases c : ch = 84
    · rw [if_pos c] at h; obtain rfl := Option.some.inj h; subst c
      constructor <;> first | exact hrot | simp [lastArg, given, count]
    rw [if_neg c] at h; clear c
    by_cases c : ch = 115
    · rw [if_pos c] at h; obtain rfl := Option.some.inj h; subst c
      constructor <;> first | exact hrot | simp [lastArg, given, count]
    rw [if_neg c] at h; clear c
    by_cases c : ch = 83
    · rw [if_pos c] at h; obtain rfl := Option.some.inj h; subst c
      constructor <;> first | exact hrot | simp [lastArg, given, count]
    rw [if_neg c] at h; clear c
    by_cases c : ch = 119
    · rw [if_pos c] at h; obtain rfl := Option.some.inj h; subst c
      constructor <;> first | exact hrot | simp [lastArg, given, count]
    rw [if_neg c] at h; clear c
    by_cases c : ch = 101
    · rw [if_pos c] at h; obtain rfl := Option.some.inj h; subst c
      constructor <;> first | exact hrot | simp [lastArg, given, count]
    rw [if_neg c] at h; clear c
    by_cases c : ch = 105
    · rw [if_pos c] at h; obtain rfl := Option.some.inj h; subst c
      constructor <;> first | exact hrot | simp [lastArg, given, count]
    rw [if_neg c] at h; clear c
    by_cases c : ch = 114
    · rw [if_pos c] at h; obtain rfl := Option.some.inj h; subst c
      constructor <;> first | exact hrot | simp [lastArg, given, count]
    rw [if_neg c] at h; clear c
    by_cases c : ch = 97
    · rw [if_pos c] at h; obtain rfl := Option.some.inj h; subst c
      constructor <;> first | exact hrot | simp [lastArg, given, count]
    rw [if_neg c] at h; clear c
    rw [if_neg hr] at h; cases h

theorem lastArg_split (c : Byte) (i : Item) (is : List Item) {β : Type} (f : List Byte → β) (d : β) :
    ((lastArg c (i :: is)).map f).getD d = ((lastArg c is).map f).getD (((lastArg c [i]).map f).getD d) := by
  rcases i with ⟨ch, arg⟩ | _
  · rw [lastArg_cons, orElse_getD]; rfl
  · rfl

theorem lastArg_split' (c : Byte) (i : Item) (is : List Item) (d : List Byte) :
    (lastArg c (i :: is)).getD d = (lastArg c is).getD ((lastArg c [i]).getD d) := by
  have := lastArg_split c i is id d
  simpa using this

theorem given_split (c : Byte) (i : Item) (is : List Item) : given c (i :: is) = (given c [i] || given c is) := by
  rcases i with ⟨ch, arg⟩ | _
  · rw [given_cons, given_cons]
    have : given c [] = false := rfl
    rw [this, Bool.false_or, Bool.or_comm]
  · rfl

theorem count_split (c : Byte) (i : Item) (is : List Item) : count c (i :: is) = count c [i] + count c is := by
  rcases i with ⟨ch, arg⟩ | _
  · rfl
  · show count c is = 0 + count c is
    omega

theorem rotations_split (r : List (List Byte)) (i : Item) (is : List Item) :
    rotations r (i :: is) = (rotations r [i]).bind fun r' => rotations r' is := by
  rcases i with ⟨ch, arg⟩ | _
  · simp only [rotations]
    split
    · cases rotate r ch arg <;> rfl
    · rfl
  · rfl

theorem Meaning.cons {v v' v'' : Vars F} {i : Item} {is : List Item} (h : Meaning W A v [i] v') (k : Meaning W A v' is v'') :
    Meaning W A v (i :: is) v'' := by
  constructor
  · rw [k.config, h.config]; exact (lastArg_split ..).symm
  · rw [k.out, h.out]; exact (lastArg_split' ..).symm
  · rw [k.writable, h.writable]; exact (lastArg_split ..).symm
  · rw [k.tool, h.tool]; exact (lastArg_split ..).symm
  · rw [k.threshold, h.threshold]; exact (lastArg_split ..).symm
  · rw [k.tune, h.tune]; exact (lastArg_split ..).symm
  · rw [k.scale, h.scale]; exact (lastArg_split ..).symm
  · rw [k.width, h.width]; exact (lastArg_split ..).symm
  · rw [k.eye, h.eye]; exact (lastArg_split ..).symm
  · rw [k.frames, h.frames]; exact (lastArg_split ..).symm
  · rw [k.grid, h.grid]; exact (lastArg_split ..).symm
  · rw [k.title, h.title]; exact (lastArg_split' ..).symm
  · rw [k.dimensions, h.dimensions, given_split _ i is]
    cases v.dimensions <;> cases given 68 [i] <;> cases given 68 is <;> rfl
  · rw [k.machinePath, h.machinePath, given_split _ i is]
    cases v.machinePath <;> cases given 77 [i] <;> cases given 77 is <;> rfl
  · rw [k.gcodePath, h.gcodePath, given_split _ i is]
    cases v.gcodePath <;> cases given 71 [i] <;> cases given 71 is <;> rfl
  · rw [k.rangeCheck, h.rangeCheck, given_split _ i is, Bool.or_assoc]
  · rw [k.quiet, h.quiet, given_split _ i is, Bool.or_assoc]
  · rw [k.speeds, h.speeds, given_split _ i is, Bool.or_assoc]
  · rw [k.laser, h.laser, given_split _ i is, Bool.or_assoc]
  · rw [k.ijk, h.ijk, count_split _ i is, Bool.xor_assoc]
    congr 1
    by_cases a : count 105 [i] % 2 = 1 <;> by_cases b : count 105 is % 2 = 1 <;>
      simp only [a, b, decide_true, decide_false, Bool.xor_true, Bool.xor_false, Bool.not_false, Bool.xor_self] <;>
      symm <;> simp only [decide_eq_true_eq, decide_eq_false_iff_not] <;> omega
  · rw [rotations_split, h.rotations]
    exact k.rotations

/-- **C100, every option counts as documented**: the last argument, or whether the flag is there. -/
theorem C100_last (v v' : Vars F) (is : List Item) (h : v.takeAll A W is = (v', false)) : Meaning W A v is v' := by
  induction is generalizing v with
  | nil =>
    obtain ⟨rfl, -⟩ := Prod.mk.inj h
    constructor <;> simp [lastArg, given, count, rotations]
  | cons i is ih =>
    unfold Vars.takeAll at h
    rcases ht : v.take A W i with _ | w
    · rw [ht] at h; cases (Prod.mk.inj h).2
    · rw [ht] at h
      rcases i with ⟨ch, arg⟩ | _
      · exact (take_eq v ch arg w ht).cons (ih w h)
      · cases ht

/-- An option that is accepted. -/
def Ok : Item → Prop
  | .bad => False
  | .opt ch arg => ch ∈ known ∧ (ch = 82 ∨ ch = 80 ∨ ch = 89 → strtofRest arg = []) ∧
    (ch = 86 → ∃ v ∈ views, toLowerString arg <+: v.1)

theorem take_none (v : Vars F) (i : Item) : v.take A W i = none ↔ ¬ Ok i := by
  rcases i with ⟨ch, arg⟩ | _
  · by_cases hr : ch = 82 ∨ ch = 80 ∨ ch = 89 ∨ ch = 86
    · have e : v.take A W (.opt ch arg) = (rotate v.rotations ch arg).map fun r => { v with rotations := r } := by
        unfold Vars.take
        rcases hr with rfl | rfl | rfl | rfl <;> rfl
      rw [e, Option.map_eq_none_iff]
      have ang : ∀ op r, appendFloatOp arg op r = none ↔ ¬ strtofRest arg = [] := by
        intro op r
        unfold appendFloatOp
        split <;> simp_all
      rcases hr with rfl | rfl | rfl | rfl
      · rw [show rotate v.rotations 82 arg = appendFloatOp arg _ _ from rfl, ang]
        unfold Ok
        dsimp only
        rw [show ((82 : Byte) ∈ known) = True from eq_true (by decide +kernel)]
        simp
      · rw [show rotate v.rotations 80 arg = appendFloatOp arg _ _ from rfl, ang]
        unfold Ok
        dsimp only
        rw [show ((80 : Byte) ∈ known) = True from eq_true (by decide +kernel)]
        simp
      · rw [show rotate v.rotations 89 arg = appendFloatOp arg _ _ from rfl, ang]
        unfold Ok
        dsimp only
        rw [show ((89 : Byte) ∈ known) = True from eq_true (by decide +kernel)]
        simp
      · rw [show rotate v.rotations 86 arg = viewOp arg from rfl]
        have := (C100_view arg).1
        unfold Ok
        dsimp only
        rw [show ((86 : Byte) ∈ known) = True from eq_true (by decide +kernel)]
        rw [← this]
        simp
    · have k : ch ∈ known ↔ ch ∈ ascii "oqtAglCcDMGTsSweira" := by
        rw [show known = ascii "oqtAglCcDMGTsSweira" ++ [82, 80, 89, 86] by decide +kernel, List.mem_append]
        simp only [List.mem_cons, List.not_mem_nil, or_false]
        constructor
        · rintro (h | h)
          · exact h
          · exact absurd h hr
        · exact Or.inl
      have ok : Ok (.opt ch arg) ↔ ch ∈ ascii "oqtAglCcDMGTsSweira" := by
        unfold Ok
        dsimp only
        rw [k]
        constructor
        · exact fun h => h.1
        · exact fun h => ⟨h, fun h' => absurd (by tauto) hr, fun h' => absurd (by tauto) hr⟩
      rw [ok]
      rw [show ascii "oqtAglCcDMGTsSweira" = [111, 113, 116, 65, 103, 108, 67, 99, 68, 77, 71, 84, 115, 83, 119, 101, 105, 114, 97]
        by decide +kernel]
      unfold Vars.take
      dsimp only
      simp only [List.mem_cons, List.not_mem_nil, or_false]
      constructor
      · rintro h (c | c | c | c | c | c | c | c | c | c | c | c | c | c | c | c | c | c | c) <;> subst c <;> cases h
      · intro h
        simp only [not_or] at h
        obtain ⟨a1, a2, a3, a4, a5, a6, a7, a8, a9, a10, a11, a12, a13, a14, a15, a16, a17, a18, a19⟩ := h
        rw [if_neg a1, if_neg a2, if_neg a3, if_neg a4, if_neg a5, if_neg a6, if_neg a7, if_neg a8, if_neg a9, if_neg a10, if_neg a11,
          if_neg a12, if_neg a13, if_neg a14, if_neg a15, if_neg a16, if_neg a17, if_neg a18, if_neg a19, if_neg hr]
  · exact ⟨fun _ h => h, fun _ => rfl⟩

theorem takeAll_usage (v : Vars F) (is : List Item) : (v.takeAll A W is).2 = true ↔ ∃ i ∈ is, ¬ Ok i := by
  induction is generalizing v with
  | nil => simp [Vars.takeAll]
  | cons i is ih =>
    unfold Vars.takeAll
    rcases ht : v.take A W i with _ | w
    · simp only [List.mem_cons, exists_eq_or_imp, true_iff]
      exact .inl ((take_none v i).1 ht)
    · have : Ok i := by
        by_contra h
        rw [(take_none v i).2 h] at ht; cases ht
      simp only [List.mem_cons, exists_eq_or_imp, this, not_true_eq_false, false_or]
      exact ih w

/-- **C100, usage**: it is printed exactly if there is no file or some option is unknown, `-h`, an angle that is none or a view that is
none; then there is no picture and the program fails. -/
theorem C100_usage (N : Config.Numbers D F) (args : List (List Byte)) :
    ((main A W N args).usage = true ↔ (scan args).files = [] ∨ ∃ i ∈ (scan args).items, ¬ Ok i) ∧
    ((main A W N args).usage = true → (main A W N args).steps = [] ∧ (main A W N args).code = 1) := by
  have e := takeAll_usage (A := A) (W := W) (Vars.start A) (scan args).items
  unfold main
  dsimp only
  rcases hr : ((Vars.start A).takeAll A W (scan args).items).2 with _ | _
  · rw [hr] at e
    have e' : ¬ ∃ i ∈ (scan args).items, ¬ Ok i := fun h => by cases e.2 h
    rcases hf : (scan args).files with _ | ⟨name, rest⟩
    · simp
    · simp only [Bool.false_eq_true, if_false, List.cons_ne_nil, false_or, e', iff_false]
      split
      · simp
      · split <;> simp
  · have e' := e.1 hr
    simp [e']

/-- The words of a command line for an option, each apart. -/
def render : Item → List (List Byte)
  | .opt ch arg => if ch ∈ withArg then [[45, ch], arg] else [[45, ch]]
  | .bad => []

/-- **C100, the command line**: options given each by itself are read in order, and what follows `--` are files. -/
theorem C100_scan (is : List Item) (files : List (List Byte))
    (h : ∀ i ∈ is, ∃ ch arg, i = .opt ch arg ∧ (ch ∈ withArg ∨ ch ∈ without ∧ arg = [])) :
    (scan (is.flatMap render ++ [45, 45] :: files)).items = is ∧
    (scan (is.flatMap render ++ [45, 45] :: files)).files = files := by
  have one : ∀ (is pre : List Item), (∀ i ∈ is, ∃ ch arg, i = .opt ch arg ∧ (ch ∈ withArg ∨ ch ∈ without ∧ arg = [])) →
      (is.flatMap render).foldl Scan.next ⟨pre, [], none, false⟩ = ⟨pre ++ is, [], none, false⟩ := by
    intro is
    induction is with
    | nil => intro pre _; simp
    | cons i is ih =>
      intro pre hi
      obtain ⟨ch, arg, rfl, hc⟩ := hi i (by simp)
      rw [List.flatMap_cons, List.foldl_append]
      have step : (render (.opt ch arg)).foldl Scan.next ⟨pre, [], none, false⟩ = ⟨pre ++ [.opt ch arg], [], none, false⟩ := by
        have n45 : ch ≠ 45 := by
          rintro rfl
          rcases hc with hc | ⟨hc, -⟩ <;> revert hc <;> decide +kernel
        have next : Scan.next ⟨pre, [], none, false⟩ [45, ch] = Scan.letters ⟨pre, [], none, false⟩ [ch] := by
          unfold Scan.next
          dsimp only
          rw [if_neg (by decide)]
          split
          · rename_i heq; injection heq with _ heq; injection heq with heq; exact absurd heq n45
          · rename_i heq; injection heq with _ heq; injection heq with h1 h2; subst h1 h2; rfl
          · rename_i hno; exact absurd rfl (hno ch [])
        by_cases hw : ch ∈ withArg
        · rw [render, if_pos hw]
          show Scan.next (Scan.next _ _) _ = _
          rw [next, Scan.letters, if_pos hw, if_pos rfl]
          rfl
        · rw [render, if_neg hw]
          obtain ⟨ho, rfl⟩ := hc.resolve_left hw
          rw [List.foldl_cons, List.foldl_nil, next, Scan.letters, if_neg hw, if_pos ho]
          rfl
      rw [step, ih _ fun j hj => hi j (by simp [hj])]
      simp
  have two : ∀ (files pre : List (List Byte)),
      files.foldl Scan.next ⟨is, pre, none, true⟩ = ⟨is, pre ++ files, none, true⟩ := by
    intro files
    induction files with
    | nil => intro pre; simp
    | cons a files ih =>
      intro pre
      show files.foldl Scan.next ⟨is, pre ++ [a], none, true⟩ = _
      rw [ih]; simp
  have all : (is.flatMap render ++ [45, 45] :: files).foldl Scan.next ⟨[], [], none, false⟩ = ⟨is, files, none, true⟩ := by
    rw [List.foldl_append, one is [] h]
    show files.foldl Scan.next ⟨[] ++ is, [], none, true⟩ = _
    rw [List.nil_append, two]; simp
  unfold scan
  dsimp only
  rw [all]
  exact ⟨rfl, rfl⟩

/-- The operations of angles, in order. -/
def angles (is : List Item) : List (List Byte) := is.filterMap fun i =>
  match i with
  | .opt 82 arg => some (arg ++ ascii " roll-rotate3d % -R option")
  | .opt 80 arg => some (arg ++ ascii " pitch-rotate3d % -P option")
  | .opt 89 arg => some (arg ++ ascii " yaw-rotate3d % -Y option")
  | _ => none

/-- **C100, rotations**: without view they are done in the order of the command line; a view does away with all before it. -/
theorem C100_rotations (r r' : List (List Byte)) (is : List Item) (hv : ∀ arg, .opt 86 arg ∉ is) :
    (rotations r is = some r' → r' = r ++ angles is) ∧
    ∀ pre view, rotations r (pre ++ .opt 86 view :: is) = some r' → ∃ v, viewOp view = some v ∧ r' = v ++ angles is := by
  have base : ∀ (is : List Item) (r r' : List (List Byte)), (∀ arg, .opt 86 arg ∉ is) → rotations r is = some r' →
      r' = r ++ angles is := by
    intro is
    induction is with
    | nil => intro r r' _ h; rw [rotations] at h; cases h; simp [angles]
    | cons i is ih =>
      intro r r' hv h
      have hv' : ∀ arg, .opt 86 arg ∉ is := fun arg hm => hv arg (List.mem_cons_of_mem _ hm)
      rcases i with ⟨ch, arg⟩ | _
      · by_cases hr : ch = 82 ∨ ch = 80 ∨ ch = 89 ∨ ch = 86
        · rw [rotations, if_pos hr] at h
          rcases hr with rfl | rfl | rfl | rfl
          · rcases hf : rotate r 82 arg with _ | q
            · rw [hf] at h; cases h
            · rw [hf] at h
              have e := (C100_angle_partial arg (ascii "roll-rotate3d % -R option") r).2 q hf
              rw [ih q r' hv' h, e, List.append_assoc]; rfl
          · rcases hf : rotate r 80 arg with _ | q
            · rw [hf] at h; cases h
            · rw [hf] at h
              have e := (C100_angle_partial arg (ascii "pitch-rotate3d % -P option") r).2 q hf
              rw [ih q r' hv' h, e, List.append_assoc]; rfl
          · rcases hf : rotate r 89 arg with _ | q
            · rw [hf] at h; cases h
            · rw [hf] at h
              have e := (C100_angle_partial arg (ascii "yaw-rotate3d % -Y option") r).2 q hf
              rw [ih q r' hv' h, e, List.append_assoc]; rfl
          · exact absurd (by simp) (hv arg)
        · rw [rotations, if_neg hr] at h
          rw [ih r r' hv' h]
          congr 1
          unfold angles
          rw [List.filterMap_cons_none]
          split
          · exact absurd (by rename_i e; injection e; tauto) hr
          · exact absurd (by rename_i e; injection e; tauto) hr
          · exact absurd (by rename_i e; injection e; tauto) hr
          · rfl
      · cases h
  refine ⟨base is r r' hv, ?_⟩
  intro pre
  induction pre generalizing r with
  | nil =>
    intro view h
    rw [List.nil_append, rotations, if_pos (by decide)] at h
    rcases hf : viewOp view with _ | v
    · rw [show rotate r 86 view = viewOp view from rfl, hf] at h; cases h
    · rw [show rotate r 86 view = viewOp view from rfl, hf] at h
      exact ⟨v, rfl, base is v r' hv h⟩
  | cons i pre ih =>
    intro view h
    rw [List.cons_append, rotations_split] at h
    rcases hf : rotations r [i] with _ | q
    · rw [hf] at h; cases h
    · rw [hf] at h
      exact ih q view h

/-- A run that gets as far as the picture. -/
structure Runs (A : Arith F) (W : Sys F) (N : Config.Numbers D F) (args : List (List Byte)) (v : Vars F) (m : Machine F)
    (origin : Planner.Axis → F) (name : List Byte) : Prop where
  items : (Vars.start A).takeAll A W (scan args).items = (v, false)
  file : (scan args).files.head? = some name
  writable : v.writable = true
  config : parseConfig A W N v.config = some (m, origin)

/-- **C100, a picture**: it is drawn exactly if the options are accepted, there is a file, the output can be written and the configuration
is valid; whether the file can be read does not matter. -/
theorem C100_picture (N : Config.Numbers D F) (args : List (List Byte)) :
    ((main A W N args).steps ≠ [] ↔ ∃ v m origin name, Runs A W N args v m origin name) ∧
    ∀ v m origin name, Runs A W N args v m origin name →
      (main A W N args).steps = (v.settle A).steps A W m origin ∧
      ((main A W N args).code = 0 ↔ W.readable name = false ∨ W.errors name (if v.gcodePath then 2 else 1) = 0) := by
  have run : ∀ v m origin name, Runs A W N args v m origin name → main A W N args =
      ⟨if W.count name (if v.gcodePath then 2 else 1) = 0 then 0 else 1, false, (v.settle A).steps A W m origin, v.emptied⟩ := by
    intro v m origin name h
    unfold main
    dsimp only
    rw [h.items]
    dsimp only
    rw [if_neg (by decide)]
    have hf := h.file
    rcases hs : (scan args).files with _ | ⟨n, rest⟩
    · rw [hs] at hf; cases hf
    · rw [hs] at hf
      obtain rfl := Option.some.inj hf
      dsimp only
      rw [if_neg (by simp [h.writable])]
      rw [show (v.settle A).config = v.config from rfl, h.config]
      rfl
  constructor
  · constructor
    · intro hne
      rcases hi : (Vars.start A).takeAll A W (scan args).items with ⟨v, b⟩
      unfold main at hne
      dsimp only at hne
      rw [hi] at hne
      cases b
      · dsimp only at hne
        rw [if_neg (by decide)] at hne
        rcases hs : (scan args).files with _ | ⟨n, rest⟩
        · rw [hs] at hne; exact absurd rfl hne
        · rw [hs] at hne
          dsimp only at hne
          by_cases hw : v.writable = true
          · rw [if_neg (by simp [hw])] at hne
            rcases hc : parseConfig A W N v.config with _ | ⟨m, origin⟩
            · rw [show (v.settle A).config = v.config from rfl, hc] at hne; exact absurd rfl hne
            · exact ⟨v, m, origin, n, hi, by rw [hs]; rfl, hw, hc⟩
          · rw [if_pos (by simp [hw])] at hne; exact absurd rfl hne
      · exact absurd rfl hne
    · rintro ⟨v, m, origin, name, h⟩
      rw [run v m origin name h]
      simp [Vars.steps]
  · intro v m origin name h
    rw [run v m origin name h]
    refine ⟨rfl, ?_⟩
    dsimp only
    unfold Sys.count
    cases W.readable name
    · simp
    · simp

/-- **C100, violated**: a file that cannot be read gives a picture and success. -/
theorem C100_unreadable (N : Config.Numbers D F) (args : List (List Byte)) (v : Vars F) (m : Machine F) (origin : Planner.Axis → F)
    (name : List Byte) (h : Runs A W N args v m origin name) (hr : W.readable name = false) :
    (main A W N args).steps ≠ [] ∧ (main A W N args).code = 0 :=
  ⟨(C100_picture N args).1.2 ⟨v, m, origin, name, h⟩, ((C100_picture N args).2 v m origin name h).2.2 (.inl hr)⟩

theorem mem_if {α : Type} {p : Prop} [Decidable p] {l : List α} {x : α} : (x ∈ if p then l else []) ↔ p ∧ x ∈ l := by
  split <;> simp_all

/-- What a step draws. -/
def Step.kind : Step F → Nat
  | .boundingBox .. => 0 | .header .. => 1 | .opening _ => 2 | .rotation _ => 3 | .frame => 4 | .grid _ => 5 | .dimensions => 6
  | .machine _ => 7 | .legend => 8 | .home _ => 9 | .gcode => 10 | .closing _ => 11

/-- **C100, parts of the picture**: always in this order, drawn one over the other: rotations, frame, grid, measures, path of the machine,
legend, home, path of the file. What is there depends on the options as documented. -/
theorem C100_parts (v : Vars F) (m : Machine F) (origin : Planner.Axis → F) :
    let s := (v.settle A).steps A W m origin
    (s.map Step.kind).Pairwise (· ≤ ·) ∧
    (∀ op, .rotation op ∈ s ↔ op ∈ v.rotations) ∧
    (∀ d, .grid d ∈ s ↔ d = v.grid ∧ A.lt A.zero v.grid = true) ∧
    (.dimensions ∈ s ↔ v.dimensions = true) ∧
    (∀ m', .machine m' ∈ s ↔ m' = v.machine m ∧ v.config ≠ none ∧ v.machinePath = true ∧ W.fits (v.machine m) = true) ∧
    (.legend ∈ s ↔ v.speeds = true ∧ v.config ≠ none ∧ v.machinePath = true ∧ W.fits (v.machine m) = true) ∧
    (.gcode ∈ s ↔ v.gcodePath = true) ∧
    (∀ o, .home o ∈ s ↔ o = origin) ∧
    (∀ b, .opening b ∈ s ↔ b = decide (0 < v.frames)) ∧ (∀ b, .closing b ∈ s ↔ b = decide (0 < v.frames)) := by
  dsimp only
  have e : (v.settle A).machine m = v.machine m := rfl
  unfold Vars.steps
  dsimp only
  rw [e, show (v.settle A).grid = v.grid from rfl, show (v.settle A).dimensions = v.dimensions from rfl,
    show (v.settle A).config = v.config from rfl, show (v.settle A).machinePath = v.machinePath from rfl,
    show (v.settle A).gcodePath = v.gcodePath from rfl, show (v.settle A).rotations = v.rotations from rfl,
    show (v.settle A).frames = v.frames from rfl,
    show (v.settle A).speeds = (v.speeds && v.machinePath && v.config.isSome) from rfl]
  have hc : v.config ≠ none ↔ v.config.isSome = true := by cases v.config <;> simp
  rw [hc]
  refine ⟨?_, ?_, ?_, ?_, ?_, ?_, ?_, ?_, ?_, ?_⟩
  · have rot : ((v.rotations.map (Step.rotation (F := F))).map Step.kind) = List.replicate v.rotations.length 3 := by
      rw [List.map_map, List.eq_replicate_iff]
      exact ⟨by simp, by simp [Step.kind]⟩
    have sub : ∀ {l l' : List Nat} (b : Bool), l.Sublist l' → (if b then l else []).Sublist l' := by
      intro l l' b h
      cases b
      · exact List.nil_sublist _
      · exact h
    have full : ([0, 1, 2] ++ List.replicate v.rotations.length 3 ++ [4] ++ [5] ++ [6] ++ [7, 8] ++ [9] ++ [10] ++ [11]).Pairwise
        (· ≤ ·) := by
      simp only [List.pairwise_append, List.pairwise_replicate, List.mem_append, List.mem_replicate, List.mem_cons, List.not_mem_nil, or_false]
      refine ⟨⟨⟨⟨⟨⟨⟨⟨?_, ?_, ?_⟩, ?_, ?_⟩, ?_, ?_⟩, ?_, ?_⟩, ?_, ?_⟩, ?_, ?_⟩, ?_, ?_⟩, ?_, ?_⟩ <;>
        first | decide | (intro a ha b hb; omega) | omega
    refine full.sublist ?_
    simp only [List.map_append, rot, apply_ite (List.map (Step.kind (F := F)))]
    refine .append (.append (.append (.append (.append (.append (.append (.append ?_ ?_) ?_) ?_) ?_) ?_) ?_) ?_) ?_
    · exact List.Sublist.refl _
    · exact List.Sublist.refl _
    · exact List.Sublist.refl _
    · exact sub _ (List.Sublist.refl _)
    · exact sub _ (List.Sublist.refl _)
    · refine sub _ ?_
      show List.Sublist (7 :: List.map Step.kind _) _
      refine List.Sublist.cons_cons _ ?_
      rw [apply_ite (List.map (Step.kind (F := F)))]
      exact sub _ (List.Sublist.refl _)
    · exact List.Sublist.refl _
    · exact sub _ (List.Sublist.refl _)
    · exact List.Sublist.refl _
  all_goals
    simp only [List.mem_append, List.mem_cons, List.mem_map, mem_if, List.not_mem_nil, reduceCtorEq, false_or, or_false, and_false,
      exists_false, Bool.and_eq_true, Step.rotation.injEq, Step.grid.injEq, Step.machine.injEq, Step.home.injEq, Step.opening.injEq,
      Step.closing.injEq, exists_eq_right, and_true]
  all_goals try tauto

/-- **C100, options that need each other**: speeds only with a configuration and the path of the machine, the laser only with the path of
the file; the tool is 2 mm unless a size that is not negative is given. Nothing else is changed. -/
theorem C100_effective (v : Vars F) :
    ((v.settle A).speeds = true ↔ v.speeds = true ∧ v.machinePath = true ∧ v.config ≠ none) ∧
    ((v.settle A).laser = true ↔ v.laser = true ∧ v.gcodePath = true) ∧
    (A.lt v.tool A.zero = true → (v.settle A).tool = A.ofInt 2) ∧ (A.lt v.tool A.zero = false → (v.settle A).tool = v.tool) ∧
    { v.settle A with speeds := v.speeds, laser := v.laser, tool := v.tool } = v := by
  refine ⟨?_, ?_, ?_, ?_, rfl⟩
  · show (v.speeds && v.machinePath && v.config.isSome) = true ↔ _
    cases v.speeds <;> cases v.machinePath <;> cases v.config <;> simp
  · show (v.laser && v.gcodePath) = true ↔ _
    cases v.laser <;> cases v.gcodePath <;> simp
  · intro h
    show (if A.lt v.tool A.zero then A.ofInt 2 else v.tool) = _
    rw [if_pos h]
  · intro h
    show (if A.lt v.tool A.zero then A.ofInt 2 else v.tool) = _
    rw [if_neg (by simp [h])]

/-- **C100, defaults**: the angles are those of machine-control, as the comment says. -/
theorem C100_defaults : (Vars.start A).threshold = (Life.Cmd.Vars.start A).thresholdAngle ∧
    (Vars.start A).tune = (Life.Cmd.Vars.start A).speedTuneAngle := ⟨rfl, rfl⟩

/-- **C100, the configuration**: the machine is that of the file but never asks for homing, and the origin is at the home switches. -/
theorem C100_origin (N : Config.Numbers D F) (config : Option (List Byte)) (m : Machine F) (origin : Planner.Axis → F)
    (h : parseConfig A W N config = some (m, origin)) :
    m.requireHoming = false ∧
    (∀ a, (m.homingTrigger a = .max → origin a = m.moveRange a) ∧
      (m.homingTrigger a = .min ∨ m.homingTrigger a = .none → origin a = A.zero)) ∧
    (config = none → m = { Machine.default A with requireHoming := false }) ∧
    ∀ name, config = some name → ∃ t, W.text name = some t ∧ (configureMachine N (Machine.default A) t).1 = true ∧
      m = { (configureMachine N (Machine.default A) t).2 with requireHoming := false } := by
  unfold parseConfig at h
  rcases config with _ | name
  · simp only [Option.map_some, Option.some.injEq, Prod.mk.injEq] at h
    obtain ⟨rfl, rfl⟩ := h
    refine ⟨rfl, fun a => ⟨fun h => by dsimp only at h ⊢; rw [if_pos (.inl h)], fun h => ?_⟩, fun _ => rfl, fun _ h => by cases h⟩
    dsimp only at h ⊢
    rw [if_neg]
    rcases h with h | h <;> rw [h] <;> decide
  · dsimp only at h
    rcases ht : W.text name with _ | t
    · rw [ht] at h; cases h
    · rw [ht] at h
      simp only [Option.bind_some] at h
      by_cases hc : (configureMachine N (Machine.default A) t).1 = true
      · rw [if_pos hc] at h
        simp only [Option.map_some, Option.some.injEq, Prod.mk.injEq] at h
        obtain ⟨rfl, rfl⟩ := h
        refine ⟨rfl, fun a => ⟨fun h => by dsimp only at h ⊢; rw [if_pos (.inl h)], fun h => ?_⟩, fun h => (by cases h), ?_⟩
        · dsimp only at h ⊢
          rw [if_neg]
          rcases h with h | h <;> rw [h] <;> decide
        · rintro _ ⟨⟩
          exact ⟨t, ht, hc, rfl⟩
      · rw [if_neg hc] at h; cases h

/-- **C100, violated**: `gcode2ps -o file`, where the G-code file was forgotten, empties the file before it prints the usage. -/
theorem C100_emptied (N : Config.Numbers D F) (name : List Byte) (h : W.create name = true) :
    main A W N [ascii "-o", name] = ⟨1, true, [], [name]⟩ := by
  have hs : scan [ascii "-o", name] = ⟨[.opt 111 name], [], none, false⟩ := rfl
  unfold main
  dsimp only
  rw [hs]
  have ht : (Vars.start A).takeAll A W [.opt 111 name] =
      ({ Vars.start A with out := name, writable := W.create name, emptied := if W.create name then [] ++ [name] else [] }, false) := rfl
  rw [ht, h]
  rfl

/-- A run without options. -/
example (N : Config.Numbers D F) : ∃ v m origin, Runs A W N [[120]] v m origin [120] :=
  ⟨Vars.start A, _, _, rfl, rfl, rfl, rfl⟩

/-- Three rotations around a view. -/
example : rotations [] [.opt 82 (ascii "10"), .opt 86 (ascii "TO"), .opt 89 (ascii "-5.5e1")] =
    some [[], ascii "-5.5e1 yaw-rotate3d % -Y option"] := by decide +kernel

/-- A cluster of letters, an argument right behind its letter, and a file between options. -/
example : scan [ascii "-MDg5", ascii "f.nc", ascii "-S", ascii "-1"] =
    ⟨[.opt 77 [], .opt 68 [], .opt 103 (ascii "5"), .opt 83 (ascii "-1")], [ascii "f.nc"], none, false⟩ := by rfl

end BeagleG.Visualizer.Options
