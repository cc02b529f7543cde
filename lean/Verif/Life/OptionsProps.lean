import Verif.Life.Options
import Mathlib.Tactic.ByContra

/-!
# C90: the command line

Which command lines are accepted and what they mean: the forms in which options can be written, the value of each option, what
the rest of the program is given, and what is left of it once the configuration file has been read.
-/
namespace BeagleG.Life.Cmd

open BeagleG.Text (Byte)
open BeagleG.Planner (Arith)

/-! ### The forms of options -/

/-- `name` stands for the option `full`: it is the beginning of this name only. -/
def Abbreviates (name full : List Byte) : Prop :=
  name <+: full ∧ ∀ e ∈ longOptions, name <+: e.1 → e.1 = full

/-- Letters of options without argument. -/
inductive Flags : List Byte → List Item → Prop where
  | nil : Flags [] []
  | cons {ch : Byte} {code : Code} {l : List Byte} {items : List Item} :
      shortOption ch = some (.no, code) → Flags l items → Flags (ch :: l) (.opt code none :: items)

/-- `args` are options `items` and files, in the usual forms. -/
inductive Writes : List (List Byte) → List Item → List (List Byte) → Prop where
  | nil : Writes [] [] []
  /-- what does not begin with `-` is a file, and so is `-` alone -/
  | file {a : List Byte} {args items files} : (a.head? ≠ some 45 ∨ a = [45]) → Writes args items files →
      Writes (a :: args) items (a :: files)
  /-- after `--` all are files -/
  | rest {files} : Writes ([45, 45] :: files) [] files
  /-- `--name` -/
  | long {name full : List Byte} {has : HasArg} {code : Code} {args items files} : name ≠ [] → (full, has, code) ∈ longOptions →
      Abbreviates name full → has ≠ .required → Writes args items files →
      Writes ((45 :: 45 :: name) :: args) (.opt code none :: items) files
  /-- `--name=value` -/
  | longEq {name full value : List Byte} {has : HasArg} {code : Code} {args items files} : (full, has, code) ∈ longOptions →
      Abbreviates name full → has ≠ .no → Writes args items files →
      Writes ((45 :: 45 :: (name ++ 61 :: value)) :: args) (.opt code (some value) :: items) files
  /-- `--name value`, whatever the value begins with -/
  | longNext {name full value : List Byte} {code : Code} {args items files} : name ≠ [] → (full, .required, code) ∈ longOptions →
      Abbreviates name full → Writes args items files →
      Writes ((45 :: 45 :: name) :: value :: args) (.opt code (some value) :: items) files
  /-- `-xyz` -/
  | flags {l : List Byte} {own : List Item} {args items files} : l ≠ [] → Flags l own → Writes args items files →
      Writes ((45 :: l) :: args) (own ++ items) files
  /-- `-xyzvalue`, `z` with an argument -/
  | value {l value : List Byte} {ch : Byte} {code : Code} {own : List Item} {args items files} : value ≠ [] → Flags l own →
      shortOption ch = some (.required, code) → Writes args items files →
      Writes ((45 :: (l ++ ch :: value)) :: args) (own ++ .opt code (some value) :: items) files
  /-- `-xyz value` -/
  | valueNext {l value : List Byte} {ch : Byte} {code : Code} {own : List Item} {args items files} : Flags l own →
      shortOption ch = some (.required, code) → Writes args items files →
      Writes ((45 :: (l ++ [ch])) :: value :: args) (own ++ .opt code (some value) :: items) files

theorem shortOption_no_dash {ch : Byte} {x : HasArg × Code} (h : shortOption ch = some x) : ch ≠ 45 := by
  rintro rfl
  simp [shortOption] at h

theorem shortOption_not_optional {ch : Byte} {code : Code} : shortOption ch ≠ some (.optional, code) := by
  unfold shortOption
  repeat' split
  all_goals simp

theorem names_differ : ∀ e ∈ longOptions, ∀ e' ∈ longOptions, e.1 <+: e'.1 → e = e' := by decide

theorem names_plain : ∀ e ∈ longOptions, (61 : Byte) ∉ e.1 ∧ e.1 ≠ [] := by decide

theorem names_several : ∃ e ∈ longOptions, ∃ e' ∈ longOptions, e.1 ≠ e'.1 := by decide

theorem names_nodup : longOptions.Nodup := by decide

/-- An abbreviation is found in the table. -/
theorem findLong_of {name full : List Byte} {has : HasArg} {code : Code} (hm : (full, has, code) ∈ longOptions)
    (ha : Abbreviates name full) : findLong name = some (has, code) := by
  unfold findLong
  split
  · rename_i e he
    have h1 := List.mem_of_find?_eq_some he
    have h2 : e.1 = name := by simpa using List.find?_some he
    have h3 := names_differ e h1 (full, has, code) hm (h2 ▸ ha.1)
    rw [h3]
  · have : longOptions.filter (fun e => name.isPrefixOf e.1) = [(full, has, code)] := by
      have hall : ∀ e ∈ longOptions, name.isPrefixOf e.1 = decide (e = (full, has, code)) := by
        intro e he
        rw [Bool.eq_iff_iff, List.isPrefixOf_iff_prefix, decide_eq_true_iff]
        constructor
        · intro hp
          exact names_differ e he _ hm (by rw [ha.2 e he hp]; exact List.prefix_rfl)
        · rintro rfl
          exact ha.1
      rw [List.filter_congr hall]
      have hx : (full, has, code) ∈ longOptions := hm
      have key : ∀ x ∈ longOptions, longOptions.filter (fun e => decide (e = x)) = [x] := by decide
      exact key _ hx
    rw [this]

/-- What is found is abbreviated. -/
theorem of_findLong {name : List Byte} {has : HasArg} {code : Code} (h : findLong name = some (has, code)) :
    name ≠ [] ∧ ∃ full, (full, has, code) ∈ longOptions ∧ Abbreviates name full := by
  unfold findLong at h
  split at h
  · rename_i e he
    have h1 := List.mem_of_find?_eq_some he
    have h2 : e.1 = name := by simpa using List.find?_some he
    obtain ⟨full, has', code'⟩ := e
    cases h
    cases h2
    exact ⟨(names_plain _ h1).2, _, h1, List.prefix_rfl, fun e' he' hp => (congrArg Prod.fst (names_differ _ h1 _ he' hp)).symm⟩
  · split at h
    · rename_i e he
      obtain ⟨full, has', code'⟩ := e
      cases h
      have hmem : (full, has, code) ∈ longOptions ∧ name.isPrefixOf full = true := by
        have := List.mem_filter.1 (he ▸ List.mem_singleton_self (full, has, code))
        exact this
      have hall : ∀ e ∈ longOptions, name <+: e.1 → e.1 = full := by
        intro e h1 hp
        have : e ∈ longOptions.filter (fun e => name.isPrefixOf e.1) := List.mem_filter.2 ⟨h1, List.isPrefixOf_iff_prefix.2 hp⟩
        rw [he, List.mem_singleton] at this
        rw [this]
      refine ⟨?_, full, hmem.1, List.isPrefixOf_iff_prefix.1 hmem.2, hall⟩
      rintro rfl
      obtain ⟨e1, k1, e2, k2, hne⟩ := names_several
      exact hne ((hall e1 k1 List.nil_prefix).trans (hall e2 k2 List.nil_prefix).symm)
    · cases h

theorem abbreviation_plain {name full : List Byte} {x : HasArg × Code} (hm : (full, x) ∈ longOptions)
    (ha : Abbreviates name full) : (61 : Byte) ∉ name :=
  fun h => (names_plain _ hm).1 (ha.1.subset h)

theorem takeWhile_plain {name : List Byte} (h : (61 : Byte) ∉ name) (v : List Byte) :
    name.takeWhile (· ≠ 61) = name ∧ name.dropWhile (· ≠ 61) = [] ∧
    (name ++ 61 :: v).takeWhile (· ≠ 61) = name ∧ (name ++ 61 :: v).dropWhile (· ≠ 61) = 61 :: v := by
  induction name with
  | nil => simp
  | cons a l ih =>
    have h1 : a ≠ 61 := fun e => h (e ▸ List.mem_cons_self)
    obtain ⟨i1, i2, i3, i4⟩ := ih (fun hm => h (List.mem_cons_of_mem _ hm))
    have hb : (fun x : Byte => decide (x ≠ 61)) a = true := by simpa using h1
    refine ⟨?_, ?_, ?_, ?_⟩
    · rw [List.takeWhile_cons_of_pos (p := fun x : Byte => decide (x ≠ 61)) hb, i1]
    · rw [List.dropWhile_cons_of_pos (p := fun x : Byte => decide (x ≠ 61)) hb, i2]
    · rw [List.cons_append, List.takeWhile_cons_of_pos (p := fun x : Byte => decide (x ≠ 61)) hb, i3]
    · rw [List.cons_append, List.dropWhile_cons_of_pos (p := fun x : Byte => decide (x ≠ 61)) hb, i4]

/-- The state in which a new argument is looked at. -/
def Scan.at_ (items : List Item) (files : List (List Byte)) : Scan := ⟨items, files, none, false⟩

theorem letters_flags {l : List Byte} {own : List Item} (h : Flags l own) (more : List Byte) : ∀ s : Scan,
    s.letters (l ++ more) = (s.add own).letters more := by
  induction h with
  | nil => intro s; simp [Scan.add]
  | cons hc _ ih =>
    intro s
    rw [List.cons_append, Scan.letters, hc]
    dsimp only
    rw [ih]
    simp [Scan.add]

/-- Letters have one of the forms. -/
theorem letters_cases : ∀ (l : List Byte) (s : Scan), Item.bad ∉ (s.letters l).items →
    (∃ own, Flags l own ∧ s.letters l = s.add own) ∨
    (∃ l1 ch v own code, l = l1 ++ ch :: v ∧ Flags l1 own ∧ shortOption ch = some (.required, code) ∧
      ((v ≠ [] ∧ s.letters l = s.add (own ++ [.opt code (some v)])) ∨
       (v = [] ∧ s.letters l = { s.add own with pending := some code })))
  | [], s, _ => .inl ⟨[], .nil, by simp [Scan.letters, Scan.add]⟩
  | ch :: l, s, hb => by
    rw [Scan.letters] at hb
    rw [Scan.letters]
    cases hc : shortOption ch with
    | none => rw [hc] at hb; simp [Scan.add] at hb
    | some x =>
      obtain ⟨has, code⟩ := x
      cases has with
      | optional => exact absurd hc shortOption_not_optional
      | no =>
        rw [hc] at hb
        dsimp only at hb ⊢
        rcases letters_cases l (s.add [.opt code none]) hb with ⟨own, h1, h2⟩ | ⟨l1, ch', v, own, code', h1, h2, h3, h4⟩
        · exact .inl ⟨.opt code none :: own, .cons hc h1, by rw [h2]; simp [Scan.add]⟩
        · refine .inr ⟨ch :: l1, ch', v, .opt code none :: own, code', by rw [h1]; rfl, .cons hc h2, h3, ?_⟩
          rcases h4 with ⟨k1, k2⟩ | ⟨k1, k2⟩
          · exact .inl ⟨k1, by rw [k2]; simp [Scan.add]⟩
          · exact .inr ⟨k1, by rw [k2]; simp [Scan.add]⟩
      | required =>
        dsimp only
        refine .inr ⟨[], ch, l, [], code, rfl, .nil, hc, ?_⟩
        by_cases hl : l = []
        · exact .inr ⟨hl, by rw [if_pos hl]; simp [Scan.add]⟩
        · exact .inl ⟨hl, by rw [if_neg hl]; simp⟩

/-- After `--`. -/
theorem fold_ended : ∀ (args : List (List Byte)) (items : List Item) (files : List (List Byte)),
    args.foldl Scan.arg ⟨items, files, none, true⟩ = ⟨items, files ++ args, none, true⟩
  | [], _, _ => by simp
  | a :: args, items, files => by
    rw [List.foldl_cons]
    have : Scan.arg ⟨items, files, none, true⟩ a = ⟨items, files ++ [a], none, true⟩ := rfl
    rw [this, fold_ended args]
    simp

theorem fold_bad (args : List (List Byte)) : ∀ s : Scan, Item.bad ∈ s.items → Item.bad ∈ (args.foldl Scan.arg s).items := by
  have lets : ∀ (l : List Byte) (s : Scan), s.items <+: (s.letters l).items := by
    intro l
    induction l with
    | nil => intro s; exact List.prefix_rfl
    | cons ch l ih =>
      intro s
      rw [Scan.letters]
      split
      · simp [Scan.add]
      · exact List.IsPrefix.trans (by simp [Scan.add]) (ih _)
      · split
        · exact List.prefix_rfl
        · simp [Scan.add]
  have lng : ∀ (l : List Byte) (s : Scan), s.items <+: (s.long l).items := by
    intro l s
    unfold Scan.long
    dsimp only
    split <;> first | exact List.prefix_rfl | simp [Scan.add]
  have one : ∀ (s : Scan) (a : List Byte), s.items <+: (s.arg a).items := by
    intro s a
    unfold Scan.arg
    split
    · simp [Scan.add]
    · split
      · exact List.prefix_rfl
      · split
        · exact List.prefix_rfl
        · exact lng _ _
        · exact lets _ _
        · exact List.prefix_rfl
  induction args with
  | nil => intro s h; exact h
  | cons a args ih => intro s h; exact ih _ ((one s a).subset h)

/-- The end of the scan. -/
def Scan.finish (s : Scan) : Scan :=
  match s.pending with
  | some _ => { s.add [.bad] with pending := none }
  | none => s

theorem scan_eq (args : List (List Byte)) : scan args = (args.foldl Scan.arg .start).finish := rfl

theorem at_file {a : List Byte} (h : a.head? ≠ some 45 ∨ a = [45]) (items : List Item) (files : List (List Byte)) :
    (Scan.at_ items files).arg a = .at_ items (files ++ [a]) := by
  rcases h with h | h
  · match a, h with
    | [], _ => rfl
    | c :: l, h =>
      have hc : c ≠ 45 := by simpa using h
      unfold Scan.arg Scan.at_
      dsimp only
      rw [if_neg (by simp)]
      split
      · rename_i h'; injection h' with h1; exact absurd h1 hc
      · rename_i h'; injection h' with h1; exact absurd h1 hc
      · rename_i h'; injection h' with h1; exact absurd h1 hc
      · rfl
  · subst h; rfl

theorem at_long {l : List Byte} (h : l ≠ []) (items : List Item) (files : List (List Byte)) :
    (Scan.at_ items files).arg (45 :: 45 :: l) = (Scan.at_ items files).long l := by
  match l, h with
  | c :: l, _ => rfl

theorem at_letters {ch : Byte} {l : List Byte} (h : ch ≠ 45) (items : List Item) (files : List (List Byte)) :
    (Scan.at_ items files).arg (45 :: ch :: l) = (Scan.at_ items files).letters (ch :: l) := by
  unfold Scan.arg Scan.at_
  dsimp only
  rw [if_neg (by simp)]
  split
  · rename_i h'; injection h' with _ h1; injection h1 with h1; exact absurd h1 h
  · rename_i h'; injection h' with _ h1; injection h1 with h1; exact absurd h1 h
  · rename_i h'; injection h' with _ h1; cases h1; rfl
  · rename_i h'; exact absurd rfl (h' _ _)

theorem flags_head {l : List Byte} {own : List Item} (h : Flags l own) : ∀ ch ∈ l.head?, ch ≠ 45 := by
  cases h with
  | nil => simp
  | cons hc _ => intro x hx; cases hx; exact shortOption_no_dash hc

theorem flags_ok {l : List Byte} {own : List Item} (h : Flags l own) : Item.bad ∉ own := by
  induction h with
  | nil => simp
  | cons _ _ ih => simpa using ih

theorem scan_of_writes {args : List (List Byte)} {items : List Item} {files : List (List Byte)} (h : Writes args items files) :
    Item.bad ∉ items ∧ ∀ items0 files0, ∃ e,
      args.foldl Scan.arg (.at_ items0 files0) = ⟨items0 ++ items, files0 ++ files, none, e⟩ := by
  induction h with
  | nil => exact ⟨by simp, fun i f => ⟨false, by simp [Scan.at_]⟩⟩
  | file ha _ ih =>
    refine ⟨ih.1, fun i f => ?_⟩
    obtain ⟨e, he⟩ := ih.2 i (f ++ [_])
    exact ⟨e, by rw [List.foldl_cons, at_file ha, he]; simp⟩
  | @rest files =>
    refine ⟨by simp, fun i f => ⟨true, ?_⟩⟩
    rw [List.foldl_cons]
    have : (Scan.at_ i f).arg [45, 45] = ⟨i, f, none, true⟩ := rfl
    rw [this, fold_ended]
    simp
  | @long name full has code args items files hn hm ha hh _ ih =>
    refine ⟨by simpa using ih.1, fun i f => ?_⟩
    obtain ⟨e, he⟩ := ih.2 (i ++ [.opt code none]) f
    refine ⟨e, ?_⟩
    obtain ⟨t1, t2, _, _⟩ := takeWhile_plain (abbreviation_plain hm ha) []
    rw [List.foldl_cons, at_long hn]
    have : (Scan.at_ i f).long name = .at_ (i ++ [.opt code none]) f := by
      unfold Scan.long
      dsimp only
      rw [t1, t2, findLong_of hm ha]
      cases has <;> first | rfl | exact absurd rfl hh
    rw [this, he]
    simp
  | @longEq name full value has code args items files hm ha hh _ ih =>
    refine ⟨by simpa using ih.1, fun i f => ?_⟩
    obtain ⟨e, he⟩ := ih.2 (i ++ [.opt code (some value)]) f
    refine ⟨e, ?_⟩
    obtain ⟨_, _, t3, t4⟩ := takeWhile_plain (abbreviation_plain hm ha) value
    rw [List.foldl_cons, at_long (by simp)]
    have : (Scan.at_ i f).long (name ++ 61 :: value) = .at_ (i ++ [.opt code (some value)]) f := by
      unfold Scan.long
      dsimp only
      rw [t3, t4, findLong_of hm ha]
      cases has <;> first | rfl | exact absurd rfl hh
    rw [this, he]
    simp
  | @longNext name full value code args items files hn hm ha _ ih =>
    refine ⟨by simpa using ih.1, fun i f => ?_⟩
    obtain ⟨e, he⟩ := ih.2 (i ++ [.opt code (some value)]) f
    refine ⟨e, ?_⟩
    obtain ⟨t1, t2, _, _⟩ := takeWhile_plain (abbreviation_plain hm ha) []
    rw [List.foldl_cons, List.foldl_cons, at_long hn]
    have : (Scan.at_ i f).long name = ⟨i, f, some code, false⟩ := by
      unfold Scan.long
      dsimp only
      rw [t1, t2, findLong_of hm ha]
      rfl
    rw [this]
    have : Scan.arg ⟨i, f, some code, false⟩ value = .at_ (i ++ [.opt code (some value)]) f := rfl
    rw [this, he]
    simp
  | @flags l own args items files hl hf _ ih =>
    refine ⟨by simp [ih.1, flags_ok hf], fun i f => ?_⟩
    obtain ⟨e, he⟩ := ih.2 (i ++ own) f
    refine ⟨e, ?_⟩
    match l, hl, hf with
    | ch :: l, _, hf =>
      rw [List.foldl_cons, at_letters (flags_head hf ch rfl)]
      have := letters_flags hf [] (Scan.at_ i f)
      rw [List.append_nil] at this
      rw [this, Scan.letters]
      have : (Scan.at_ i f).add own = .at_ (i ++ own) f := rfl
      rw [this, he]
      simp
  | @value l value ch code own args items files hv hf hc _ ih =>
    refine ⟨by simp [ih.1, flags_ok hf], fun i f => ?_⟩
    obtain ⟨e, he⟩ := ih.2 (i ++ own ++ [.opt code (some value)]) f
    refine ⟨e, ?_⟩
    have h1 : (Scan.at_ i f).arg (45 :: (l ++ ch :: value)) = (Scan.at_ i f).letters (l ++ ch :: value) := by
      cases l with
      | nil => exact at_letters (shortOption_no_dash hc) _ _
      | cons a l => exact at_letters (flags_head hf a rfl) _ _
    have h2 : (Scan.at_ i f).letters (l ++ ch :: value) = .at_ (i ++ own ++ [.opt code (some value)]) f := by
      rw [letters_flags hf, Scan.letters, hc]
      dsimp only
      rw [if_neg hv]
      rfl
    rw [List.foldl_cons, h1, h2, he]
    simp
  | @valueNext l value ch code own args items files hf hc _ ih =>
    refine ⟨by simp [ih.1, flags_ok hf], fun i f => ?_⟩
    obtain ⟨e, he⟩ := ih.2 (i ++ own ++ [.opt code (some value)]) f
    refine ⟨e, ?_⟩
    have h1 : (Scan.at_ i f).arg (45 :: (l ++ [ch])) = (Scan.at_ i f).letters (l ++ [ch]) := by
      cases l with
      | nil => exact at_letters (shortOption_no_dash hc) _ _
      | cons a l => exact at_letters (flags_head hf a rfl) _ _
    have h2 : (Scan.at_ i f).letters (l ++ [ch]) = ⟨i ++ own, f, some code, false⟩ := by
      rw [letters_flags hf, Scan.letters, hc]
      rfl
    rw [List.foldl_cons, List.foldl_cons, h1, h2]
    have : Scan.arg ⟨i ++ own, f, some code, false⟩ value = .at_ (i ++ own ++ [.opt code (some value)]) f := rfl
    rw [this, he]
    simp

theorem writes_of_scan : ∀ (n : Nat) (args : List (List Byte)), args.length ≤ n → ∀ items0 files0,
    Item.bad ∉ (args.foldl Scan.arg (.at_ items0 files0)).finish.items →
    ∃ items files, Writes args items files
  | _, [], _, _, _, _ => ⟨[], [], .nil⟩
  | n + 1, a :: args, hn, i, f, hb => by
    have hn' : args.length ≤ n := by simpa using hn
    have nofin : ∀ s : Scan, Item.bad ∈ s.items → Item.bad ∈ s.finish.items := by
      intro s hs
      unfold Scan.finish
      split
      · simp [Scan.add]
      · exact hs
    have clean : ∀ s : Scan, (Item.bad ∉ (args.foldl Scan.arg s).finish.items) → Item.bad ∉ s.items :=
      fun s hs hm => hs (nofin _ (fold_bad args s hm))
    -- an option waits for its argument
    have wait : ∀ (i' : List Item) (code : Code), Item.bad ∉ (args.foldl Scan.arg ⟨i', f, some code, false⟩).finish.items →
        ∃ v args' items files, args = v :: args' ∧ Writes args' items files := by
      intro i' code h
      match args, hn' with
      | [], _ => simp [Scan.finish, Scan.add] at h
      | v :: args', hn' =>
        rw [List.foldl_cons] at h
        have : Scan.arg ⟨i', f, some code, false⟩ v = .at_ (i' ++ [Item.opt code (some v)]) f := rfl
        rw [this] at h
        match n, hn' with
        | n + 1, hn' =>
        obtain ⟨items, files, hw⟩ := writes_of_scan n args' (by simp at hn'; omega) _ _ h
        exact ⟨v, args', items, files, rfl, hw⟩
    rw [List.foldl_cons] at hb
    by_cases h0 : a.head? ≠ some 45 ∨ a = [45]
    · rw [at_file h0] at hb
      obtain ⟨items, files, hw⟩ := writes_of_scan n args hn' _ _ hb
      exact ⟨_, _, .file h0 hw⟩
    rw [not_or, not_ne_iff] at h0
    match a, h0 with
    | [], h0 => simp at h0
    | [c], h0 => exact absurd (by simpa using h0.1) (fun e : c = 45 => h0.2 (by rw [e]))
    | c :: d :: l, h0 =>
      have hc : c = 45 := by simpa using h0.1
      subst hc
      by_cases hd : d = 45
      · subst hd
        by_cases hl : l = []
        · subst hl; exact ⟨_, _, .rest⟩
        rw [at_long hl] at hb
        have hb1 := clean _ hb
        unfold Scan.long at hb hb1
        dsimp only at hb hb1
        -- the two parts
        have split_l : l = l.takeWhile (· ≠ 61) ∧ l.dropWhile (· ≠ 61) = [] ∨
            ∃ v, l.dropWhile (· ≠ 61) = 61 :: v ∧ l = l.takeWhile (· ≠ 61) ++ 61 :: v := by
          have hj := List.takeWhile_append_dropWhile (p := fun b : Byte => decide (b ≠ 61)) (l := l)
          cases hdw : l.dropWhile (· ≠ 61) with
          | nil => rw [hdw, List.append_nil] at hj; exact .inl ⟨hj.symm, rfl⟩
          | cons x v =>
            have hx : x = 61 := by
              have := List.head?_dropWhile_not (fun b : Byte => decide (b ≠ 61)) l
              rw [hdw] at this
              simpa using this
            subst hx
            rw [hdw] at hj
            exact .inr ⟨v, rfl, hj.symm⟩
        generalize hnm : l.takeWhile (· ≠ 61) = name at hb hb1 split_l
        generalize hdr : l.dropWhile (· ≠ 61) = drop at hb hb1 split_l
        cases hf : findLong name with
        | none => rw [hf] at hb1; simp [Scan.add] at hb1
        | some x =>
          obtain ⟨has, code⟩ := x
          obtain ⟨hne, full, hm, ha⟩ := of_findLong hf
          rw [hf] at hb hb1
          rcases split_l with ⟨h1, h2⟩ | ⟨v, h1, h2⟩
          · rw [h2] at hb hb1
            rw [h1]
            cases has with
            | no =>
              obtain ⟨items, files, hw⟩ := writes_of_scan n args hn' (i ++ [Item.opt code none]) f hb
              exact ⟨_, _, .long hne hm ha (by decide) hw⟩
            | optional =>
              obtain ⟨items, files, hw⟩ := writes_of_scan n args hn' (i ++ [Item.opt code none]) f hb
              exact ⟨_, _, .long hne hm ha (by decide) hw⟩
            | required =>
              obtain ⟨v, args', items, files, e, hw⟩ := wait i code hb
              rw [e]
              exact ⟨_, _, .longNext hne hm ha hw⟩
          · rw [h1] at hb hb1
            rw [h2]
            cases has with
            | no => simp [Scan.add] at hb1
            | optional =>
              obtain ⟨items, files, hw⟩ := writes_of_scan n args hn' (i ++ [Item.opt code (some v)]) f hb
              exact ⟨_, _, .longEq hm ha (by decide) hw⟩
            | required =>
              obtain ⟨items, files, hw⟩ := writes_of_scan n args hn' (i ++ [Item.opt code (some v)]) f hb
              exact ⟨_, _, .longEq hm ha (by decide) hw⟩
      · rw [at_letters hd] at hb
        rcases letters_cases (d :: l) _ (clean _ hb) with ⟨own, h1, h2⟩ | ⟨l1, ch, v, own, code, h1, h2, h3, h4⟩
        · rw [h2] at hb
          obtain ⟨items, files, hw⟩ := writes_of_scan n args hn' (i ++ own) f hb
          exact ⟨_, _, .flags (by simp) h1 hw⟩
        · rcases h4 with ⟨k1, k2⟩ | ⟨k1, k2⟩
          · rw [k2] at hb
            obtain ⟨items, files, hw⟩ := writes_of_scan n args hn' (i ++ (own ++ [Item.opt code (some v)])) f hb
            rw [h1]
            exact ⟨_, _, .value k1 h2 h3 hw⟩
          · rw [k2] at hb
            obtain ⟨v', args', items, files, e, hw⟩ := wait (i ++ own) code hb
            rw [h1, k1, e]
            exact ⟨_, _, .valueNext h2 h3 hw⟩

/-- **C90, forms**: the arguments are understood as options and files exactly if they are written in the usual forms, and then
as these. -/
theorem C90_forms (args : List (List Byte)) (items : List Item) (files : List (List Byte)) :
    Writes args items files ↔ (scan args).items = items ∧ (scan args).files = files ∧ Item.bad ∉ items := by
  have fwd : ∀ {items files}, Writes args items files →
      (scan args).items = items ∧ (scan args).files = files ∧ Item.bad ∉ items := by
    intro items files h
    obtain ⟨h1, h2⟩ := scan_of_writes h
    obtain ⟨e, he⟩ := h2 [] []
    have : args.foldl Scan.arg .start = ⟨items, files, none, e⟩ := he
    rw [scan_eq, this]
    exact ⟨rfl, rfl, h1⟩
  refine ⟨fwd, ?_⟩
  rintro ⟨rfl, rfl, hb⟩
  obtain ⟨items, files, hw⟩ := writes_of_scan _ args (Nat.le_refl _) [] [] hb
  obtain ⟨h1, h2, _⟩ := fwd hw
  rw [h1, h2]
  exact hw

end BeagleG.Life.Cmd
