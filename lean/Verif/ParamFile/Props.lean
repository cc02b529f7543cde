import Verif.ParamFile.Lemmas
/-!
# Properties of the parameter file

* C11: what is saved comes back.
* C12: a save that is killed at any point leaves a complete file.
-/
namespace BeagleG.ParamFile
open Text Expr BeagleG.Parser

variable {V : Type} {cd : Codec V} {rnd : V → V}

/-! ### C11 -/

/-- Parameters as they can be in the map, in the order of the map, with three exceptions: there is no negative
number, no name starts with a digit, and no name is so long that its entry does not fit into the 256 byte buffer. -/
structure Regular (cd : Codec V) (ps : List (List Byte × V)) : Prop where
  sorted : ps.Pairwise (fun a b => a.1 < b.1)
  keys : ∀ p ∈ ps, IsNumber p.1 ∨ ∃ c cs, p.1 = c :: cs ∧ 58 ≤ c
  words : ∀ p ∈ ps, p.1.head? = some 95 → Word p.1
  fits : ∀ p ∈ ps, Fits cd p.1 p.2

/-- The parameters that are to be kept: those with a number other than 0, and the global names, unless they are
zero. -/
def Persists (cd : Codec V) (ps : List (List Byte × V)) (k : List Byte) (v : V) : Prop :=
  (k, v) ∈ ps ∧ cd.isZero v = false ∧ ((∃ n, 0 < n ∧ k = printNat n) ∨ k.head? = some 95)

/-- **C11, no file**: then the first coordinate system is selected and every other parameter is what it was. -/
theorem C11_without_file (p : List Byte → Option V) : load cd none p [53, 50, 50, 48] = some cd.one ∧
    ∀ k, k ≠ [53, 50, 50, 48] → load cd none p k = p k := by
  refine ⟨?_, fun k hk => ?_⟩
  · simp [load, put, selected]
  · simp [load, put, selected, hk]

theorem sorted_ne {ps : List (List Byte × V)} (h : ps.Pairwise (fun a b => a.1 < b.1)) :
    ps.Pairwise (fun a b => a.1 ≠ b.1) :=
  h.imp fun {a b} h e => by
    rw [e] at h
    exact List.lt_irrefl _ h

theorem startsDigit_high {c : Byte} (h : 58 ≤ c) (cs : List Byte) : startsDigit (c :: cs) = false := by
  simp only [startsDigit, isDigit, Bool.and_eq_false_iff, decide_eq_false_iff_not]
  right
  rw [UInt8.le_iff_toNat_le] at h ⊢
  have h1 : (58 : Byte).toNat = 58 := rfl
  have h2 : (57 : Byte).toNat = 57 := rfl
  omega

theorem Regular.front (h : Regular cd ps) : ps.Pairwise (fun a b => startsDigit b.1 = true → startsDigit a.1 = true) := by
  have hk := h.keys
  refine List.Pairwise.imp_of_mem (fun {a b} ha hb hlt hs => ?_) h.sorted
  rcases hk a ha with ⟨n, e⟩ | ⟨c, cs, e, hc⟩
  · rw [e]; exact startsDigit_printNat n
  · exfalso
    rcases hk b hb with ⟨m, e'⟩ | ⟨d, ds, e', hd⟩
    · rw [e] at hlt
      cases hb' : b.1 with
      | nil => rw [hb'] at hs; cases hs
      | cons d ds =>
        rw [hb'] at hlt hs
        have : c ≤ d := by
          rcases List.cons_lt_cons_iff.1 hlt with h | ⟨h, _⟩
          · exact UInt8.le_of_lt h
          · exact h ▸ UInt8.le_refl _
        rw [startsDigit_high (UInt8.le_trans hc this)] at hs
        cases hs
    · rw [e', startsDigit_high hd] at hs
      cases hs

theorem Regular.number (h : Regular cd ps) : ∀ p ∈ ps, startsDigit p.1 = true → IsNumber p.1 := by
  intro p hp hs
  rcases h.keys p hp with hn | ⟨c, cs, e, hc⟩
  · exact hn
  · rw [e, startsDigit_high hc] at hs; cases hs

theorem Regular.nonempty (h : Regular cd ps) : ∀ p ∈ ps, p.1 ≠ [] := by
  intro p hp
  rcases h.keys p hp with ⟨n, e⟩ | ⟨c, cs, e, _⟩
  · rw [e]; exact (printNat_digits n).1
  · rw [e]; simp

/-- The lines of the file. -/
def saveLines (cd : Codec V) (ps : List (List Byte × V)) : List (List Byte) :=
  numericEntries cd (collectNumeric ps []) ++
    (if nameEntries cd ps = [] then [] else [[10], heading.drop 1] ++ nameEntries cd ps)

theorem saveText_lines (ps : List (List Byte × V)) : saveText cd ps = (saveLines cd ps).flatten := by
  unfold saveText saveLines
  split
  · simp
  · rw [heading_lines]
    simp

theorem collect_sorted : ∀ (ps : List (List Byte × V)) (acc : List (Nat × V)),
    acc.Pairwise (fun a b => a.1 < b.1) → (collectNumeric ps acc).Pairwise (fun a b => a.1 < b.1)
  | [], _, h => h
  | (k, v) :: ps, acc, h => by
    simp only [collectNumeric]
    split
    · exact collect_sorted ps acc h
    · split
      · exact h
      · exact collect_sorted ps _ (mem_insertNum h).2

/-- **C11. What is saved comes back**: after saving regular parameters and loading the file into any map, each
parameter that is to be kept has its value, as far as it is printed, and every other parameter has the value it had
before, with 1 as the default for 5220. In particular names that are not global are not kept, and zero comes back as
"not set". -/
theorem C11_roundtrip_partial (ok : CodecOk cd rnd) {ps : List (List Byte × V)} (h : Regular cd ps)
    (p : List Byte → Option V) (k : List Byte) :
    (∀ v, Persists cd ps k v → load cd (some (saveText cd ps)) p k = some (rnd v)) ∧
      ((∀ v, ¬ Persists cd ps k v) →
        load cd (some (saveText cd ps)) p k = if k = [53, 50, 50, 48] then some cd.one else p k) := by
  have hmem := mem_collect (acc := ([] : List (Nat × V))) List.Pairwise.nil (sorted_ne h.sorted) h.number h.front
    h.nonempty
  have hcs := collect_sorted ps [] List.Pairwise.nil
  -- the entries
  let A : List (List Byte × V) := ((collectNumeric ps []).filter fun p => decide (p.1 ≠ 0) && !cd.isZero p.2).map
    fun p => (printNat p.1, p.2)
  let B : List (List Byte × V) := ps.filter fun p => decide (p.1.head? = some 95) && !cd.isZero p.2
  have eA : numericEntries cd (collectNumeric ps []) = A.map fun e => entry cd e.1 e.2 := by
    rw [numericEntries_eq]
    simp [A, Function.comp_def]
  have eB : nameEntries cd ps = B.map fun e => entry cd e.1 e.2 := nameEntries_eq ps
  have mA : ∀ k v, (k, v) ∈ A ↔ ∃ n, 0 < n ∧ k = printNat n ∧ (k, v) ∈ ps ∧ cd.isZero v = false := by
    intro k v
    simp only [A, List.mem_map, List.mem_filter, Prod.mk.injEq, Bool.and_eq_true, decide_eq_true_eq,
      Bool.not_eq_true', Prod.exists]
    constructor
    · rintro ⟨n, w, ⟨h1, h2, h3⟩, rfl, rfl⟩
      refine ⟨n, Nat.pos_of_ne_zero h2, rfl, ?_, h3⟩
      rcases (hmem n w).1 h1 with h | ⟨_, h⟩
      · exact h
      · simp at h
    · rintro ⟨n, h1, rfl, h2, h3⟩
      exact ⟨n, v, ⟨(hmem n v).2 (.inl h2), by omega, h3⟩, rfl, rfl⟩
  have mB : ∀ k v, (k, v) ∈ B ↔ (k, v) ∈ ps ∧ k.head? = some 95 ∧ cd.isZero v = false := by
    intro k v
    simp [B]
  have wA : ∀ e ∈ A, Word e.1 := by
    rintro ⟨k, v⟩ he
    obtain ⟨n, _, rfl, _⟩ := (mA k v).1 he
    exact word_printNat n
  have wB : ∀ e ∈ B, Word e.1 := by
    rintro ⟨k, v⟩ he
    obtain ⟨h1, h2, _⟩ := (mB k v).1 he
    exact h.words _ h1 h2
  have dA : A.Pairwise (fun a b => a.1 ≠ b.1) := by
    refine List.Pairwise.map _ (R := fun a b : Nat × V => a.1 < b.1) ?_ (List.Pairwise.filter _ hcs)
    intro a b hab e
    have := printNat_inj e
    omega
  have dB : B.Pairwise (fun a b => a.1 ≠ b.1) := List.Pairwise.filter _ (sorted_ne h.sorted)
  -- reading the lines
  have hlines : ∀ l ∈ saveLines cd ps, Line l := by
    intro l hl
    unfold saveLines at hl
    rcases List.mem_append.1 hl with hl | hl
    · rw [eA] at hl
      obtain ⟨⟨k, v⟩, he, rfl⟩ := List.mem_map.1 hl
      obtain ⟨n, _, _, h2, _⟩ := (mA k v).1 he
      exact entry_isLine ok (wA _ he) (h.fits _ h2)
    · split at hl
      · simp at hl
      · rcases List.mem_append.1 hl with hl | hl
        · rcases List.mem_cons.1 hl with rfl | hl
          · exact ⟨[], rfl, by simp, by simp⟩
          · rw [List.mem_singleton.1 hl]
            exact ⟨(heading.drop 1).dropLast, by decide +kernel, by decide +kernel, by decide +kernel⟩
        · rw [eB] at hl
          obtain ⟨⟨k, v⟩, he, rfl⟩ := List.mem_map.1 hl
          obtain ⟨h2, _⟩ := (mB k v).1 he
          exact entry_isLine ok (wB _ he) (h.fits _ h2)
  have hload : load cd (some (saveText cd ps)) p =
      loadLines cd (B.map fun e => entry cd e.1 e.2) (loadLines cd (A.map fun e => entry cd e.1 e.2)
        (put p selected cd.one)) := by
    simp only [load]
    rw [saveText_lines, fileLines_flatten _ _ hlines (by omega)]
    unfold saveLines
    rw [loadLines_append, eA]
    split
    · rename_i hb
      rw [← eB, hb]
    · rw [loadLines_append, eB]
      congr 1
      simp only [loadLines, (scan_heading ok).1, (scan_heading ok).2]
  obtain ⟨a1, a2⟩ := load_entries ok A (put p selected cd.one) wA dA
  obtain ⟨b1, b2⟩ := load_entries ok B (loadLines cd (A.map fun e => entry cd e.1 e.2) (put p selected cd.one)) wB dB
  rw [hload]
  constructor
  · rintro v ⟨h1, h2, hk⟩
    by_cases hB : k.head? = some 95
    · exact b1 k v ((mB k v).2 ⟨h1, hB, h2⟩)
    · rcases hk with ⟨n, hn, rfl⟩ | hk
      · rw [b2 _ (fun v hv => hB ((mB _ v).1 hv).2.1)]
        exact a1 _ v ((mA _ v).2 ⟨n, hn, rfl, h1, h2⟩)
      · exact absurd hk hB
  · intro hno
    rw [b2 k, a2 k]
    · rfl
    · intro v hv
      obtain ⟨n, h1, h2, h3, h4⟩ := (mA k v).1 hv
      exact hno v ⟨h3, h4, .inl ⟨n, h1, h2⟩⟩
    · intro v hv
      obtain ⟨h1, h2, h3⟩ := (mB k v).1 hv
      exact hno v ⟨h1, h3, .inr h2⟩

/-! ### C12 -/

/-- Any number of saves, each of which may be killed after any of its system calls. The list of contents is that of the
saves which renamed the temporary file, the newest first, in front of what was there at the beginning. -/
inductive History (first : List Byte) (d0 : Disk) : List (List Byte) → Disk → Prop
  | start : History first d0 [first] d0
  /-- a save that is killed, or finds an error, before its last step -/
  | killed {done : List (List Byte)} {d : Disk} {content : List Byte} {ops pre post : List Op} {r : Bool} :
      History first d0 done d → SaveRun content d ops r → ops = pre ++ post → (r = false ∨ post ≠ []) → History first d0 done (d.run pre)
  /-- a save that reports success -/
  | saved {done : List (List Byte)} {d : Disk} {content : List Byte} {ops : List Op} :
      History first d0 done d → SaveRun content d ops true → History first d0 (content :: done) (d.run ops)

theorem run_append (d : Disk) (a b : List Op) : d.run (a ++ b) = (d.run a).run b := by
  induction a generalizing d with
  | nil => rfl
  | cons op a ih => exact ih _

theorem run_chunks (d : Disk) : ∀ (chunks : List (List Byte)) (c : List Byte),
    Disk.run (fun n => if n = .tmp then some c else d n) (chunks.map .append) =
      fun n => if n = .tmp then some (c ++ chunks.flatten) else d n
  | [], c => by simp [Disk.run]
  | b :: chunks, c => by
    simp only [List.map_cons, Disk.run]
    have : Disk.step (fun n => if n = .tmp then some c else d n) (.append b) =
        fun n => if n = .tmp then some (c ++ b) else d n := by
      funext n
      by_cases h : n = .tmp <;> simp [Disk.step, h]
    rw [this, run_chunks d chunks (c ++ b)]
    simp

theorem run_written (d : Disk) (chunks : List (List Byte)) :
    d.run (.create :: chunks.map .append) = fun n => if n = .tmp then some chunks.flatten else d n := by
  have := run_chunks d chunks []
  simpa [Disk.run, Disk.step] using this

/-- A part of a list of portions, as operations. -/
theorem prefix_written {chunks : List (List Byte)} {pre post : List Op}
    (h : Op.create :: chunks.map Op.append = pre ++ post) :
    pre = [] ∨ ∃ c, pre = .create :: (chunks.take c).map .append := by
  cases pre with
  | nil => exact .inl rfl
  | cons op pre =>
    injection h with h1 h2
    subst h1
    right
    refine ⟨pre.length, ?_⟩
    congr 1
    have h2' : chunks.map Op.append = pre ++ post := h2
    rw [List.map_take, h2', List.take_left' rfl]

/-- What a save can leave behind in the three files. -/
theorem save_prefix {content : List Byte} {d : Disk} {ops pre post : List Op} {r : Bool}
    (h : SaveRun content d ops r) (e : ops = pre ++ post) :
    -- only the temporary file is touched
    ((d.run pre) .param = d .param ∧ (d.run pre) .bak = d .bak ∧ (r = false ∨ post ≠ [])) ∨
    -- the old file has got its second name, the temporary file is complete
    ((d.run pre) .param = none ∧ (d.run pre) .bak = d .param ∧ (d .param).isSome ∧ (d.run pre) .tmp = some content ∧
      (r = false ∨ post ≠ [])) ∨
    -- the new file is in place
    ((d.run pre) .param = some content ∧ r = true ∧ post = []) := by
  have key : ∀ {chunks : List (List Byte)} {pre post : List Op},
      Op.create :: chunks.map Op.append = pre ++ post → (d.run pre) .param = d .param ∧ (d.run pre) .bak = d .bak := by
    intro chunks pre post h
    rcases prefix_written h with rfl | ⟨c, rfl⟩
    · exact ⟨rfl, rfl⟩
    · rw [run_written]; exact ⟨rfl, rfl⟩
  cases h with
  | noFile =>
    have : pre = [] := by
      cases pre with
      | nil => rfl
      | cons a b => simp at e
    subst this
    exact .inl ⟨rfl, rfl, .inl rfl⟩
  | full chunks => exact .inl ⟨(key e).1, (key e).2, .inl rfl⟩
  | written chunks w1 w2 hc =>
    -- the two renames
    have hw := run_written d chunks
    have h1 : d.run (.create :: chunks.map .append ++ [.rename .param .bak w1]) =
        Disk.step (fun n => if n = .tmp then some chunks.flatten else d n) (.rename .param .bak w1) := by
      rw [run_append, hw]; rfl
    have hstep : (fun n => if n = Name.tmp then some chunks.flatten else d n : Disk) .param = d .param := rfl
    rw [h1]
    rcases List.append_eq_append_iff.1 e with ⟨m, e1, e2⟩ | ⟨m, e1, e2⟩
    · -- pre = all writes ++ m
      cases m with
      | nil =>
        simp only [List.append_nil] at e1
        subst e1
        left
        rw [hw]
        refine ⟨rfl, rfl, .inr ?_⟩
        rintro rfl
        simp at e2
      | cons op m =>
        simp only [List.cons_append] at e2
        injection e2 with e2 e3
        subst e2
        cases m with
        | nil =>
          subst e1
          have hpost : post ≠ [] := by rintro rfl; simp at e3
          rw [h1]
          simp only [Disk.step, hstep]
          cases hp : d .param with
          | none => left; exact ⟨by simp [hp], by simp, .inr hpost⟩
          | some old =>
            cases w1 with
            | false => left; exact ⟨by simp [hp], by simp, .inr hpost⟩
            | true => right; left; exact ⟨by simp, by simp, by simp, by simp [hc], .inr hpost⟩
        | cons op2 m =>
          simp only [List.cons_append] at e3
          injection e3 with e3 e4
          subst e3
          have hm : m = [] ∧ post = [] := by
            simpa using e4.symm
          obtain ⟨rfl, rfl⟩ := hm
          have e5 : pre = (.create :: chunks.map .append ++ [.rename .param .bak w1]) ++ [.rename .tmp .param w2] := by
            rw [e1]; simp
          rw [e5, run_append, h1]
          simp only [Disk.run]
          cases hp : d .param with
          | none =>
            simp only [Disk.step, hp]
            cases w2 with
            | false => left; simp [hp, renamed]
            | true => right; right; simp [hc, renamed]
          | some old =>
            cases w1 with
            | false =>
              simp only [Disk.step, hp]
              cases w2 with
              | false => left; simp [hp, renamed]
              | true => right; right; simp [hc, renamed]
            | true =>
              simp only [Disk.step, hp]
              cases w2 with
              | false => right; left; simp [hc, renamed]
              | true => right; right; simp [hc, renamed]
    · refine .inl ⟨(key e1).1, (key e1).2, .inr ?_⟩
      rintro rfl
      simp at e2

/-- **C12, one save**: at whatever point it is killed, the parameter file is the previous one or the new one, complete,
or it is missing; if it is missing although there was one, the previous one is the backup and the new one is the
temporary file, both complete. -/
theorem C12_killed_save {content : List Byte} {d : Disk} {ops pre post : List Op} {r : Bool}
    (h : SaveRun content d ops r) (e : ops = pre ++ post) :
    (d.run pre) .param = d .param ∨ (d.run pre) .param = some content ∨
      ((d.run pre) .param = none ∧ (d.run pre) .bak = d .param ∧ (d.run pre) .tmp = some content) := by
  rcases save_prefix h e with h | h | h
  · exact .inl h.1
  · exact .inr (.inr ⟨h.1, h.2.1, h.2.2.2.1⟩)
  · exact .inr (.inl h.1)

/-- **C12, any number of saves**, each killed at any point: the newest set that was completely saved is the parameter
file, or the backup while there is no parameter file. The parameter file never has any other content. -/
theorem C12_history {first : List Byte} {d0 : Disk} (h0 : d0 .param = some first) {done : List (List Byte)} {d : Disk}
    (h : History first d0 done d) : ∃ c, done.head? = some c ∧
      (d .param = some c ∨ (d .param = none ∧ d .bak = some c)) := by
  induction h with
  | start => exact ⟨first, rfl, .inl h0⟩
  | @killed done d content ops pre post r _ hs e hk ih =>
    obtain ⟨c, hc, ih⟩ := ih
    refine ⟨c, hc, ?_⟩
    rcases save_prefix hs e with h | h | h
    · rw [h.1, h.2.1]; exact ih
    · rcases ih with ih | ih
      · right; rw [h.1, h.2.1]; exact ⟨rfl, ih⟩
      · rw [ih.1] at h; simp at h
    · rcases hk with hk | hk
      · rw [hk] at h; simp at h
      · exact absurd h.2.2 hk
  | @saved done d content ops _ hs ih =>
    refine ⟨content, rfl, .inl ?_⟩
    rcases save_prefix hs (List.append_nil ops).symm with h | h | h
    · simp at h
    · simp at h
    · exact h.1

end BeagleG.ParamFile
