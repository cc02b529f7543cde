import Verif.PruHw.Model
import Mathlib.Order.Basic
import Mathlib.Tactic.ByContra

/-!
# C71: the firmware that runs is the one that was loaded
-/
namespace BeagleG.PruHw

/-! ### The device -/

theorem nameMatches_iff (l : List Char) :
    nameMatches l = true ↔ ∃ r, l = uioName ++ r ∧ (r = [] ∨ r.head? = some '\n' ∨ r.head? = some '@') := by
  unfold nameMatches
  constructor
  · intro h
    rw [Bool.and_eq_true] at h
    obtain ⟨h1, h2⟩ := h
    have e : l.take uioName.length = uioName := by simpa using h1
    refine ⟨l.drop uioName.length, ?_, ?_⟩
    · conv_lhs => rw [← List.take_append_drop uioName.length l, e]
    · rw [List.head?_drop]
      cases hg : l[uioName.length]? with
      | none => left; exact List.drop_eq_nil_of_le (List.getElem?_eq_none_iff.mp hg)
      | some c =>
        rw [hg] at h2
        right
        simpa using h2
  · rintro ⟨r, rfl, h⟩
    rw [Bool.and_eq_true]
    refine ⟨by simp, ?_⟩
    have e : (uioName ++ r)[uioName.length]? = r.head? := by
      rw [List.getElem?_append_right (le_refl _), Nat.sub_self, List.head?_eq_getElem?]
    rw [e]
    rcases h with rfl | h | h
    · simp
    · simp [h]
    · simp [h]

/-- What `fgets` returns is a prefix. -/
theorem fgets_prefix (n : Nat) (l : List Char) : fgets n l <+: l := by
  induction l generalizing n with
  | nil => simp [fgets]
  | cons c r ih =>
    cases n with
    | zero => simp [fgets]
    | succ n =>
      rw [fgets]
      split
      · exact ⟨r, rfl⟩
      · exact (List.cons_prefix_cons).mpr ⟨rfl, ih n⟩

/-- C71. The device that is opened is the first one in the directory, not hidden, whose name is that of the overlay, alone or with
a suffix that begins with `@`. -/
theorem C71_device (dir : Option (List Entry)) (p : List Char) (h : findDevice dir = some p) :
    ∃ es before e after, dir = some es ∧ es = before ++ e :: after ∧ p = "/dev/".toList ++ e.dname ∧
      e.dname.head? ≠ some '.' ∧ (∀ x ∈ before, x.isOurs = false) ∧
      ∃ l, e.line = some l ∧ uioName <+: l := by
  cases dir with
  | none => simp [findDevice] at h
  | some es =>
    simp only [findDevice, Option.map_eq_some_iff] at h
    obtain ⟨e, he, rfl⟩ := h
    rw [List.find?_eq_some_iff_append] at he
    obtain ⟨ho, b, a, hs, hb⟩ := he
    refine ⟨es, b, e, a, rfl, hs, rfl, ?_, fun x hx => by simpa using hb x hx, ?_⟩
    · intro hd
      rw [Entry.isOurs, hd] at ho
      simp at ho
    · unfold Entry.isOurs at ho
      cases hl : e.line with
      | none => simp [hl] at ho
      | some l =>
        simp only [hl, Bool.and_eq_true] at ho
        obtain ⟨r, hr, -⟩ := (nameMatches_iff _).mp ho.2.2
        exact ⟨l, rfl, (List.prefix_append uioName r).trans (hr ▸ fgets_prefix 63 l)⟩

/-- C71. No device is missed: if some entry that is not hidden has the name, one is found. -/
theorem C71_device_found (es : List Entry) (e : Entry) (he : e ∈ es) (hd : e.dname.head? ≠ some '.')
    (l : List Char) (hl : e.line = some l) (hm : nameMatches (fgets 63 l) = true) :
    (findDevice (some es)).isSome = true := by
  have ho : e.isOurs = true := by
    have : (fgets 63 l).isEmpty = false := by
      obtain ⟨r, hr, -⟩ := (nameMatches_iff _).mp hm
      rw [hr]; rfl
    simp [Entry.isOurs, hl, hm, hd, this]
  simp only [findDevice, Option.isSome_map, List.find?_isSome]
  exact ⟨e, he, ho⟩

/-- The names that the kernel reports are recognised, a longer name is not. -/
example : (Entry.mk "uio0".toList (some "beagleg_pru_irq\n".toList)).isOurs = true ∧
    (Entry.mk "uio0".toList (some "beagleg_pru_irq@4a300000\n".toList)).isOurs = true ∧
    (Entry.mk "uio0".toList (some "beagleg_pru_irq2\n".toList)).isOurs = false ∧
    (Entry.mk "uio0".toList (some "beagleg_pru\n".toList)).isOurs = false ∧
    (Entry.mk ".x".toList (some "beagleg_pru_irq\n".toList)).isOurs = false := by decide +kernel

/-- C71. The paths fit their buffers, for names of up to `NAME_MAX` = 255 bytes: lines 105 and 111. -/
theorem C71_paths_fit (n : List Char) (h : n.length ≤ 255) :
    ("/dev/".toList ++ n).length + 1 ≤ ("/dev/".toList.length + 1) + 255 ∧
    ("/sys/class/uio/".toList ++ n ++ "/name".toList).length + 1
      ≤ ("/sys/class/uio/".toList.length + 1) + 255 + ("/name".toList.length + 1) := by
  simp only [List.length_append]
  omega

/-! ### Resources -/

/-- C71. `Init` succeeds exactly if the device was found and opened and all three memories were mapped; only then are the pointers
used. -/
theorem C71_init (a : Answers) :
    (init a).2.1 = true ↔ (findDevice a.dir).isSome = true ∧ a.opens = true ∧ ∀ r, a.maps r = true := by
  unfold init
  cases hf : findDevice a.dir with
  | none => simp
  | some p =>
    cases ho : a.opens with
    | false => simp
    | true =>
      simp only [if_true, Bool.and_eq_true, Option.isSome_some, true_and]
      constructor
      · rintro ⟨⟨h1, h2⟩, h3⟩ r
        cases r <;> assumption
      · intro h
        exact ⟨⟨h _, h _⟩, h _⟩

/-- C71. After a successful `Init` every pointer is valid. -/
theorem C71_init_pointers (a : Answers) (h : (init a).2.1 = true) :
    (init a).1 = { fd := true, dataRam := true, ctrl := true, iram := true } := by
  obtain ⟨h1, h2, h3⟩ := (C71_init a).mp h
  obtain ⟨p, hp⟩ := Option.isSome_iff_exists.mp h1
  simp [init, hp, h2, h3]

/-- C71. Whatever `Init` acquired, also if it failed halfway, the destructor gives back, each with its size and nothing else. -/
theorem C71_released (a : Answers) : (init a).1.destroy = (init a).2.2.reverse := by
  unfold init
  cases findDevice a.dir with
  | none => rfl
  | some p =>
    cases a.opens with
    | false => rfl
    | true =>
      cases h1 : a.maps .dataRam <;> cases h2 : a.maps .ctrl <;> cases h3 : a.maps .iram <;>
        simp [Iface.destroy, h1, h2, h3]

/-- The case halfway occurs: the instruction memory cannot be mapped. -/
example : init ⟨some [⟨"uio0".toList, some "beagleg_pru_irq\n".toList⟩], true, fun r => r ≠ .iram⟩
    = ({ fd := true, dataRam := true, ctrl := true }, false, [.fd, .map .dataRam 8192, .map .ctrl 4096]) := by
  decide +kernel

/-- C71. The regions have different offsets, and region `r` is selected by the offset `r` pages. -/
theorem C71_regions (r q : Region) : r.offset / pageSize = r.index ∧ (r.offset = q.offset → r = q) := by
  cases r <;> cases q <;> decide

/-- C71. As much is mapped as the unit has (AM335x reference manual, 4.1): 8 KiB for data, 8 KiB for instructions; the registers
for control and debugging are within one page. -/
theorem C71_sizes : Region.dataRam.size = 8 * 1024 ∧ Region.iram.size = 8 * 1024 ∧ Region.ctrl.size = 4 * 1024 := by decide

/-! ### Start -/

theorem load_flags (code : List Nat) (i : Nat) (c : Core) :
    (c.load i code).enabled = c.enabled ∧ (c.load i code).wedged = c.wedged ∧ (c.load i code).pc = c.pc ∧
      (c.load i code).dram = c.dram := by
  induction code generalizing i c with
  | nil => exact ⟨rfl, rfl, rfl, rfl⟩
  | cons w r ih =>
    obtain ⟨h1, h2, h3, h4⟩ := ih (i + 1) (c.writeIram i w)
    rw [Core.load, h1, h2, h3, h4]
    unfold Core.writeIram
    split <;> exact ⟨rfl, rfl, rfl, rfl⟩

/-- On a halted core the words arrive, and others stay. -/
theorem load_iram (code : List Nat) (i : Nat) (c : Core) (he : c.enabled = false) (hw : c.wedged = false) (j : Nat) :
    (c.load i code).iram j = if h : i ≤ j ∧ j - i < code.length then code[j - i]'h.2 else c.iram j := by
  induction code generalizing i c with
  | nil => simp [Core.load]
  | cons w r ih =>
    have e : c.writeIram i w = { c with iram := fun j => if j = i then w else c.iram j } := by
      simp [Core.writeIram, he, hw]
    rw [Core.load, e, ih (i + 1) { c with iram := fun j => if j = i then w else c.iram j } he hw]
    by_cases h : i + 1 ≤ j ∧ j - (i + 1) < r.length
    · rw [dif_pos h, dif_pos ⟨by omega, by simp only [List.length_cons]; omega⟩]
      have : j - i = (j - (i + 1)) + 1 := by omega
      simp [this]
    · rw [dif_neg h]
      by_cases hj : j = i
      · subst hj
        simp
      · rw [dif_neg (by simp only [List.length_cons]; omega)]
        simp [hj]

/-- On a core that is not halted nothing is written. -/
theorem load_blocked (code : List Nat) (i : Nat) (c : Core) (h : (c.enabled || c.wedged) = true) :
    c.load i code = c := by
  induction code generalizing i with
  | nil => rfl
  | cons w r ih =>
    have e : c.writeIram i w = c := by unfold Core.writeIram; rw [if_pos h]
    rw [Core.load, e, ih]

theorem verify_iff (code : List Nat) (i : Nat) (c : Core) :
    c.verify i code = true ↔ ∀ (j : Nat) (h : j < code.length), c.iram (i + j) = code[j] := by
  induction code generalizing i with
  | nil => simp [Core.verify]
  | cons w r ih =>
    rw [Core.verify]
    by_cases h : c.iram i = w
    · rw [if_neg (by simpa using h), ih]
      constructor
      · intro hh j hj
        cases j with
        | zero => exact h
        | succ j =>
          have := hh j (by simpa using hj)
          rw [← Nat.add_assoc, Nat.add_right_comm, this]
          rfl
      · intro hh j hj
        have := hh (j + 1) (by simpa using hj)
        rw [Nat.add_right_comm, Nat.add_assoc, this]
        rfl
    · rw [if_pos h]
      simp only [Bool.false_eq_true, false_iff]
      intro hh
      exact h (hh 0 (by simp))

/-- The instruction memory begins with this program. -/
def Core.Holds (c : Core) (code : List Nat) : Prop := ∀ (j : Nat) (h : j < code.length), c.iram j = code[j]

theorem writeCtrl_iram (clears : Bool) (v : Nat) (c : Core) :
    (c.writeCtrl clears v).iram = c.iram ∧ (c.writeCtrl clears v).dram = c.dram := by
  unfold Core.writeCtrl
  split <;> exact ⟨rfl, rfl⟩

/-- C71. Whatever the state of the core was, running, wedged, with any program: if `StartExecution` reports success, it runs exactly
the program of the build from its first instruction. -/
theorem C71_runs_program (clears : Bool) (code : List Nat) (c : Core) (h : (startGenirq clears code c).2 = true) :
    (startGenirq clears code c).1.Holds code ∧ (startGenirq clears code c).1.enabled = true ∧
      (startGenirq clears code c).1.pc = 0 := by
  by_cases hv : (((c.writeCtrl clears 0).load 0 code).verify 0 code) = true
  · have e : startGenirq clears code c = (((c.writeCtrl clears 0).load 0 code).writeCtrl clears ctrlEnable, true) := by
      simp only [startGenirq, hv, if_true]
    rw [e]
    refine ⟨fun j hj => ?_, rfl, rfl⟩
    rw [(writeCtrl_iram _ _ _).1]
    have := (verify_iff _ _ _).mp hv j hj
    simpa using this
  · exfalso
    simp [startGenirq, hv] at h

/-- C71. If it reports a failure, the core stays halted, and that happens only with a core that a reset does not free. -/
theorem C71_failure_is_safe (clears : Bool) (code : List Nat) (c : Core) (h : (startGenirq clears code c).2 = false) :
    (startGenirq clears code c).1.enabled = false ∧ c.wedged = true ∧ clears = false := by
  by_cases hv : (((c.writeCtrl clears 0).load 0 code).verify 0 code) = true
  · exfalso
    simp [startGenirq, hv] at h
  · have e : startGenirq clears code c = ((c.writeCtrl clears 0).load 0 code, false) := by
      simp only [startGenirq, hv]
      rfl
    rw [e]
    refine ⟨(load_flags _ _ _).1, ?_⟩
    by_contra hc
    apply hv
    rw [verify_iff]
    intro j hj
    have hw : (c.writeCtrl clears 0).wedged = false := by
      show (c.wedged && !clears) = false
      cases hw : c.wedged <;> cases hcl : clears <;> simp_all
    rw [Nat.zero_add, load_iram code 0 _ rfl hw, dif_pos ⟨Nat.zero_le _, by simpa using hj⟩]
    simp

/-- A wedged core with another program is detected. -/
example : (startGenirq false [7, 8] ⟨fun _ => 1, fun _ => 0, false, true, 0⟩).2 = false := by decide

/-- C71. With the other driver the program runs if the core was halted. -/
theorem C71_pruss_partial (clears : Bool) (code : List Nat) (c : Core) (he : c.enabled = false) (hw : c.wedged = false) :
    (startPruss clears code c).1.Holds code ∧ (startPruss clears code c).1.enabled = true ∧
      (startPruss clears code c).1.pc = 0 := by
  refine ⟨fun j hj => ?_, rfl, rfl⟩
  show ((c.load 0 code).writeCtrl clears ctrlEnable).iram j = _
  rw [(writeCtrl_iram _ _ _).1, load_iram code 0 c he hw, dif_pos ⟨Nat.zero_le _, by simpa using hj⟩]
  simp

/-- C71, the counterexample. If the core still runs, because the last process did not come to `Shutdown`, the other driver
starts the old program from its beginning, and reports success. -/
theorem C71_pruss_old_program (clears : Bool) (code old : List Nat) (c : Core) (he : c.enabled = true)
    (ho : c.Holds old) :
    (startPruss clears code c).2 = true ∧ (startPruss clears code c).1.Holds old ∧
      (startPruss clears code c).1.enabled = true ∧ (startPruss clears code c).1.pc = 0 := by
  refine ⟨rfl, fun j hj => ?_, rfl, rfl⟩
  show ((c.load 0 code).writeCtrl clears ctrlEnable).iram j = _
  rw [(writeCtrl_iram _ _ _).1, load_blocked code 0 c (by simp [he])]
  exact ho j hj

/-- C71. `Shutdown` halts the core and leaves its memories; the next start finds it halted. -/
theorem C71_shutdown (clears : Bool) (c : Core) :
    (shutdown clears c).enabled = false ∧ (shutdown clears c).iram = c.iram ∧ (shutdown clears c).dram = c.dram :=
  ⟨rfl, rfl, rfl⟩

/-! ### Memory -/

/-- C71. The structure that is shared with the firmware has 868 bytes and fits the data memory. -/
theorem C71_comm_size : commSize = 868 ∧ commSize ≤ Region.dataRam.size := by decide

/-- C71. No more than the data memory is cleared. -/
theorem C71_alloc (size : Nat) (c d : Core) (h : allocGenirq size c = some d) :
    size ≤ Region.dataRam.size ∧ (∀ j < size, d.dram j = 0) ∧ (∀ j, size ≤ j → d.dram j = c.dram j) ∧
      d.iram = c.iram ∧ d.enabled = c.enabled := by
  unfold allocGenirq at h
  split at h
  · simp at h
  · rename_i hs
    simp only [Option.some.injEq] at h
    subst h
    exact ⟨by omega, fun j hj => by simp [Core.zero, hj], fun j hj => by simp [Core.zero, Nat.not_lt.mpr hj], rfl, rfl⟩

theorem foldl_writeDram (f : Nat → Nat) (l : List Nat) (c : Core) :
    (l.foldl (fun c i => c.writeDram (f i) 0) c).enabled = c.enabled ∧
    (l.foldl (fun c i => c.writeDram (f i) 0) c).iram = c.iram ∧
    (l.foldl (fun c i => c.writeDram (f i) 0) c).wedged = c.wedged ∧
    ∀ j, (l.foldl (fun c i => c.writeDram (f i) 0) c).dram j = if j ∈ l.map f then 0 else c.dram j := by
  induction l generalizing c with
  | nil => simp
  | cons a r ih =>
    obtain ⟨h1, h2, h3, h4⟩ := ih (c.writeDram (f a) 0)
    refine ⟨h1, h2, h3, fun j => ?_⟩
    rw [List.foldl_cons, h4 j]
    by_cases hj : j ∈ r.map f
    · rw [if_pos hj, if_pos (by simp only [List.map_cons, List.mem_cons]; exact Or.inr hj)]
    · rw [if_neg hj]
      by_cases ha : j = f a
      · rw [if_pos (by simp [ha])]
        simp [Core.writeDram, ha]
      · rw [if_neg (by simp only [List.map_cons, List.mem_cons, not_or]; exact ⟨ha, hj⟩)]
        simp [Core.writeDram, ha]

theorem startGenirq_dram (clears : Bool) (code : List Nat) (c : Core) : (startGenirq clears code c).1.dram = c.dram := by
  have h : ((c.writeCtrl clears 0).load 0 code).dram = c.dram := (load_flags _ _ _).2.2.2
  simp only [startGenirq]
  split
  · rw [(writeCtrl_iram _ _ _).2, h]
  · exact h

theorem stores_off (l : List (Nat × Nat)) (c : Core) (h : c.enabled = false) : c.stores l = c := by
  simp [Core.stores, h]

/-- C71. If the core was halted when the program began, the firmware finds the queue empty and the status zero; this is the initial
state of the model of the queue. -/
theorem C71_clean_partial (clears : Bool) (code : List Nat) (l1 l2 l3 : List (Nat × Nat)) (c d : Core) (b : Bool)
    (he : c.enabled = false) (h : bringUp (startGenirq clears code) l1 l2 l3 c = some (d, b)) :
    ∀ j < commSize, d.dram j = 0 := by
  intro j hj
  unfold bringUp at h
  rw [stores_off _ _ he] at h
  cases ha : allocGenirq commSize c with
  | none => rw [ha] at h; simp at h
  | some c1 =>
    rw [ha] at h
    obtain ⟨-, h0, -, -, h1⟩ := C71_alloc _ _ _ ha
    have he1 : c1.enabled = false := h1.trans he
    obtain ⟨k1, -, -, k4⟩ := foldl_writeDram stateAddr (List.range Firmware.queueLen) c1
    have he2 : c1.clearStates.enabled = false := k1.trans he1
    simp only [Option.some.injEq] at h
    rw [stores_off _ _ he1, stores_off _ _ he2] at h
    have hd : d = (startGenirq clears code c1.clearStates).1 := by rw [h]
    rw [hd, startGenirq_dram]
    refine (k4 j).trans ?_
    split
    · rfl
    · exact h0 j hj

/-- C71. Nothing the old program writes can prevent the start, with the driver that resets the core: afterwards the new program runs. -/
theorem C71_bringUp (clears : Bool) (code : List Nat) (l1 l2 l3 : List (Nat × Nat)) (c d : Core)
    (h : bringUp (startGenirq clears code) l1 l2 l3 c = some (d, true)) :
    d.Holds code ∧ d.enabled = true ∧ d.pc = 0 := by
  unfold bringUp at h
  split at h
  · simp at h
  · rename_i c1 _
    simp only [Option.some.injEq] at h
    have := C71_runs_program clears code ((c1.stores l2).clearStates.stores l3) (by rw [h])
    rwa [h] at this

/-- C71, the counterexample. The core is reset only after the queue was cleared. A program that still runs, say one that sees the
emergency stop and gives back its segment, can leave `STATE_ABORT` in the queue of the new process: its first segment is
then refused. -/
theorem C71_stale_abort (clears : Bool) (code : List Nat) (c : Core) (he : c.enabled = true) :
    ∃ l3 d b, bringUp (startGenirq clears code) [] [] l3 c = some (d, b) ∧
      d.dram (stateAddr 0) = Firmware.stateAbort := by
  obtain ⟨k1, -, -, -⟩ := foldl_writeDram stateAddr (List.range Firmware.queueLen) (c.zero commSize)
  have e : bringUp (startGenirq clears code) [] [] [(stateAddr 0, Firmware.stateAbort)] c
      = some (startGenirq clears code (((c.zero commSize).clearStates).writeDram (stateAddr 0) Firmware.stateAbort)) := by
    have h2 : (c.zero commSize).clearStates.enabled = true := k1.trans he
    have h3 : c.stores [] = c := by simp [Core.stores]
    have h4 : (c.zero commSize).stores [] = c.zero commSize := by simp [Core.stores]
    have ha : allocGenirq commSize c = some (c.zero commSize) := by
      unfold allocGenirq
      rw [if_neg (by decide)]
    unfold bringUp
    rw [h3, ha]
    simp only [h4]
    rw [Core.stores, if_pos h2]
    rfl
  refine ⟨[(stateAddr 0, Firmware.stateAbort)], (startGenirq clears code _).1, (startGenirq clears code _).2, e, ?_⟩
  rw [startGenirq_dram]
  simp [Core.writeDram]

/-! ### Size -/

/-- C71. The program of every cape fits the instruction memory of 8 KiB, what the `static_assert` in line 172 demands; so loading
does not leave the mapping. -/
theorem C71_code_fits : ∀ c ∈ Firmware.capes, 4 * codeWords c ≤ Region.iram.size := by decide +kernel

example : codeWords Firmware.bumps ≠ 0 := by decide +kernel

end BeagleG.PruHw
