import Verif.Parser.CoordProps
import Verif.Parser.ParamProps
import Verif.Parser.Example
/-!
# C93: coordinate systems and their parameters

Specification: the table of parameters of RS274/NGC (section 3.2.1): 5220 is the number of the selected coordinate
system, 5221.. the origin of system 1, 5241.. of system 2, up to 5381.. of system 9, in the order X Y Z A B C, here
continued with U V W E (gcode-parser.h 43-57).
-/
namespace BeagleG.Parser
open Text Expr

variable {F : Type} {fl : Num F}

/-- Specification: the parameter of the X axis of a coordinate system. -/
def firstParam : Fin 9 → Nat
  | 0 => 5221 | 1 => 5241 | 2 => 5261 | 3 => 5281 | 4 => 5301 | 5 => 5321 | 6 => 5341 | 7 => 5361 | 8 => 5381

/-- Specification: the order of the axes. -/
def axisOrder : List Axis := [.X, .Y, .Z, .A, .B, .C, .U, .V, .W, .E]

theorem mem_axisOrder (a : Axis) : a ∈ axisOrder := by cases a <;> decide

/-- **C93.** The names of the parameters are the numbers of the table; the one for the selected system is 5220. -/
theorem C93_names (i : Fin 9) (a : Axis) :
    systemParam i a = text (toString (firstParam i + axisOrder.idxOf a)) ∧ selectedParam = text "5220" := by
  have h : ∀ i : Fin 9, ∀ a ∈ axisOrder, systemParam i a = text (toString (firstParam i + axisOrder.idxOf a)) := by
    decide +kernel
  exact ⟨h i a (mem_axisOrder a), by decide +kernel⟩

theorem names_distinct {i j : Fin 9} {a b : Axis} (h : SameName (systemParam i a) (systemParam j b)) : i = j ∧ a = b := by
  have key : ∀ i j : Fin 9, ∀ a ∈ axisOrder, ∀ b ∈ axisOrder, SameName (systemParam i a) (systemParam j b) → i = j ∧ a = b := by
    decide +kernel
  exact key i j a (mem_axisOrder a) b (mem_axisOrder b) h

theorem names_not_selected (i : Fin 9) (a : Axis) : ¬ SameName (systemParam i a) selectedParam := by
  have key : ∀ i : Fin 9, ∀ a ∈ axisOrder, ¬ SameName (systemParam i a) selectedParam := by decide +kernel
  exact key i a (mem_axisOrder a)

theorem names_writable (i : Fin 9) (a : Axis) : Writable (systemParam i a) := by
  have key : ∀ i : Fin 9, ∀ a ∈ axisOrder, Writable (systemParam i a) := by decide +kernel
  exact key i a (mem_axisOrder a)

theorem selected_writable : Writable selectedParam := by decide +kernel

theorem store_params {st : State F} (hp : st.params ≠ none) (n : List Byte) (v : F) : (storeParameter st n v).params ≠ none := by
  unfold storeParameter
  split
  · exact hp
  · split
    · exact hp
    · simp

/-- What G10 leaves in the parameters, for the axes in a list. -/
theorem g10Store_reads (cs : Fin 9) (coords : Axis → Option F) : ∀ (as : List Axis) (st : State F), as.Nodup →
    st.params ≠ none →
    (g10Store fl st cs coords as).params ≠ none ∧
    (∀ a ∈ as, coords a ≠ none → readParameter fl (g10Store fl st cs coords as) (systemParam cs a) =
      (fl.sub (st.system cs a) (st.machineOrigin a), true)) ∧
    (∀ name, (∀ a ∈ as, coords a ≠ none → ¬ SameName (systemParam cs a) name) →
      readParameter fl (g10Store fl st cs coords as) name = readParameter fl st name) := by
  intro as
  induction as with
  | nil => intro st _ hp; exact ⟨hp, by simp, fun _ _ => rfl⟩
  | cons a as ih =>
    intro st hnd hp
    obtain ⟨hna, hnd⟩ := List.nodup_cons.1 hnd
    simp only [g10Store]
    cases hc : coords a with
    | none =>
      simp only
      obtain ⟨h0, h1, h2⟩ := ih st hnd hp
      refine ⟨h0, fun b hb hcb => ?_, fun name hn => h2 name fun b hb => hn b (List.mem_cons_of_mem _ hb)⟩
      rcases List.mem_cons.1 hb with rfl | hb
      · exact absurd hc hcb
      · exact h1 b hb hcb
    | some v =>
      simp only
      have hk := storeParameter_kept fl st (systemParam cs a) (fl.sub (st.system cs a) (st.machineOrigin a))
      obtain ⟨h0, h1, h2⟩ := ih (storeParameter st (systemParam cs a) (fl.sub (st.system cs a) (st.machineOrigin a))) hnd
        (store_params hp _ _)
      rw [hk.system, hk.machineOrigin] at h1
      have hr := fun other => C10_store_read (fl := fl) st hp (systemParam cs a)
        (fl.sub (st.system cs a) (st.machineOrigin a)) other (names_writable cs a)
      refine ⟨h0, fun b hb hcb => ?_, fun name hn => ?_⟩
      · rcases List.mem_cons.1 hb with rfl | hb
        · rw [h2 _ fun c hc' _ hs => by
            have := (names_distinct hs).2
            subst this
            exact hna hc', hr, if_pos (show SameName _ _ from rfl)]
        · exact h1 b hb hcb
      · rw [h2 _ fun b hb => hn b (List.mem_cons_of_mem _ hb), hr,
          if_neg (hn a List.mem_cons_self (by simp [hc]))]

theorem inform_reads (st : State F) (n : FrameName) (name : List Byte) :
    readParameter fl (informOrigin fl st n) name = readParameter fl st name := rfl

/-- The states have the same parameters and positions. -/
theorem reads_same {st st' : State F} (hp : st'.params = st.params) (hx : st'.pos = st.pos) (name : List Byte) :
    readParameter fl st' name = readParameter fl st name := by
  unfold readParameter
  rw [hp, hx]

theorem g10Set_reads (st : State F) (hp : st.params ≠ none) (n : Fin 9) (coords : Axis → Option F) :
    (g10Set fl st n coords).params ≠ none ∧
    (∀ a, coords a ≠ none → readParameter fl (g10Set fl st n coords) (systemParam n a) =
      (fl.sub ((g10Set fl st n coords).system n a) ((g10Set fl st n coords).machineOrigin a), true)) ∧
    (∀ name, (∀ a, coords a ≠ none → ¬ SameName (systemParam n a) name) →
      readParameter fl (g10Set fl st n coords) name = readParameter fl st name) := by
  unfold g10Set
  have hk := (g10Store_quiet (fl := fl) n coords allAxes
      { st with system := fun i => if i = n then g10System fl st n coords else st.system i }).kept
  obtain ⟨h0, h1, h2⟩ := g10Store_reads (fl := fl) n coords allAxes
    { st with system := fun i => if i = n then g10System fl st n coords else st.system i } (by decide) hp
  rw [hk.system, hk.machineOrigin]
  refine ⟨h0, fun a => h1 a (mem_axisOrder a), fun name hn => ?_⟩
  rw [h2 name fun a _ => hn a]
  exact reads_same rfl rfl name

/-- **C93.** After `G10 L2 Pn` the parameters of the axes given are the new origin of system n, relative to the machine
origin; all other parameters read as before. -/
theorem C93_g10 (st : State F) (hp : st.params ≠ none) (g : G10 F) (n : Fin 9) (hl : g.l = 2) (hn : g.p = n.val + 1) :
    (∀ a, g.coords a ≠ none → readParameter fl (g10Apply fl st g) (systemParam n a) =
      (fl.sub ((g10Apply fl st g).system n a) ((g10Apply fl st g).machineOrigin a), true)) ∧
    (∀ name, (∀ a, g.coords a ≠ none → ¬ SameName (systemParam n a) name) →
      readParameter fl (g10Apply fl st g) name = readParameter fl st name) := by
  have hcs : (⟨(g.p - 1).toNat, by have := n.isLt; omega⟩ : Fin 9) = n := Fin.ext (by simp [hn])
  have h1 : ¬ (g.p < 1 ∨ g.p > 9) := by have := n.isLt; omega
  obtain ⟨-, k1, k2⟩ := g10Set_reads (fl := fl) st hp n g.coords
  unfold g10Apply
  rw [if_neg (by simp [hl]), dif_neg h1]
  simp only
  rw [hcs]
  split
  · exact ⟨k1, k2⟩
  · exact ⟨k1, k2⟩

/-- **C93.** G54 to G59.3 store the number of the system in 5220; all other parameters read as before. -/
theorem C93_select (st : State F) (hp : st.params ≠ none) {v : F} {i : Fin 9} (hv : SystemNumber fl v i) (name : List Byte) :
    readParameter fl (changeCoordSystem fl st v) name =
      if SameName selectedParam name then (fl.ofInt (i.val + 1), true) else readParameter fl st name := by
  unfold changeCoordSystem
  rw [(coordSystemOf_iff v i).2 hv]
  exact C10_store_read st hp selectedParam _ name selected_writable

/-- The parameters say what the coordinate systems are. -/
structure InParams [CommRing F] (fl : Num F) (st : State F) : Prop where
  params : st.params ≠ none
  system : ∀ i a, (readParameter fl st (systemParam i a)).1 = st.system i a - st.machineOrigin a
  selected : ∃ i, st.origin = .system i ∧ readParameter fl st selectedParam = (fl.ofInt (i.val + 1), true)

theorem InParams.of_same [CommRing F] {st st' : State F} (h : InParams fl st) (hp : st'.params ≠ none)
    (hs : st'.system = st.system) (hm : st'.machineOrigin = st.machineOrigin) (ho : st'.origin = st.origin)
    (hr : ∀ i a, readParameter fl st' (systemParam i a) = readParameter fl st (systemParam i a))
    (hr' : readParameter fl st' selectedParam = readParameter fl st selectedParam) : InParams fl st' := by
  refine ⟨hp, fun i a => ?_, ?_⟩
  · rw [hr, hs, hm]; exact h.system i a
  · rw [ho, hr']; exact h.selected

/-- **C93.** G10 keeps the parameters up to date. -/
theorem C93_kept_g10 [CommRing F] (hx : Exact fl) {st : State F} (h : InParams fl st) (g : G10 F) :
    InParams fl (g10Apply fl st g) := by
  by_cases hl : g.l = 2
  · by_cases hn : g.p < 1 ∨ g.p > 9
    · unfold g10Apply
      rw [if_neg (by simp [hl]), dif_pos hn]
      exact h.of_same h.params rfl rfl rfl (fun _ _ => rfl) rfl
    · have hn' : g.p = ((⟨(g.p - 1).toNat, by omega⟩ : Fin 9).val : Int) + 1 := by simp; omega
      generalize (⟨(g.p - 1).toNat, by omega⟩ : Fin 9) = n at hn'
      obtain ⟨k1, k2⟩ := C93_g10 (fl := fl) st h.params g n hl hn'
      obtain ⟨st', e, hk, -⟩ := C13_g10 (fl := fl) st g n hl hn'
      have hpar : (g10Apply fl st g).params ≠ none := by
        have hcs : (⟨(g.p - 1).toNat, by have := n.isLt; omega⟩ : Fin 9) = n := Fin.ext (by simp [hn'])
        unfold g10Apply
        rw [if_neg (by simp [hl]), dif_neg hn]
        simp only
        rw [hcs]
        have := (g10Set_reads (fl := fl) st h.params n g.coords).1
        split <;> exact this
      rw [e] at k1 k2 hpar ⊢
      refine ⟨hpar, fun i a => ?_, ?_⟩
      · by_cases hi : i = n ∧ g.coords a ≠ none
        · obtain ⟨rfl, hc⟩ := hi
          rw [k1 a hc, hx.sub]
        · rw [k2 _ fun b hb hs => by
              have := (names_distinct hs).2
              subst this
              exact hi ⟨(names_distinct hs).1.symm, hb⟩, h.system i a,
            hk.system, hk.machineOrigin]
          show _ = g10Origins fl st n g.coords i a - _
          have : g10Origins fl st n g.coords i a = st.system i a := by
            unfold g10Origins
            cases hc : g.coords a with
            | none => rfl
            | some v =>
              have hin : i ≠ n := fun e => hi ⟨e, by simp [hc]⟩
              simp [hin]
          rw [this]
      · obtain ⟨i, h1, h2⟩ := h.selected
        refine ⟨i, hk.origin.trans h1, ?_⟩
        rw [k2 _ fun b _ => names_not_selected n b, h2]
  · unfold g10Apply
    rw [if_pos hl]
    exact h.of_same h.params rfl rfl rfl (fun _ _ => rfl) rfl

/-- **C93.** So does selecting a coordinate system, with any number. -/
theorem C93_kept_select [CommRing F] {st : State F} (h : InParams fl st) (v : F) :
    InParams fl (changeCoordSystem fl st v) := by
  cases hc : coordSystemOf fl v with
  | none =>
    unfold changeCoordSystem
    rw [hc]
    exact h.of_same h.params rfl rfl rfl (fun _ _ => rfl) rfl
  | some i =>
    have hr := C93_select (fl := fl) st h.params ((coordSystemOf_iff v i).1 hc)
    unfold changeCoordSystem at hr ⊢
    rw [hc] at hr ⊢
    have hk := storeParameter_kept fl st selectedParam (fl.ofInt (i.val + 1))
    refine ⟨store_params h.params _ _, fun j a => ?_, i, rfl, by rw [hr, if_pos (show SameName _ _ from rfl)]⟩
    rw [hr, if_neg fun hs => names_not_selected j a hs.symm, h.system j a]
    show _ = (storeParameter st selectedParam (fl.ofInt (i.val + 1))).system j a -
      (storeParameter st selectedParam (fl.ofInt (i.val + 1))).machineOrigin a
    rw [hk.system, hk.machineOrigin]

/-- **C93.** So do assignments to all other parameters. -/
theorem C93_kept_store [CommRing F] {st : State F} (h : InParams fl st) {name : List Byte} (v : F)
    (hs : ¬ SameName name selectedParam) (hn : ∀ i a, ¬ SameName name (systemParam i a)) :
    InParams fl (storeParameter st name v) := by
  have hk := storeParameter_kept fl st name v
  by_cases hw : Writable name
  · have hr := fun o => C10_store_read (fl := fl) st h.params name v o hw
    exact h.of_same (store_params h.params _ _) hk.system hk.machineOrigin hk.origin
      (fun i a => by rw [hr, if_neg (hn i a)]) (by rw [hr, if_neg hs])
  · rw [C10_refused st h.params name v hw]
    exact h.of_same h.params rfl rfl rfl (fun _ _ => rfl) rfl

/-- **C93.** So do the beginning and the end of a program. -/
theorem C93_kept_program [CommRing F] {st : State F} (h : InParams fl st) :
    InParams fl (startProgram st) ∧ InParams fl (finishProgram fl st) := by
  constructor
  · unfold startProgram
    split
    · exact h
    · exact h.of_same h.params rfl rfl rfl (fun _ _ => rfl) rfl
  · exact h.of_same h.params rfl rfl rfl (fun _ _ => rfl) rfl

/-- The numbers of the coordinate systems are represented. -/
def SmallOk (fl : Num F) : Prop := ∀ k : Int, 1 ≤ k → k ≤ 9 →
  fl.toInt (fl.ofInt k) = k ∧ fl.lt (fl.ofInt k) fl.one = false ∧ fl.lt (fl.ofInt 9) (fl.ofInt k) = false

theorem initial_eq (p : List Byte → Option F) (home : Axes F) : ∃ s0 : State F, s0.params = some p ∧ s0.pos = home ∧
    s0.machineOrigin = home ∧ initial fl (some p) home = initCoordSystems fl s0 :=
  ⟨_, rfl, rfl, rfl, rfl⟩

/-- **C93.** A restart with the same parameters and the same machine origin: all coordinate systems, and the one
that is selected, are as before; and the parameters are in agreement with them. -/
theorem C93_restart [CommRing F] (hx : Exact fl) (hs : SmallOk fl) {st : State F} (h : InParams fl st) :
    let st' := initial fl st.params st.machineOrigin
    st'.system = st.system ∧ st'.origin = st.origin ∧ InParams fl st' := by
  intro st'
  obtain ⟨p, hp⟩ := Option.ne_none_iff_exists'.1 h.params
  obtain ⟨s0, h1, h2, h3, h4⟩ := initial_eq (fl := fl) p st.machineOrigin
  have e : st' = initCoordSystems fl s0 := by
    show initial fl st.params st.machineOrigin = _
    rw [hp, h4]
  have short : ∀ name : List Byte, (trimWhitespace name).length ≠ 1 → readParameter fl s0 name = readParameter fl st name := by
    intro name hn
    unfold readParameter
    rw [h1, hp]
    dsimp only
    split
    · rfl
    · split
      · rename_i hc; simp [hc] at hn
      · rfl
  have len : ∀ i a, (trimWhitespace (systemParam i a)).length ≠ 1 := by
    have key : ∀ i : Fin 9, ∀ a ∈ axisOrder, (trimWhitespace (systemParam i a)).length ≠ 1 := by decide +kernel
    exact fun i a => key i a (mem_axisOrder a)
  have hsys : loadSystems fl s0 = st.system := by
    funext i a
    unfold loadSystems lookup
    rw [short _ (len i a), h.system, h3, hx.add]
    ring
  obtain ⟨i, ho, hsel⟩ := h.selected
  have hsel0 : readParameter fl s0 selectedParam = (fl.ofInt (i.val + 1), true) := by
    rw [short _ (by decide +kernel), hsel]
  obtain ⟨g1, g2, g3⟩ := hs (i.val + 1) (by omega) (by have := i.isLt; omega)
  have hstart : startSystem fl (fl.ofInt (i.val + 1)) = i := by
    unfold startSystem
    apply Fin.ext
    simp only [g1]
    have := i.isLt
    omega
  have e' : st' = informOrigin fl { s0 with system := st.system, origin := .system i } (.system i) := by
    rw [e]
    unfold initCoordSystems
    have hr : readParameter fl { s0 with system := st.system } selectedParam = (fl.ofInt (i.val + 1), true) :=
      (reads_same rfl rfl _).trans hsel0
    simp only [hsys, hr, g2, g3, hstart]
    rfl
  rw [e']
  refine ⟨rfl, ho.symm, by show s0.params ≠ none; rw [h1]; simp, fun j a => ?_, i, rfl, ?_⟩
  · show (readParameter fl s0 (systemParam j a)).1 = st.system j a - s0.machineOrigin a
    rw [short _ (len j a), h.system, h3]
  · exact hsel0

/-- **C93.** The start without stored parameters: all systems have their origin at the machine origin, G54 is selected. -/
theorem C93_fresh [CommRing F] (hx : Exact fl) (hone : fl.ofInt 1 = fl.one) (hs : SmallOk fl) {p : List Byte → Option F}
    (hp : ∀ i a, p (systemParam i a) = none) (hsel : p selectedParam = none) (home : Axes F) :
    (initial fl (some p) home).system = (fun _ => home) ∧ (initial fl (some p) home).origin = .system 0 ∧
      InParams fl (initial fl (some p) home) := by
  obtain ⟨s0, h1, h2, h3, h4⟩ := initial_eq (fl := fl) p home
  have nm : ∀ i a, toLowerString (trimWhitespace (systemParam i a)) = systemParam i a ∧
      (trimWhitespace (systemParam i a)).length ≠ 1 := by
    have key : ∀ i : Fin 9, ∀ a ∈ axisOrder, toLowerString (trimWhitespace (systemParam i a)) = systemParam i a ∧
      (trimWhitespace (systemParam i a)).length ≠ 1 := by decide +kernel
    exact fun i a => key i a (mem_axisOrder a)
  have nms : toLowerString (trimWhitespace selectedParam) = selectedParam ∧ (trimWhitespace selectedParam).length ≠ 1 := by
    decide +kernel
  have none_read : ∀ name, toLowerString (trimWhitespace name) = name ∧ (trimWhitespace name).length ≠ 1 → p name = none →
      readParameter fl s0 name = (fl.zero, false) := by
    intro name hn hpn
    unfold readParameter
    rw [h1, hn.1]
    dsimp only
    rw [hpn]
    dsimp only
    split
    · rename_i hc; simp [hc] at hn
    · rfl
  have hsys : loadSystems fl s0 = fun _ => home := by
    funext i a
    unfold loadSystems lookup
    rw [none_read _ (nm i a) (hp i a), h3, hx.add, hx.zero]
    ring
  have hst : startSystem fl fl.one = 0 := by
    unfold startSystem
    apply Fin.ext
    rw [← hone]
    simp [(hs 1 (by omega) (by omega)).1]
  have e : initial fl (some p) home = informOrigin fl
      { storeParameter { s0 with system := fun _ => home } selectedParam fl.one with origin := .system 0 } (.system 0) := by
    rw [h4]
    unfold initCoordSystems
    have hr : readParameter fl { s0 with system := fun _ => home } selectedParam = (fl.zero, false) :=
      (reads_same rfl rfl _).trans (none_read _ nms hsel)
    simp only [hsys, hr, hst]
    rfl
  rw [e]
  have hk := storeParameter_kept fl { s0 with system := fun _ => home } selectedParam fl.one
  have hne : ({ s0 with system := fun _ => home } : State F).params ≠ none := by show s0.params ≠ none; rw [h1]; simp
  have hr := fun o => C10_store_read (fl := fl) { s0 with system := fun _ => home } hne selectedParam fl.one o
    selected_writable
  refine ⟨hk.system, rfl, store_params hne _ _, fun i a => ?_, 0, rfl, ?_⟩
  · show (readParameter fl (storeParameter _ _ _) _).1 =
      (storeParameter { s0 with system := fun _ => home } selectedParam fl.one).system i a -
      (storeParameter { s0 with system := fun _ => home } selectedParam fl.one).machineOrigin a
    rw [hr, if_neg fun h => names_not_selected i a h.symm, hk.system, hk.machineOrigin]
    show (readParameter fl s0 _).1 = home a - s0.machineOrigin a
    rw [none_read _ (nm i a) (hp i a), h3, hx.zero]
    ring
  · show readParameter fl (storeParameter _ _ _) _ = _
    rw [hr, if_pos (show SameName _ _ from rfl)]
    simp [hone]

variable {rc : Receiver F} {T : List Byte → Prop} {pair : State F → List Byte → Out (State F × Option (Word F))}

/-- The words of G30: F and Z. -/
theorem probe_read (hk : Keeps pair T) {st st' : State F} {line rest : List Byte} {m : F × F}
    {ws : List (Byte × F)} (ht : T line) (hd : st.doWhile = false)
    (h : WordSeq pair (fun st (m : F × F) l v =>
      if l = 70 then some (st, (feedOf fl (fl.mul v st.unit), m.2))
      else if l = 90 then some (st, (m.1, fl.mul v st.unit))
      else none) st (fl.minusOne, fl.zero) line ws st' m rest) :
    Unmoved st st' ∧ Kept st st' ∧ m.1 = ((letterValueOf 70 ws).map fun v => feedOf fl (fl.mul v st.unit)).getD fl.minusOne ∧
      m.2 = ((letterValueOf 90 ws).map fun v => fl.mul v st.unit).getD fl.zero := by
  refine h.induct hk (fun s m ws => Unmoved st s ∧ Kept st s ∧
    m.1 = ((letterValueOf 70 ws).map fun v => feedOf fl (fl.mul v st.unit)).getD fl.minusOne ∧
    m.2 = ((letterValueOf 90 ws).map fun v => fl.mul v st.unit).getD fl.zero) ?_ ?_ [] ht hd ⟨rfl, .refl _, rfl, rfl⟩
  · intro s s' m ws hi hks hus
    exact ⟨hus.trans hi.1, hi.2.1.trans hks, hi.2.2⟩
  · intro s m ws l v s' m' hi hst
    obtain ⟨i1, i2, i3, i4⟩ := hi
    split at hst
    · rename_i hl
      subst hl
      injection hst with hst; injection hst with e1 e2; subst e1; subst e2
      refine ⟨⟨i1, i2, ?_, ?_⟩, rfl⟩
      · simp [letterValueOf_append, i2.unit]
      · simp only [letterValueOf_append]; rw [if_neg (by decide)]; exact i4
    · split at hst
      · rename_i hl
        subst hl
        injection hst with hst; injection hst with e1 e2; subst e1; subst e2
        refine ⟨⟨i1, i2, ?_, ?_⟩, rfl⟩
        · simp only [letterValueOf_append]; rw [if_neg (by decide)]; exact i3
        · simp [letterValueOf_append, i2.unit]
      · cases hst

/-- **C78, G30 in the parser.** The probe is moved with the feed of the last F word. If it touches, the position is the
place where it touched, and reads as the last Z word (or zero) from then on; the other axes stay where they are.
If it does not, nothing changes. -/
theorem C78_g30 [CommRing F] (hx : Exact fl) (hk : Keeps pair T) {st st' : State F} {line : List Byte}
    {l : Option (List Byte)} (ht : T line) (hd : st.doWhile = false) (h : handleProbe fl rc pair st line = .ok (st', l)) :
    ∃ (ws : List (Byte × F)) (st1 : State F) (m : F × F) (rest : List Byte),
      WordSeq pair (fun st (m : F × F) l v =>
        if l = 70 then some (st, (feedOf fl (fl.mul v st.unit), m.2))
        else if l = 90 then some (st, (m.1, fl.mul v st.unit))
        else none) st (fl.minusOne, fl.zero) line ws st1 m rest ∧ l = some rest ∧
      let feed := ((letterValueOf 70 ws).map fun v => feedOf fl (fl.mul v st.unit)).getD fl.minusOne
      let height := ((letterValueOf 90 ws).map fun v => v * st.unit).getD 0
      (rc.probe (.probeAxis feed :: st1.log) = none → Kept st st' ∧ st'.log = .probeAxis feed :: st1.log) ∧
      (∀ z, rc.probe (.probeAxis feed :: st1.log) = some z →
        st'.pos .Z = z ∧ coordinate fl st' .Z = height ∧ (∀ a, a ≠ .Z → st'.pos a = st.pos a) ∧
        (∀ a, a ≠ .Z → st.offset = .g92 ∨ st.g92 a = 0 → coordinate fl st' a = coordinate fl st a)) := by
  unfold handleProbe at h
  cases hw : words pair (fun st (m : F × F) l v =>
      if l = 70 then some (st, (feedOf fl (fl.mul v st.unit), m.2))
      else if l = 90 then some (st, (m.1, fl.mul v st.unit))
      else none) (wordFuel line) st (fl.minusOne, fl.zero) line with
  | fault f => rw [hw] at h; cases h
  | outOfFuel => rw [hw] at h; cases h
  | ok r =>
    obtain ⟨st1, m, rest, b⟩ := r
    rw [hw] at h
    simp only [Out.bind] at h
    obtain ⟨ws, hws⟩ := words_seq _ _ _ _ _ _ _ _ hw
    obtain ⟨hu, hk1, m1, m2⟩ := probe_read hk ht hd hws
    have hm2 : m.2 = ((letterValueOf 90 ws).map fun v => v * st.unit).getD 0 := by
      rw [m2]
      cases letterValueOf 90 ws with
      | none => exact hx.zero
      | some v => exact hx.mul _ _
    refine ⟨ws, st1, m, rest, hws, ?_, ?_, ?_⟩
    · split at h <;> (injection h with h; injection h with _ h; exact h.symm)
    · intro hn
      rw [← m1] at hn ⊢
      rw [show rc.probe (st1.say (.probeAxis m.1)).log = none from hn] at h
      injection h with h; injection h with h _
      subst h
      exact ⟨hk1.trans (say_kept _ _), rfl⟩
    · intro z hz
      rw [← m1] at hz
      rw [show rc.probe (st1.say (.probeAxis m.1)).log = some z from hz] at h
      injection h with h; injection h with h _
      subst h
      have ho : st1.currentOrigin = st.currentOrigin := by
        unfold State.currentOrigin
        rw [hk1.origin, hk1.machineOrigin, hk1.system]
      refine ⟨by simp [setCurrentOffset, informOrigin, State.say, setAxis], ?_, ?_, ?_⟩
      · show setAxis st1.pos .Z z .Z - fl.add (st1.currentOrigin .Z) (setAxis st1.g92 .Z (fl.sub (fl.sub
          (setAxis st1.pos .Z z .Z) m.2) (st1.currentOrigin .Z)) .Z) = _
        simp only [setAxis, if_true, hx.add, hx.sub, hm2]
        ring
      · intro a ha
        show setAxis st1.pos .Z z a = _
        simp only [setAxis, if_neg ha, hk1.pos]
      · intro a ha hor
        have : st.currentOffset fl a = st.g92 a := by
          unfold State.currentOffset
          cases ho : st.offset with
          | zero =>
            rcases hor with h | h
            · rw [ho] at h; cases h
            · rw [h]; exact hx.zero
          | g92 => rfl
        show setAxis st1.pos .Z z a - fl.add (st1.currentOrigin a) (setAxis st1.g92 .Z _ a) =
          st.pos a - fl.add (st.currentOrigin a) (st.currentOffset fl a)
        simp only [setAxis, if_neg ha, hk1.pos, ho, this, hk1.g92]

/-- Non-vacuity: rational numbers. -/
theorem ratNum_small : SmallOk ratNum ∧ ratNum.ofInt 1 = ratNum.one := by
  refine ⟨fun k h1 h9 => ?_, by decide +kernel⟩
  have : k = 1 ∨ k = 2 ∨ k = 3 ∨ k = 4 ∨ k = 5 ∨ k = 6 ∨ k = 7 ∨ k = 8 ∨ k = 9 := by omega
  rcases this with rfl | rfl | rfl | rfl | rfl | rfl | rfl | rfl | rfl <;> decide +kernel

theorem ratState_inParams : InParams ratNum ratState :=
  (C93_fresh ratNum_exact ratNum_small.2 ratNum_small.1 (fun _ _ => rfl) rfl _).2.2

/-- A program as seen by system 2 of X, its parameter, the selected system and its parameter. -/
def seeSystem (lines : List (List Byte)) : Option (Rat × Rat × Origin × Rat) :=
  match runLines ratNum (ratReceiver true) 0 ratState lines with
  | .ok st => some (st.system 1 .X, lookup ratNum st (text "5241"), st.origin, lookup ratNum st (text "5220"))
  | _ => none

example : seeSystem [text "G10 L2 P2 X10", text "G55"] = some (10, 10, .system 1, 2) := by decide +kernel

/-- **C93, not satisfied by the code.** A parameter of a coordinate system that is written by a program (or read from the
file with M501) does not change the coordinate system; a restart will. Here `#5241` and `#5220` say something else than
the coordinates the machine works with. -/
theorem C93_written : seeSystem [text "#5241=10", text "#5220=2"] = some (0, 10, .system 0, 2) ∧
    (match runLines ratNum (ratReceiver true) 0 ratState [text "#5241=10", text "#5220=2"] with
      | .ok st => some ((initial ratNum st.params st.machineOrigin).system 1 .X, (initial ratNum st.params st.machineOrigin).origin)
      | _ => none) = some (10, .system 1) := by decide +kernel

end BeagleG.Parser
