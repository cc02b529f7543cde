import Verif.Firmware.Program
/-!
# The addresses of the labels

`adr` is a table of the addresses; `firmware_eq` says that assembling yields it. Then each part of the program is
found at its address (`CodeAt`).
-/
namespace BeagleG.Firmware
open Instr Line Lbl

/-- Address of expansion `k` of `SetGPIO`. -/
def gpioAt (k : Nat) : Nat := if k < 16 then 415 + 9 * k else if k < 24 then 560 + 9 * (k - 16) else 633 + 9 * (k - 24)

/-- Address of expansion `k` of `_idiv_division_step`. -/
def divAt (k : Nat) : Nat := if k < 32 then 49 + 5 * k else 228 + 5 * (k - 32)

/-- The addresses of the labels. -/
def adr : Lbl → Nat
  | INIT => 0
  | QUEUE_READ => 5
  | STEP_GEN => 22
  | DO_STEP_GEN => 33
  | PHASE_1_ACCELERATION => 42
  | accel_calc_done => 210
  | PHASE_2_TRAVEL => 215
  | PHASE_3_DECELERATION => 220
  | calc_decel => 223
  | DONE_CALCULATE_DELAY => 393
  | STEP_DELAY => 398
  | DONE_STEP_GEN => 401
  | STEP_GEN_ABORTED => 402
  | FINISH => 411
  | SetAuxBits => 415
  | SetDirections => 560
  | SetSteps => 633
  | CheckForEStop => 706
  | debounce => 711
  | estop_ok => 716
  | estop_active => 717
  | set_gpio k => gpioAt k + 6
  | update_gpio k => gpioAt k + 7
  | no_map k => gpioAt k + 9
  | DO_SUB k => divAt k + 4
  | SKIP_SUB k => divAt k + 5

/-- The labels that an instruction refers to. -/
def Instr.target {L : Type} : Instr L → Option L
  | .qbeq l _ _ => some l
  | .qbne l _ _ => some l
  | .qblt l _ _ => some l
  | .qbbs l _ _ => some l
  | .qbbc l _ _ => some l
  | .qba l => some l
  | .jmp l => some l
  | .call l => some l
  | _ => none

/-- What matters for addresses: the label or the target. -/
def Line.shape : Line → Lbl ⊕ Option Lbl
  | .lab l => .inl l
  | .ins i => .inr i.target

/-- The address of a label, from the shapes alone. -/
def addressS : List (Lbl ⊕ Option Lbl) → Lbl → Nat
  | [], _ => 0
  | .inl l :: ls, m => if l = m then 0 else addressS ls m
  | .inr _ :: ls, m => addressS ls m + 1

theorem address_shape (ls : List Line) (m : Lbl) : address ls m = addressS (ls.map Line.shape) m := by
  induction ls with
  | nil => rfl
  | cons x ls ih => cases x <;> simp [address, addressS, Line.shape, ih]

/-- The shape of the program; it depends on the cape only in whether the emergency stop is looked at. -/
def shapes (estop : Bool) : List (Lbl ⊕ Option Lbl) := (source { checksEstop := estop }).map Line.shape

theorem shape_gpio (k : Nat) (b : Fld) (n p q : Nat) :
    (setGPIO k b n p).map Line.shape = (setGPIO k b n q).map Line.shape := rfl

theorem shape_source (c : Cape) : (source c).map Line.shape = shapes c.checksEstop := by
  have h1 : (codeAux c).map Line.shape = (codeAux { checksEstop := c.checksEstop }).map Line.shape := by
    simp only [codeAux, List.map_append, List.map_cons]
    rfl
  have h2 : (codeDir c).map Line.shape = (codeDir { checksEstop := c.checksEstop }).map Line.shape := by
    simp only [codeDir, List.map_append, List.map_cons]
    rfl
  have h3 : (codeSteps c).map Line.shape = (codeSteps { checksEstop := c.checksEstop }).map Line.shape := by
    simp only [codeSteps, List.map_append, List.map_cons]
    rfl
  have h4 : (codeEstop c).map Line.shape = (codeEstop { checksEstop := c.checksEstop }).map Line.shape := by
    simp only [codeEstop]
    cases c.checksEstop <;> rfl
  simp only [shapes, source, List.map_append, h1, h2, h3, h4]

/-- The table is right for the target of a line. -/
def targetOk (b : Bool) : Lbl ⊕ Option Lbl → Bool
  | .inr (some l) => addressS (shapes b) l == adr l
  | _ => true

theorem address_table (b : Bool) : ∀ x ∈ shapes b, ∀ l, x = .inr (some l) → addressS (shapes b) l = adr l := by
  have h : (shapes b).all (targetOk b) = true := by
    cases b <;> decide +kernel
  intro x hx l hl
  have := List.all_eq_true.1 h x hx
  subst hl
  simpa [targetOk] using this

theorem map_congr_target {f g : Lbl → Nat} (i : Instr Lbl) (h : ∀ l, i.target = some l → f l = g l) : i.map f = i.map g := by
  cases i <;> simp only [Instr.map] <;> first | rfl | (rw [h _ rfl])

/-- The assembled program has its labels at the addresses of the table. -/
theorem firmware_eq (c : Cape) : firmware c = instrs adr (source c) := by
  have key : ∀ ls : List Line, (∀ x ∈ ls, ∀ i l, x = .ins i → i.target = some l → address (source c) l = adr l) →
      instrs (address (source c)) ls = instrs adr ls := by
    intro ls
    induction ls with
    | nil => intro _; rfl
    | cons x ls ih =>
      intro h
      have ih := ih fun y hy => h y (List.mem_cons_of_mem _ hy)
      unfold instrs at ih ⊢
      cases x with
      | lab l => simpa using ih
      | ins i =>
        simp only [List.filterMap_cons]
        rw [ih, map_congr_target i fun l hl => h _ List.mem_cons_self i l rfl hl]
  refine key _ ?_
  intro x hx i l hi hl
  rw [address_shape, shape_source]
  refine address_table _ x.shape ?_ l (by rw [hi]; simp [Line.shape, hl])
  rw [← shape_source]
  exact List.mem_map_of_mem hx

/-- Some instructions are at an address of a program. -/
def CodeAt (prog : List (Instr Nat)) (a : Nat) (l : List (Instr Nat)) : Prop := ∃ pre post, prog = pre ++ l ++ post ∧ pre.length = a

theorem CodeAt.get {prog l : List (Instr Nat)} {a : Nat} (h : CodeAt prog a l) (i : Nat) (hi : i < l.length) :
    prog[a + i]? = l[i]? := by
  obtain ⟨pre, post, rfl, rfl⟩ := h
  rw [List.append_assoc, List.getElem?_append_right (by omega), Nat.add_sub_cancel_left, List.getElem?_append_left hi]

theorem CodeAt.append {prog l m : List (Instr Nat)} {a : Nat} (h : CodeAt prog a (l ++ m)) :
    CodeAt prog a l ∧ CodeAt prog (a + l.length) m := by
  obtain ⟨pre, post, h, rfl⟩ := h
  exact ⟨⟨pre, m ++ post, by rw [h]; simp, rfl⟩, ⟨pre ++ l, post, by rw [h]; simp, by simp⟩⟩

theorem CodeAt.cons {prog m : List (Instr Nat)} {i : Instr Nat} {a : Nat} (h : CodeAt prog a (i :: m)) :
    prog[a]? = some i ∧ CodeAt prog (a + 1) m := by
  refine ⟨?_, (CodeAt.append (l := [i]) h).2⟩
  simpa using h.get 0 (by simp)

theorem instrs_append (f : Lbl → Nat) (a b : List Line) : instrs f (a ++ b) = instrs f a ++ instrs f b := by
  simp [instrs]

end BeagleG.Firmware
