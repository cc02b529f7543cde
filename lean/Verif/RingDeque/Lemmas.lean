import Verif.RingDeque.Spec
/-!
# Helper lemmas for C01
-/
namespace BeagleG.RingDeque

variable {α : Type}

/-- The ring `s` represents the list `l`. -/
structure Abs (cap : Nat) (s : Ring α) (l : List α) : Prop where
  rlt : s.readPos < cap
  len : l.length ≤ cap - 1
  w : s.writePos = (s.readPos + l.length) % cap
  buf : ∀ i (h : i < l.length), s.buffer ((s.readPos + i) % cap) = some l[i]

theorem modAdd (cap a : Nat) (h : a < 2 * cap) :
    a % cap = if a < cap then a else a - cap := by
  split
  · exact Nat.mod_eq_of_lt ‹_›
  · rw [Nat.mod_eq_sub_mod (by omega), Nat.mod_eq_of_lt (by omega)]

theorem abs_init (cap : Nat) (h1 : 1 < cap) : Abs cap (Ring.init α) [] := by
  refine ⟨?_, ?_, ?_, ?_⟩ <;> simp [Ring.init] <;> omega

variable {cap : Nat} {s : Ring α} {l : List α}

theorem Abs.wval (h : Abs cap s l) (h1 : 1 < cap) :
    s.writePos = if s.readPos + l.length < cap then s.readPos + l.length
      else s.readPos + l.length - cap := by
  have := h.rlt; have := h.len
  rw [h.w, modAdd _ _ (by omega)]

theorem Abs.wlt (h : Abs cap s l) (h1 : 1 < cap) : s.writePos < cap := by
  rw [h.w]; exact Nat.mod_lt _ (by omega)

theorem Abs.size (h : Abs cap s l) (h1 : 1 < cap) (h2 : cap < 2 ^ 31) :
    s.size cap = l.length := by
  have hr := h.rlt; have hl := h.len; have hw := h.wval h1
  have hwl := h.wlt h1
  unfold Ring.size u32
  rw [Nat.mod_eq_of_lt (a := s.writePos + cap) (by omega)]
  have e : (s.writePos + cap + (2 ^ 32 - s.readPos)) % 2 ^ 32 = s.writePos + cap - s.readPos := by
    have : s.writePos + cap + (2 ^ 32 - s.readPos) = (s.writePos + cap - s.readPos) + 2 ^ 32 := by
      omega
    rw [this, Nat.add_mod_right, Nat.mod_eq_of_lt (by omega)]
  rw [e, modAdd _ _ (by omega)]
  split at hw <;> split <;> omega

theorem Abs.empty (h : Abs cap s l) (h1 : 1 < cap) : s.empty = l.isEmpty := by
  have hr := h.rlt; have hl := h.len; have hw := h.wval h1
  unfold Ring.empty
  cases l with
  | nil => simp at hw; simp [hw]; omega
  | cons a t =>
    simp at hw hl ⊢
    split at hw <;> omega

theorem Abs.slot (h : Abs cap s l) (h1 : 1 < cap) (h2 : cap < 2 ^ 31) (pos : Nat) :
    s.slot cap pos = if pos < l.length then some ((s.readPos + pos) % cap) else none := by
  unfold Ring.slot
  rw [h.size h1 h2]
  have hr := h.rlt; have hl := h.len
  by_cases hp : pos < l.length
  · simp [hp, u32]
    rw [Nat.mod_eq_of_lt (b := 4294967296) (by omega)]
  · simp [hp]

theorem modInj (cap r i j : Nat) (hr : r < cap) (hi : i < cap) (hj : j < cap)
    (h : (r + i) % cap = (r + j) % cap) : i = j := by
  rw [modAdd _ _ (by omega), modAdd _ _ (by omega)] at h
  split at h <;> split at h <;> omega

theorem Abs.append (h : Abs cap s l) (h1 : 1 < cap) (h2 : cap < 2 ^ 31) (x : α) :
    match s.append cap x, specStep (cap - 1) l (.append x) with
    | some s', some l' => Abs cap s' l'
    | none, none => True
    | _, _ => False := by
  have hr := h.rlt; have hl := h.len
  unfold Ring.append specStep capacity
  rw [h.size h1 h2]
  by_cases hc : l.length < cap - 1
  · simp only [hc, if_true]
    refine ⟨h.rlt, by simp; omega, ?_, ?_⟩
    · simp only [u32]
      have := h.wlt h1
      rw [Nat.mod_eq_of_lt (b := 2 ^ 32) (by omega), h.w]
      simp [Nat.add_assoc]
    · intro i hi
      simp only [List.length_append, List.length_singleton] at hi
      by_cases e : i = l.length
      · subst e
        simp [h.w]
      · have hi' : i < l.length := by omega
        have hne : (s.readPos + i) % cap ≠ s.writePos := by
          rw [h.w]; intro hh
          exact e (modInj cap _ _ _ hr (by omega) (by omega) hh)
        simp only [hne, if_false]
        rw [h.buf i hi', List.getElem_append_left hi']
  · simp [hc]

theorem Abs.assign (h : Abs cap s l) (h1 : 1 < cap) (h2 : cap < 2 ^ 31) (pos : Nat) (x : α) :
    match s.assign cap pos x, specStep (cap - 1) l (.assign pos x) with
    | some s', some l' => Abs cap s' l'
    | none, none => True
    | _, _ => False := by
  have hr := h.rlt; have hl := h.len
  unfold Ring.assign specStep
  rw [h.slot h1 h2]
  by_cases hc : pos < l.length
  · simp only [hc, if_true, Option.map_some]
    refine ⟨h.rlt, by simpa using hl, by simpa using h.w, ?_⟩
    intro i hi
    simp only [List.length_set] at hi
    by_cases e : i = pos
    · subst e; simp
    · have hne : (s.readPos + i) % cap ≠ (s.readPos + pos) % cap := by
        intro hh; exact e (modInj cap _ _ _ hr (by omega) (by omega) hh)
      simp only [hne, if_false]
      rw [h.buf i hi, List.getElem_set_ne (Ne.symm e)]
  · simp [hc]

theorem Abs.popFront (h : Abs cap s l) (h1 : 1 < cap) (h2 : cap < 2 ^ 31) :
    match s.popFront cap, specStep (cap - 1) l (.popFront) with
    | some s', some l' => Abs cap s' l'
    | none, none => True
    | _, _ => False := by
  have hr := h.rlt; have hl := h.len
  unfold Ring.popFront specStep
  rw [h.empty h1]
  cases l with
  | nil => simp
  | cons a t =>
    simp only [List.length_cons] at hl
    simp only [List.isEmpty_cons, Bool.false_eq_true, if_false]
    have e : u32 (s.readPos + 1) = s.readPos + 1 := Nat.mod_eq_of_lt (by omega)
    rw [e]
    refine ⟨Nat.mod_lt _ (by omega), by omega, ?_, ?_⟩
    · simp only [h.w, List.length_cons, Nat.mod_add_mod]
      congr 1; omega
    · intro i hi
      have := h.buf (i + 1) (by simpa using hi)
      simp only [List.getElem_cons_succ] at this
      simp only [Nat.mod_add_mod]
      rw [← this]; congr 2; omega

theorem predMod (cap w : Nat) (h1 : 1 < cap) (h2 : cap < 2 ^ 31) (hw : w < cap) :
    u32 (u32 (w + cap) + (2 ^ 32 - 1)) % cap = (w + (cap - 1)) % cap := by
  unfold u32
  rw [Nat.mod_eq_of_lt (a := w + cap) (by omega)]
  have : w + cap + (2 ^ 32 - 1) = (w + (cap - 1)) + 2 ^ 32 := by omega
  rw [this, Nat.add_mod_right, Nat.mod_eq_of_lt (b := 2 ^ 32) (by omega)]

theorem Abs.pred (h : Abs cap s l) (h1 : 1 < cap) (h2 : cap < 2 ^ 31) (hne : 0 < l.length) :
    u32 (u32 (s.writePos + cap) + (2 ^ 32 - 1)) % cap = (s.readPos + (l.length - 1)) % cap := by
  rw [predMod _ _ h1 h2 (h.wlt h1), h.w, Nat.mod_add_mod]
  have : s.readPos + l.length + (cap - 1) = s.readPos + (l.length - 1) + cap := by omega
  rw [this, Nat.add_mod_right]

theorem Abs.popBack (h : Abs cap s l) (h1 : 1 < cap) (h2 : cap < 2 ^ 31) :
    match s.popBack cap, specStep (cap - 1) l (.popBack) with
    | some s', some l' => Abs cap s' l'
    | none, none => True
    | _, _ => False := by
  have hr := h.rlt; have hl := h.len
  unfold Ring.popBack specStep
  rw [h.empty h1]
  cases l with
  | nil => simp
  | cons a t =>
    simp only [List.isEmpty_cons, Bool.false_eq_true, if_false]
    rw [h.pred h1 h2 (by simp)]
    refine ⟨hr, by simp at hl ⊢; omega, by simp, ?_⟩
    intro i hi
    rw [List.getElem_dropLast]
    exact h.buf i (by simp at hi ⊢; omega)

theorem Abs.get (h : Abs cap s l) (h1 : 1 < cap) (h2 : cap < 2 ^ 31) (i : Nat) :
    s.get cap i = if h : i < l.length then some (some l[i]) else none := by
  unfold Ring.get
  rw [h.slot h1 h2]
  by_cases hi : i < l.length
  · simp [hi, h.buf i hi]
  · simp [hi]

theorem Abs.back (h : Abs cap s l) (h1 : 1 < cap) (h2 : cap < 2 ^ 31) :
    s.back cap = l.getLast?.map some := by
  unfold Ring.back
  rw [h.empty h1]
  cases l with
  | nil => simp
  | cons a t =>
    simp only [List.isEmpty_cons, Bool.false_eq_true, if_false]
    rw [h.pred h1 h2 (by simp), h.buf _ (by simp)]
    simp [List.getLast?_eq_getElem?]

theorem step_refines (h1 : 1 < cap) (h2 : cap < 2 ^ 31) (op : Op α) (h : Abs cap s l) :
    match s.step cap op, specStep (cap - 1) l op with
    | some s', some l' => Abs cap s' l'
    | none, none => True
    | _, _ => False := by
  cases op with
  | append x => exact h.append h1 h2 x
  | assign p x => exact h.assign h1 h2 p x
  | popFront => exact h.popFront h1 h2
  | popBack => exact h.popBack h1 h2

theorem run_refines (h1 : 1 < cap) (h2 : cap < 2 ^ 31) (ops : List (Op α)) :
    ∀ (s : Ring α) (l : List α), Abs cap s l →
    match s.run cap ops, specRun (cap - 1) l ops with
    | some s', some l' => Abs cap s' l'
    | none, none => True
    | _, _ => False := by
  induction ops with
  | nil => intro s l h; exact h
  | cons op ops ih =>
    intro s l h
    have hs := step_refines h1 h2 op h
    unfold Ring.run specRun
    cases e1 : s.step cap op <;> cases e2 : specStep (cap - 1) l op <;> simp only [e1, e2] at hs
    · simp
    · simp only [Option.bind_some]
      exact ih _ _ hs

end BeagleG.RingDeque
