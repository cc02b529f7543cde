import Mathlib.Tactic.Ring
import Mathlib.Tactic.Linarith
import Mathlib.Tactic.NormNum
import Mathlib.Tactic.Positivity
import Mathlib.Order.Basic
import Verif.Hershey.Model

/-!
# C81: what is drawn for a text
-/

namespace BeagleG.Hershey

/-! ## The table -/

/-- What every entry of the table has to satisfy: all its operations are written down and fit, and
its points are between its left and its right border. -/
def Glyph.Sound (g : Glyph) : Prop :=
  g.count = g.ops.length ∧ g.count ≤ capacity ∧ 0 ≤ g.width ∧
    ∀ p ∈ g.ops, p ≠ (-1, -1) → 0 ≤ p.1 ∧ p.1 ≤ g.width ∧ -7 ≤ p.2 ∧ p.2 ≤ 25

instance (g : Glyph) : Decidable g.Sound := by unfold Glyph.Sound; infer_instance

theorem simplex_length : simplex.length = 95 := by decide +kernel

theorem C81_table : ∀ g ∈ simplex, g.Sound := by decide +kernel

theorem glyphAt_some {c : Int} (h : skipped c = false) : ∃ g, glyphAt c = some g := by
  simp only [skipped, Bool.or_eq_false_iff, decide_eq_false_iff_not, Int.not_lt] at h
  have h0 : 0 ≤ c - 32 := by omega
  have h1 : (c - 32).toNat < simplex.length := by rw [simplex_length]; omega
  exact ⟨_, by simp only [glyphAt, if_pos h0]; exact List.getElem?_eq_getElem h1⟩

theorem glyphAt_sound {c : Int} {g : Glyph} (h : glyphAt c = some g) : g.Sound := by
  unfold glyphAt at h
  split at h
  · exact C81_table g (List.mem_of_getElem? h)
  · simp at h

/-! ## Where things belong -/

/-- The width of a character in units of the font; characters without glyph have none. -/
def widthOf (c : Int) : Int :=
  if skipped c then 0 else ((glyphAt c).map Glyph.width).getD 0

/-- How far to the right the characters `pre` bring us: only those behind the last newline count. -/
def indent (pre : List Int) : Int :=
  ((pre.reverse.takeWhile fun c => decide (c ≠ 10)).map widthOf).sum

/-- The number of newlines. -/
def rows (pre : List Int) : Nat := pre.count 10

/-- The lines of a glyph: consecutive points that are not separated by a lifted pen. -/
def Glyph.edges (g : Glyph) : List ((Int × Int) × (Int × Int)) :=
  (g.ops.zip g.ops.tail).filter fun e => e.1 ≠ (-1, -1) && e.2 ≠ (-1, -1)

/-- The lines that calls of `draw` make: from the place of one call to that of the next, if that
says so. -/
def joins (l : List Call) : List ((ℚ × ℚ) × (ℚ × ℚ)) :=
  ((l.zip l.tail).filter fun e => e.2.line).map fun e => ((e.1.x, e.1.y), (e.2.x, e.2.y))

/-- The place on paper of the point `p` of the character behind `pre`. -/
def place (ox oy size : ℚ) (pre : List Int) (p : Int × Int) : ℚ × ℚ :=
  (ox + size * (indent pre + p.1), oy + size * (p.2 - 30 * rows pre))

theorem indent_nil : indent [] = 0 := rfl

theorem indent_newline (pre : List Int) : indent (pre ++ [10]) = 0 := by
  simp [indent]

theorem indent_snoc {pre : List Int} {c : Int} (h : c ≠ 10) :
    indent (pre ++ [c]) = indent pre + widthOf c := by
  simp only [indent, List.reverse_append, List.reverse_cons, List.reverse_nil, List.nil_append,
    List.singleton_append]
  rw [List.takeWhile_cons_of_pos (by simpa using h)]
  simp only [List.map_cons, List.sum_cons]
  omega

theorem rows_newline (pre : List Int) : rows (pre ++ [10]) = rows pre + 1 := by
  simp [rows]

theorem rows_snoc {pre : List Int} {c : Int} (h : c ≠ 10) : rows (pre ++ [c]) = rows pre := by
  simp [rows, List.count_append, h]

theorem widthOf_nonneg (c : Int) : 0 ≤ widthOf c := by
  unfold widthOf
  split
  · exact le_refl _
  · rcases h : glyphAt c with _ | g
    · simp
    · simpa [h] using (glyphAt_sound h).2.2.1

theorem widthOf_skipped {c : Int} (h : skipped c = true) : widthOf c = 0 := by simp [widthOf, h]

theorem widthOf_glyph {c : Int} {g : Glyph} (h : skipped c = false) (hg : glyphAt c = some g) :
    widthOf c = g.width := by simp [widthOf, h, hg]

theorem indent_nonneg (pre : List Int) : 0 ≤ indent pre := by
  unfold indent
  generalize pre.reverse.takeWhile _ = l
  induction l with
  | nil => simp
  | cons a l ih =>
    have := widthOf_nonneg a
    simp only [List.map_cons, List.sum_cons]; omega

theorem newline_skipped : skipped 10 = true := by decide

/-! ## The width -/

/-- The state of `TextWidth` behind `pre`: the width of the line so far, and the widest line
before. -/
structure Widths (size : ℚ) (pre : List Int) (st : ℚ × ℚ) : Prop where
  now : st.2 = size * indent pre
  bound : ∀ q, q <+: pre → size * indent q ≤ max st.1 st.2
  taken : st.1 = 0 ∨ ∃ q, q <+: pre ∧ st.1 = size * indent q

theorem prefix_snoc {q pre : List Int} {c : Int} (h : q <+: pre ++ [c]) :
    q <+: pre ∨ q = pre ++ [c] := by
  rcases List.prefix_concat_iff.1 h with h | h
  · exact .inr h
  · exact .inl h

theorem widthStep_widths {size : ℚ} (hs : 0 ≤ size) {pre : List Int} {st : ℚ × ℚ}
    (h : Widths size pre st) (c : Int) :
    ∃ st', widthStep size st c = some st' ∧ Widths size (pre ++ [c]) st' := by
  by_cases hc : c = 10
  · subst hc
    refine ⟨(max st.1 st.2, 0), by simp [widthStep, newline_skipped], ?_, ?_, ?_⟩
    · simp [indent_newline]
    · intro q hq
      rcases prefix_snoc hq with hq | rfl
      · exact (h.bound q hq).trans (le_max_left _ _)
      · simp only [indent_newline]
        push_cast
        rw [mul_zero]
        exact le_max_right _ _
    · rcases le_total st.1 st.2 with hle | hle
      · refine .inr ⟨pre, List.prefix_append _ _, ?_⟩
        rw [max_eq_right hle, h.now]
      · rw [max_eq_left hle]
        rcases h.taken with h0 | ⟨q, hq, he⟩
        · exact .inl h0
        · exact .inr ⟨q, hq.trans (List.prefix_append _ _), he⟩
  · have grow : st.2 + size * widthOf c = size * indent (pre ++ [c]) := by
      rw [indent_snoc hc, h.now]; push_cast; ring
    have key : Widths size (pre ++ [c]) (st.1, st.2 + size * widthOf c) := by
      refine ⟨grow, ?_, ?_⟩
      · intro q hq
        rcases prefix_snoc hq with hq | rfl
        · refine (h.bound q hq).trans (max_le_max (le_refl _) ?_)
          have : (0 : ℚ) ≤ widthOf c := by exact_mod_cast widthOf_nonneg c
          have := mul_nonneg hs this
          linarith
        · rw [← grow]; exact le_max_right _ _
      · rcases h.taken with h0 | ⟨q, hq, he⟩
        · exact .inl h0
        · exact .inr ⟨q, hq.trans (List.prefix_append _ _), he⟩
    cases hk : skipped c with
    | true =>
      refine ⟨st, by simp [widthStep, hc, hk], ?_⟩
      have := widthOf_skipped hk
      rw [this] at key
      simpa using key
    | false =>
      obtain ⟨g, hg⟩ := glyphAt_some hk
      refine ⟨(st.1, st.2 + size * g.width), by simp [widthStep, hc, hk, hg], ?_⟩
      rw [widthOf_glyph hk hg] at key
      exact key

theorem foldlM_widths {size : ℚ} (hs : 0 ≤ size) (str : List Int) :
    ∀ {pre : List Int} {st : ℚ × ℚ}, Widths size pre st →
      ∃ st', str.foldlM (widthStep size) st = some st' ∧ Widths size (pre ++ str) st' := by
  induction str with
  | nil => intro pre st h; exact ⟨st, rfl, by simpa using h⟩
  | cons c cs ih =>
    intro pre st h
    obtain ⟨st1, h1, h1'⟩ := widthStep_widths hs h c
    obtain ⟨st2, h2, h2'⟩ := ih h1'
    refine ⟨st2, ?_, by simpa using h2'⟩
    simp [List.foldlM_cons, h1, h2]

theorem Widths.start (size : ℚ) : Widths size [] (0, 0) := by
  refine ⟨by simp [indent_nil], ?_, .inl rfl⟩
  intro q hq
  rw [List.prefix_nil.1 hq]
  simp [indent_nil]

/-- `TextWidth` never reads outside of its table, and returns how far the text reaches at most:
the greatest of the indents within the text. -/
theorem C81_width (str : List Int) {size : ℚ} (hs : 0 ≤ size) :
    ∃ w, textWidth str size = some w ∧
      IsGreatest {x : ℚ | ∃ q, q <+: str ∧ x = size / 25 * indent q} w := by
  have hs' : 0 ≤ size / 25 := by positivity
  obtain ⟨st, h, hw⟩ := foldlM_widths hs' str (Widths.start (size / 25))
  simp only [List.nil_append] at hw
  refine ⟨max st.1 st.2, by simp [textWidth, h], ?_, ?_⟩
  · rcases le_total st.1 st.2 with hle | hle
    · rw [max_eq_right hle]
      exact ⟨str, List.prefix_refl _, hw.now⟩
    · rw [max_eq_left hle]
      rcases hw.taken with h0 | ⟨q, hq, he⟩
      · exact ⟨[], List.nil_prefix, by rw [h0]; simp [indent_nil]⟩
      · exact ⟨q, hq, he⟩
  · rintro x ⟨q, hq, rfl⟩
    exact hw.bound q hq

/-! ## The drawing -/

/-- The calls for the operations `ops`. -/
def calls (ox oy size : ℚ) : Bool → List (Int × Int) → List Call
  | _, [] => []
  | penUp, p :: ps =>
    if p = (-1, -1) then calls ox oy size true ps
    else ⟨!penUp, ox + size * p.1, oy + size * p.2⟩ :: calls ox oy size false ps

theorem drawOps_calls {g : Glyph} (h : g.Sound) (ox oy size : ℚ) :
    ∀ (left op : Nat) (penUp : Bool), op + left = g.count →
      drawOps g ox oy size left op penUp = some (calls ox oy size penUp (g.ops.drop op)) := by
  intro left
  induction left with
  | zero =>
    intro op penUp he
    have : g.ops.drop op = [] := by
      rw [List.drop_eq_nil_iff, ← h.1]; omega
    rw [this]; rfl
  | succ left ih =>
    intro op penUp he
    have hlt : op < g.ops.length := by rw [← h.1]; omega
    have hcap : op < capacity := by have := h.2.1; omega
    have hop : g.operation op = some g.ops[op] := by
      simp [Glyph.operation, hcap, hlt]
    rw [List.drop_eq_getElem_cons hlt]
    simp only [drawOps, hop, Option.bind_some, calls]
    generalize g.ops[op] = p
    by_cases hp : p = (-1, -1)
    · rw [if_pos hp, if_pos (by rw [hp]; exact ⟨rfl, rfl⟩)]
      exact ih _ _ (by omega)
    · rw [if_neg hp, if_neg (by intro hh; exact hp (Prod.ext hh.1 hh.2)), ih _ _ (by omega)]
      rfl

theorem mem_calls {ox oy size : ℚ} {ops : List (Int × Int)} {a : Call} :
    ∀ {penUp : Bool}, a ∈ calls ox oy size penUp ops →
      ∃ p ∈ ops, p ≠ (-1, -1) ∧ a.x = ox + size * p.1 ∧ a.y = oy + size * p.2 := by
  induction ops with
  | nil => intro penUp h; simp [calls] at h
  | cons p ps ih =>
    intro penUp h
    unfold calls at h
    split at h
    · obtain ⟨q, hq, hh⟩ := ih h
      exact ⟨q, List.mem_cons_of_mem _ hq, hh⟩
    · rename_i hp
      rcases List.mem_cons.1 h with rfl | h
      · exact ⟨p, List.mem_cons_self, hp, rfl, rfl⟩
      · obtain ⟨q, hq, hh⟩ := ih h
        exact ⟨q, List.mem_cons_of_mem _ hq, hh⟩

theorem calls_mem {ox oy size : ℚ} {ops : List (Int × Int)} {p : Int × Int} :
    ∀ {penUp : Bool}, p ∈ ops → p ≠ (-1, -1) →
      ∃ a ∈ calls ox oy size penUp ops, a.x = ox + size * p.1 ∧ a.y = oy + size * p.2 := by
  induction ops with
  | nil => intro penUp h; simp at h
  | cons q qs ih =>
    intro penUp h hp
    rcases List.mem_cons.1 h with rfl | h
    · exact ⟨⟨!penUp, ox + size * p.1, oy + size * p.2⟩, by simp [calls, hp], rfl, rfl⟩
    · unfold calls
      split
      · exact ih h hp
      · obtain ⟨a, ha, hh⟩ := ih h hp
        exact ⟨a, List.mem_cons_of_mem _ ha, hh⟩

/-- A point of the font on paper. -/
def at2 (ox oy size : ℚ) (p : Int × Int) : ℚ × ℚ := (ox + size * p.1, oy + size * p.2)

/-- The lines between the operations `ops`. -/
def edgesOf (ops : List (Int × Int)) : List ((Int × Int) × (Int × Int)) :=
  (ops.zip ops.tail).filter fun e => e.1 ≠ (-1, -1) && e.2 ≠ (-1, -1)

theorem edgesOf_cons_cons (p q : Int × Int) (l : List (Int × Int)) :
    edgesOf (p :: q :: l) =
      (if p ≠ (-1, -1) ∧ q ≠ (-1, -1) then [(p, q)] else []) ++ edgesOf (q :: l) := by
  by_cases hp : p = (-1, -1) <;> by_cases hq : q = (-1, -1) <;>
    simp [edgesOf, hp, hq]

theorem joins_cons_cons (a b : Call) (l : List Call) :
    joins (a :: b :: l) =
      (if b.line then [((a.x, a.y), (b.x, b.y))] else []) ++ joins (b :: l) := by
  cases hb : b.line <;> simp [joins, hb]

theorem edgesOf_sep (l : List (Int × Int)) : edgesOf ((-1, -1) :: l) = edgesOf l := by
  cases l with
  | nil => rfl
  | cons q l => rw [edgesOf_cons_cons]; simp

/-- The calls of a glyph begin with a move. -/
theorem calls_head {ox oy size : ℚ} (ops : List (Int × Int)) :
    ∀ {a : Call} {l : List Call}, calls ox oy size true ops = a :: l → a.line = false := by
  induction ops with
  | nil => intro a l h; simp [calls] at h
  | cons p ps ih =>
    intro a l h
    unfold calls at h
    split at h
    · exact ih h
    · injection h with h _
      rw [← h]; rfl

theorem joins_lift (a : Call) {l : List Call} (h : ∀ b m, l = b :: m → b.line = false) :
    joins (a :: l) = joins l := by
  cases l with
  | nil => rfl
  | cons b m => rw [joins_cons_cons, h b m rfl]; simp

theorem joins_append {l m : List Call} (h : ∀ b n, m = b :: n → b.line = false) :
    joins (l ++ m) = joins l ++ joins m := by
  induction l with
  | nil => simp [joins]
  | cons a l ih =>
    cases l with
    | nil => rw [List.singleton_append, joins_lift a h]; simp [joins]
    | cons b l =>
      rw [List.cons_append, List.cons_append, joins_cons_cons, ← List.cons_append, ih,
        joins_cons_cons, List.append_assoc]

theorem joins_calls (ox oy size : ℚ) (ops : List (Int × Int)) :
    joins (calls ox oy size true ops) =
        (edgesOf ops).map (fun e => (at2 ox oy size e.1, at2 ox oy size e.2)) ∧
      ∀ (p : Int × Int) (b : Bool), p ≠ (-1, -1) →
        joins (⟨b, ox + size * p.1, oy + size * p.2⟩ :: calls ox oy size false ops) =
          (edgesOf (p :: ops)).map (fun e => (at2 ox oy size e.1, at2 ox oy size e.2)) := by
  induction ops with
  | nil => exact ⟨rfl, fun _ _ _ => rfl⟩
  | cons q ops ih =>
    by_cases hq : q = (-1, -1)
    · subst hq
      refine ⟨?_, fun p b hp => ?_⟩
      · rw [edgesOf_sep, ← ih.1]; simp [calls]
      · rw [edgesOf_cons_cons, if_neg (by simp), List.nil_append, edgesOf_sep, ← ih.1]
        have : calls ox oy size false ((-1, -1) :: ops) = calls ox oy size true ops := by
          simp [calls]
        rw [this]
        exact joins_lift _ fun b m hm => calls_head ops hm
    · refine ⟨?_, fun p b hp => ?_⟩
      · rw [← ih.2 q false hq]; simp [calls, hq]
      · rw [edgesOf_cons_cons, if_pos ⟨hp, hq⟩, List.map_append, ← ih.2 q true hq]
        have : calls ox oy size false (q :: ops) =
            ⟨true, ox + size * q.1, oy + size * q.2⟩ :: calls ox oy size false ops := by
          simp [calls, hq]
        rw [this, joins_cons_cons]
        rfl

/-- What is drawn for `str` behind `pre`. -/
structure Drawn (ox oy size : ℚ) (pre str : List Int) (out : List Call) : Prop where
  head : ∀ b n, out = b :: n → b.line = false
  joins : ∀ e, e ∈ joins out ↔
    ∃ mid c post, str = mid ++ c :: post ∧ skipped c = false ∧ ∃ g, glyphAt c = some g ∧
      ∃ d ∈ g.edges, e = (place ox oy size (pre ++ mid) d.1, place ox oy size (pre ++ mid) d.2)
  points : ∀ q : ℚ × ℚ, (∃ a ∈ out, q = (a.x, a.y)) ↔
    ∃ mid c post, str = mid ++ c :: post ∧ skipped c = false ∧ ∃ g, glyphAt c = some g ∧
      ∃ p ∈ g.ops, p ≠ (-1, -1) ∧ q = place ox oy size (pre ++ mid) p

/-- A character further on in `c :: cs` is a character in `cs`, or `c` itself. -/
theorem split_cons {P : List Int → Int → Prop} (pre : List Int) (c : Int) (cs : List Int) :
    (∃ mid d post, c :: cs = mid ++ d :: post ∧ P (pre ++ mid) d) ↔
      P pre c ∨ ∃ mid d post, cs = mid ++ d :: post ∧ P (pre ++ [c] ++ mid) d := by
  constructor
  · rintro ⟨mid, d, post, he, hp⟩
    cases mid with
    | nil =>
      simp only [List.nil_append, List.cons.injEq] at he
      obtain ⟨rfl, rfl⟩ := he
      exact .inl (by simpa using hp)
    | cons m mid =>
      simp only [List.cons_append, List.cons.injEq] at he
      obtain ⟨rfl, rfl⟩ := he
      exact .inr ⟨mid, d, post, rfl, by simpa using hp⟩
  · rintro (hp | ⟨mid, d, post, rfl, hp⟩)
    · exact ⟨[], c, cs, rfl, by simpa using hp⟩
    · exact ⟨c :: mid, d, post, rfl, by simpa using hp⟩

theorem drawChars_drawn (ox oy size : ℚ) (str : List Int) :
    ∀ (pre : List Int) (x y : ℚ), x = size * indent pre → y = -(30 * size * rows pre) →
      ∃ out, drawChars ox oy size x y str = some out ∧ Drawn ox oy size pre str out := by
  induction str with
  | nil =>
    intro pre x y _ _
    refine ⟨[], rfl, by simp, ?_, ?_⟩
    · intro e; simp [joins]
    · intro q; simp
  | cons c cs ih =>
    intro pre x y hx hy
    have step := fun {P : List Int → Int → Prop} => split_cons (P := P) pre c cs
    cases hk : skipped c with
    | true =>
      have hxy : ∃ x' y', drawChars ox oy size x y (c :: cs) = drawChars ox oy size x' y' cs ∧
          x' = size * indent (pre ++ [c]) ∧ y' = -(30 * size * rows (pre ++ [c])) := by
        by_cases hc : c = 10
        · subst hc
          refine ⟨0, y - 30 * size, by simp [drawChars, hk], ?_, ?_⟩
          · rw [indent_newline]; push_cast; ring
          · rw [rows_newline, hy]; push_cast; ring
        · refine ⟨x, y, by simp [drawChars, hk, hc], ?_, ?_⟩
          · rw [indent_snoc hc, widthOf_skipped hk, hx]; push_cast; ring
          · rw [rows_snoc hc, hy]
      obtain ⟨x', y', he, hx', hy'⟩ := hxy
      obtain ⟨out, ho, hd⟩ := ih (pre ++ [c]) x' y' hx' hy'
      refine ⟨out, he.trans ho, hd.head, ?_, ?_⟩
      · intro e
        rw [hd.joins, step (P := fun pm d => skipped d = false ∧ ∃ g, glyphAt d = some g ∧
          ∃ k ∈ g.edges, e = (place ox oy size pm k.1, place ox oy size pm k.2))]
        simp [hk]
      · intro q
        rw [hd.points, step (P := fun pm d => skipped d = false ∧ ∃ g, glyphAt d = some g ∧
          ∃ p ∈ g.ops, p ≠ (-1, -1) ∧ q = place ox oy size pm p)]
        simp [hk]
    | false =>
      have hc : c ≠ 10 := by rintro rfl; simp [newline_skipped] at hk
      obtain ⟨g, hg⟩ := glyphAt_some hk
      have hsound := glyphAt_sound hg
      obtain ⟨out, ho, hd⟩ := ih (pre ++ [c]) (x + size * g.width) y
        (by rw [indent_snoc hc, widthOf_glyph hk hg, hx]; push_cast; ring)
        (by rw [rows_snoc hc, hy])
      have hops := drawOps_calls hsound (ox + x) (oy + y) size g.count 0 true (by omega)
      rw [List.drop_zero] at hops
      have hplace : ∀ p : Int × Int,
          at2 (ox + x) (oy + y) size p = place ox oy size pre p := by
        intro p
        simp only [at2, place, hx, hy, Prod.mk.injEq]
        constructor <;> ring
      refine ⟨calls (ox + x) (oy + y) size true g.ops ++ out, ?_, ?_, ?_, ?_⟩
      · simp [drawChars, hc, hk, hg, hops, ho]
      · intro b n he
        cases hcl : calls (ox + x) (oy + y) size true g.ops with
        | nil => rw [hcl, List.nil_append] at he; exact hd.head b n he
        | cons b' n' =>
          rw [hcl, List.cons_append] at he
          injection he with he _
          rw [← he]; exact calls_head g.ops hcl
      · intro e
        rw [joins_append hd.head, List.mem_append, hd.joins, (joins_calls _ _ _ _).1,
          step (P := fun pm d => skipped d = false ∧ ∃ g, glyphAt d = some g ∧
            ∃ k ∈ g.edges, e = (place ox oy size pm k.1, place ox oy size pm k.2))]
        refine or_congr ?_ Iff.rfl
        simp only [List.mem_map, hplace, hk, hg, Option.some.injEq, exists_eq_left', true_and]
        constructor
        · rintro ⟨k, hkm, rfl⟩; exact ⟨k, hkm, rfl⟩
        · rintro ⟨k, hkm, rfl⟩; exact ⟨k, hkm, rfl⟩
      · intro q
        rw [step (P := fun pm d => skipped d = false ∧ ∃ g, glyphAt d = some g ∧
            ∃ p ∈ g.ops, p ≠ (-1, -1) ∧ q = place ox oy size pm p), ← hd.points]
        simp only [List.mem_append, hk, hg, Option.some.injEq, exists_eq_left', true_and]
        constructor
        · rintro ⟨a, ha | ha, rfl⟩
          · obtain ⟨p, hp, hne, h1, h2⟩ := mem_calls ha
            exact .inl ⟨p, hp, hne, by rw [← hplace, h1, h2]; rfl⟩
          · exact .inr ⟨a, ha, rfl⟩
        · rintro (⟨p, hp, hne, rfl⟩ | ⟨a, ha, rfl⟩)
          · obtain ⟨a, ha, h1, h2⟩ := calls_mem (ox := ox + x) (oy := oy + y) (size := size)
              (penUp := true) hp hne
            exact ⟨a, .inl ha, by rw [← hplace, h1, h2]; rfl⟩
          · exact ⟨a, .inr ha, rfl⟩

/-! ## C81 -/

/-- How far the alignment moves a text of width `w`. -/
def shift (w : ℚ) : Align → ℚ
  | .left => 0
  | .center => -w / 2
  | .right => -w

/-- `DrawText` never reads outside of its tables, and draws exactly the lines of the glyphs of its
printable characters, each moved to its place: no line connects two glyphs, or two strokes of one. -/
theorem C81_lines (str : List Int) (tx ty : ℚ) (align : Align) {size : ℚ} (hs : 0 ≤ size) :
    ∃ w out, textWidth str size = some w ∧ drawText str tx ty align size = some out ∧
      ∀ e, e ∈ joins out ↔
        ∃ pre c post, str = pre ++ c :: post ∧ skipped c = false ∧ ∃ g, glyphAt c = some g ∧
          ∃ d ∈ g.edges,
            e = (place (tx + shift w align) ty (size / 25) pre d.1,
              place (tx + shift w align) ty (size / 25) pre d.2) := by
  obtain ⟨w, hw, _⟩ := C81_width str hs
  obtain ⟨out, ho, hd⟩ := drawChars_drawn (tx + shift w align) ty (size / 25) str [] 0 0
    (by simp [indent_nil]) (by simp [rows])
  refine ⟨w, out, hw, ?_, by simpa using hd.joins⟩
  cases align <;> simp_all [drawText, alignBy, shift]

/-- Whatever `DrawText` is called for is within the width that `TextWidth` announces, on the side of
the given point that the alignment says; and not more than the size above it. -/
theorem C81_extent (str : List Int) (tx ty : ℚ) (align : Align) {size : ℚ} (hs : 0 ≤ size) :
    ∃ w out, textWidth str size = some w ∧ drawText str tx ty align size = some out ∧
      ∀ a ∈ out, tx + shift w align ≤ a.x ∧ a.x ≤ tx + shift w align + w ∧
        a.y ≤ ty + size ∧ ty - size / 25 * (7 + 30 * rows str) ≤ a.y := by
  have hs' : 0 ≤ size / 25 := by positivity
  obtain ⟨w, hw, hgreat⟩ := C81_width str hs
  obtain ⟨out, ho, hd⟩ := drawChars_drawn (tx + shift w align) ty (size / 25) str [] 0 0
    (by simp [indent_nil]) (by simp [rows])
  refine ⟨w, out, hw, ?_, ?_⟩
  · cases align <;> simp_all [drawText, alignBy, shift]
  intro a ha
  obtain ⟨pre, c, post, hstr, hk, g, hg, p, hp, hne, hq⟩ := (hd.points (a.x, a.y)).1 ⟨a, ha, rfl⟩
  rw [List.nil_append] at hq
  simp only [place, Prod.mk.injEq] at hq
  obtain ⟨hx, hy⟩ := hq
  obtain ⟨hp0, hp1, hp2, hp3⟩ := (glyphAt_sound hg).2.2.2 p hp hne
  have hc : c ≠ 10 := by rintro rfl; simp [newline_skipped] at hk
  have hin : indent pre + p.1 ≤ indent (pre ++ [c]) := by
    rw [indent_snoc hc, widthOf_glyph hk hg]; omega
  have hle : size / 25 * indent (pre ++ [c]) ≤ w :=
    hgreat.2 ⟨pre ++ [c], ⟨post, by simp [hstr]⟩, rfl⟩
  have hin' : size / 25 * ((indent pre : ℚ) + p.1) ≤ size / 25 * indent (pre ++ [c]) :=
    mul_le_mul_of_nonneg_left (by exact_mod_cast hin) hs'
  have hpos : 0 ≤ size / 25 * ((indent pre : ℚ) + p.1) := by
    refine mul_nonneg hs' ?_
    have : 0 ≤ indent pre + p.1 := by have := indent_nonneg pre; omega
    exact_mod_cast this
  have hrow : rows pre ≤ rows str := by
    rw [hstr]; simp only [rows, List.count_append]; omega
  have hup : size / 25 * ((p.2 : ℚ) - 30 * rows pre) ≤ size / 25 * 25 := by
    refine mul_le_mul_of_nonneg_left ?_ hs'
    have : p.2 - 30 * (rows pre : Int) ≤ 25 := by omega
    exact_mod_cast this
  have hdown : size / 25 * (-(7 + 30 * rows str)) ≤ size / 25 * ((p.2 : ℚ) - 30 * rows pre) := by
    refine mul_le_mul_of_nonneg_left ?_ hs'
    have : -(7 + 30 * (rows str : Int)) ≤ p.2 - 30 * (rows pre : Int) := by omega
    exact_mod_cast this
  refine ⟨by rw [hx]; linarith, by rw [hx]; linarith, by rw [hy]; linarith, by rw [hy]; linarith⟩

/-- The lines of a text are 30 units apart, its glyphs reach from −7 to 25: an opening bracket
reaches below the top of one in the next line. -/
theorem C81_rows_overlap :
    ∃ upper lower, drawText [40] 0 0 .left 25 = some upper ∧
      drawText [40, 10, 40] 0 0 .left 25 = some (upper ++ lower) ∧
      ∃ a ∈ upper, ∃ b ∈ lower, a.y < b.y := by
  obtain ⟨upper, hu⟩ : ∃ l, l = ((drawText [40] 0 0 .left 25).getD []) := ⟨_, rfl⟩
  refine ⟨upper, upper.map fun a => ⟨a.line, a.x, a.y - 30⟩, ?_, ?_, ⟨true, 11, -7⟩, ?_,
    ⟨false, 11, -5⟩, ?_, by norm_num⟩ <;> rw [hu] <;> decide +kernel

/-- The lines of one row. -/
example : (drawText [73] 3 4 .right 25).map joins = some [((-1, 25), (-1, 4))] := by decide +kernel

end BeagleG.Hershey
