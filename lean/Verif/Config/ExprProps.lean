import Verif.Config.Model
import Verif.Text.StringProps
import Mathlib.Tactic.ByContra
/-!
# Numeric configuration values (C45)
-/
namespace BeagleG.Config

open Text

section
variable {D F : Type} (N : Numbers D F)

/-- `strtod` reads a non-empty beginning of the text or nothing. -/
def Lawful : Prop := ∀ t v r, N.strtod t = some (v, r) → ∃ c, c ≠ [] ∧ t = c ++ r

/-- The value after one more operand. -/
def applyOp (op : Byte) (v w : D) : D := if op = 47 then N.div v w else N.mul v w

mutual
/-- The grammar. `IsExpr t v r`: in front of `r`, the text `t` is a multiplicative expression with the value
`v`: a number, and then any number of operators with operands, worked off from the left. -/
inductive IsExpr : List Byte → D → List Byte → Prop
  | mk {t : List Byte} {v : D} {r : List Byte} {w : D} {r' : List Byte} :
      N.strtod t = some (v, r) → IsRest v r w r' → IsExpr t w r'

/-- `IsRest v r w r'`: `r` continues an expression whose value so far is `v`. -/
inductive IsRest : D → List Byte → D → List Byte → Prop
  | done {v : D} {r : List Byte} : (∀ c, (skipSpace r).head? = some c → c ≠ 47 ∧ c ≠ 42) → IsRest v r v (skipSpace r)
  | step {v : D} {r : List Byte} {op : Byte} {r1 : List Byte} {w : D} {r2 : List Byte} {v' : D} {r' : List Byte} :
      skipSpace r = op :: r1 → (op = 47 ∨ op = 42) → IsOperand (skipSpace r1) w r2 →
      IsRest (applyOp N op v w) r2 v' r' → IsRest v r v' r'

/-- An operand is a number or an expression in parentheses. -/
inductive IsOperand : List Byte → D → List Byte → Prop
  | number {t : List Byte} {w : D} {r : List Byte} : t.head? ≠ some 40 → N.strtod t = some (w, r) → IsOperand t w r
  | paren {t : List Byte} {w : D} {r : List Byte} : IsExpr t w (41 :: r) → IsOperand (40 :: t) w r
end

/-- The whole text is an expression with the value `v`. -/
def WellFormed (t : List Byte) (v : D) : Prop := IsExpr N t v []

/-! ### The bound on the depth is no restriction -/

theorem skipSpace_length : ∀ s : List Byte, (skipSpace s).length ≤ s.length
  | [] => Nat.le_refl _
  | c :: s => by
    unfold skipSpace
    split
    · have := skipSpace_length s; simp; omega
    · exact Nat.le_refl _

variable {N} in
theorem Lawful.nil (hN : Lawful N) : N.strtod [] = none := by
  cases h : N.strtod [] with
  | none => rfl
  | some p =>
    obtain ⟨c, hc, he⟩ := hN [] p.1 p.2 h
    have := List.append_eq_nil_iff.1 he.symm
    exact absurd this.1 hc

variable {N} in
theorem Lawful.shorter (hN : Lawful N) {t r : List Byte} {v : D} (h : N.strtod t = some (v, r)) : r.length < t.length := by
  obtain ⟨c, hc, he⟩ := hN t v r h
  rw [he, List.length_append]
  have := List.length_pos_iff.2 hc
  omega

/-- One round of the loop, without the two lines for the end of the text. -/
theorem parseLoop_succ (hN : Lawful N) (n : Nat) (v : D) (r : List Byte) (fb : D) :
    parseLoop N (n + 1) v r fb =
      match skipSpace r with
      | [] => some (v, [])
      | op :: tl =>
        if op ≠ 47 ∧ op ≠ 42 then some (v, op :: tl)
        else if (skipSpace tl).head? = some 40 then
          match parseExpression N n (skipSpace tl).tail N.one with
          | none => none
          | some (w, rest) =>
            if rest.head? ≠ some 41 then some (fb, rest) else parseLoop N n (applyOp N op v w) rest.tail fb
        else match N.strtod (skipSpace tl) with
          | none => some (fb, skipSpace tl)
          | some (w, rest) => parseLoop N n (applyOp N op v w) rest fb := by
  rw [parseLoop]
  cases skipSpace r with
  | nil => rfl
  | cons op tl =>
    dsimp only
    split
    · rfl
    · cases skipSpace tl with
      | nil => simp [hN.nil]
      | cons c inner =>
        by_cases hc : c = 40
        · simp only [hc, if_true, List.head?_cons, List.tail_cons]
          cases parseExpression N n inner N.one with
          | none => rfl
          | some p =>
            obtain ⟨w, rest⟩ := p
            cases rest with
            | nil => simp
            | cons d after =>
              by_cases hd : d = 41
              · simp [hd, applyOp]
              · simp [hd]
        · simp only [if_neg hc, List.head?_cons, Option.some.injEq]
          cases N.strtod (c :: inner) with
          | none => rfl
          | some p => rfl

theorem skipSpace_suffix : ∀ s : List Byte, skipSpace s <:+ s
  | [] => List.suffix_refl _
  | c :: s => by
    unfold skipSpace
    split
    · exact (skipSpace_suffix s).trans (List.suffix_cons c s)
    · exact List.suffix_refl _

variable {N} in
theorem Lawful.suffix (hN : Lawful N) {t r : List Byte} {v : D} (h : N.strtod t = some (v, r)) : r <:+ t := by
  obtain ⟨c, -, he⟩ := hN t v r h
  exact ⟨c, he.symm⟩

mutual
theorem parseExpression_total (hN : Lawful N) : ∀ (n : Nat) (t : List Byte) (fb : D), t.length < n →
    ∃ v r, parseExpression N n t fb = some (v, r) ∧ r <:+ t
  | 0, _, _, h => absurd h (Nat.not_lt_zero _)
  | n + 1, t, fb, h => by
    rw [parseExpression]
    cases hs : N.strtod t with
    | none => exact ⟨fb, t, rfl, List.suffix_refl _⟩
    | some p =>
      obtain ⟨v, r⟩ := p
      have hl := hN.shorter hs
      obtain ⟨w, r', hp, hle⟩ := parseLoop_total hN n v r fb (by omega)
      exact ⟨w, r', hp, hle.trans (hN.suffix hs)⟩

theorem parseLoop_total (hN : Lawful N) : ∀ (n : Nat) (v : D) (r : List Byte) (fb : D), r.length < n →
    ∃ w r', parseLoop N n v r fb = some (w, r') ∧ r' <:+ r
  | 0, _, _, _, h => absurd h (Nat.not_lt_zero _)
  | n + 1, v, r, fb, h => by
    rw [parseLoop_succ N hN]
    have s0 := skipSpace_suffix r
    have h0 := s0.length_le
    cases hr : skipSpace r with
    | nil => exact ⟨v, [], rfl, List.nil_suffix⟩
    | cons op tl =>
      rw [hr] at h0 s0
      simp only [List.length_cons] at h0
      dsimp only
      have s1 := skipSpace_suffix tl
      have h1 := s1.length_le
      have s2 : skipSpace tl <:+ r := s1.trans ((List.suffix_cons op tl).trans s0)
      split
      · exact ⟨v, op :: tl, rfl, s0⟩
      · split
        · have h2 : (skipSpace tl).tail.length ≤ (skipSpace tl).length := by simp
          obtain ⟨w, r', hp, hle⟩ := parseExpression_total hN n (skipSpace tl).tail N.one (by omega)
          have s3 := (hle.trans (List.tail_suffix _)).trans s2
          have h3 := hle.length_le
          rw [hp]
          dsimp only
          split
          · exact ⟨fb, r', rfl, s3⟩
          · have h3 : r'.tail.length ≤ r'.length := by simp
            obtain ⟨w', r'', hp', hle'⟩ := parseLoop_total hN n (applyOp N op v w) r'.tail fb (by omega)
            exact ⟨w', r'', hp', (hle'.trans (List.tail_suffix _)).trans s3⟩
        · cases hs : N.strtod (skipSpace tl) with
          | none => exact ⟨fb, skipSpace tl, rfl, s2⟩
          | some p =>
            obtain ⟨w, rest⟩ := p
            have hl := hN.shorter hs
            obtain ⟨w', r'', hp', hle'⟩ := parseLoop_total hN n (applyOp N op v w) rest fb (by omega)
            exact ⟨w', r'', hp', (hle'.trans (hN.suffix hs)).trans s2⟩
end

/-! ### Well-formed expressions yield their value -/

mutual
theorem parseExpression_complete (hN : Lawful N) : ∀ (n : Nat) (t : List Byte) (fb w : D) (r : List Byte), t.length < n →
    IsExpr N t w r → parseExpression N n t fb = some (w, r)
  | 0, _, _, _, _, h, _ => absurd h (Nat.not_lt_zero _)
  | n + 1, t, fb, w, r, h, .mk hs hrest => by
    rw [parseExpression, hs]
    have hl := hN.shorter hs
    exact parseLoop_complete hN n _ _ fb w r (by omega) hrest

theorem parseLoop_complete (hN : Lawful N) : ∀ (n : Nat) (v : D) (r : List Byte) (fb w : D) (r' : List Byte), r.length < n →
    IsRest N v r w r' → parseLoop N n v r fb = some (w, r')
  | 0, _, _, _, _, _, h, _ => absurd h (Nat.not_lt_zero _)
  | n + 1, v, r, fb, w, r', h, hrest => by
    rw [parseLoop_succ N hN]
    have h0 := skipSpace_length r
    cases hrest with
    | done hend =>
      cases hr : skipSpace r with
      | nil => rfl
      | cons op tl =>
        dsimp only
        rw [if_pos (hend op (by rw [hr]; rfl))]
    | step hr hop hoperand hrest' =>
      rw [hr] at h0 ⊢
      simp only [List.length_cons] at h0
      rename_i op tl x r2
      dsimp only
      have h1 := skipSpace_length tl
      rw [if_neg (by rintro ⟨k1, k2⟩; rcases hop with k | k; exact k1 k; exact k2 k)]
      generalize hT : skipSpace tl = T at *
      cases hoperand with
      | number hh hs =>
        rw [if_neg hh, hs]
        have hl := hN.shorter hs
        exact parseLoop_complete hN n _ _ fb w r' (by omega) hrest'
      | paren he =>
        rename_i t
        simp only [List.length_cons] at h1
        simp only [List.head?_cons, if_true, List.tail_cons]
        obtain ⟨v0, r0, hp, hle⟩ := parseExpression_total N hN n t N.one (by omega)
        have hc := parseExpression_complete hN n t N.one x (41 :: r2) (by omega) he
        rw [hc] at hp
        cases hp
        have hle := hle.length_le
        simp only [List.length_cons] at hle
        rw [hc]
        simp only [List.head?_cons, ne_eq, not_true_eq_false, if_false, List.tail_cons]
        exact parseLoop_complete hN n _ _ fb w r' (by omega) hrest'
end

/-! ### What else is taken -/

/-- A parenthesis is opened and what follows is not an expression with a closing parenthesis behind it. -/
def BadParenthesis (t : List Byte) : Prop := ∃ a b, t = a ++ 40 :: b ∧ ¬∃ v r, IsExpr N b v (41 :: r)

/-- The text `r` stands in `t` directly behind an operator, and no number can be read there. -/
def MissingOperand (t r : List Byte) : Prop :=
  ∃ a op w, t = a ++ op :: (w ++ r) ∧ (op = 47 ∨ op = 42) ∧ AllSpace w ∧ N.strtod r = none

theorem skipSpace_split : ∀ s : List Byte, ∃ w, AllSpace w ∧ s = w ++ skipSpace s
  | [] => ⟨[], (by intro c hc; cases hc), rfl⟩
  | c :: s => by
    unfold skipSpace
    split
    · obtain ⟨w, hw, hs⟩ := skipSpace_split s
      refine ⟨c :: w, ?_, by rw [List.cons_append, ← hs]⟩
      intro x hx
      rcases List.mem_cons.1 hx with rfl | hx
      · assumption
      · exact hw x hx
    · exact ⟨[], (by intro c hc; cases hc), rfl⟩

theorem badParenthesis_append {t : List Byte} (c : List Byte) (h : BadParenthesis N t) : BadParenthesis N (c ++ t) := by
  obtain ⟨a, b, rfl, hb⟩ := h
  exact ⟨c ++ a, b, by simp, hb⟩

theorem missingOperand_append {t r : List Byte} (c : List Byte) (h : MissingOperand N t r) : MissingOperand N (c ++ t) r := by
  obtain ⟨a, op, w, rfl, h⟩ := h
  exact ⟨c ++ a, op, w, by simp, h⟩

theorem isExpr_suffix_total (hN : Lawful N) {n : Nat} {t : List Byte} {fb v : D} {r : List Byte}
    (hn : t.length < n) (h : parseExpression N n t fb = some (v, r)) :
    (∃ w r', IsExpr N t w (41 :: r')) → ∃ r', r = 41 :: r' ∧ IsExpr N t v r := by
  rintro ⟨w, r', hw⟩
  have := parseExpression_complete N hN n t fb w (41 :: r') hn hw
  rw [h] at this
  cases this
  exact ⟨r', rfl, hw⟩

theorem parseLoop_cases (hN : Lawful N) : ∀ (n : Nat) (v : D) (r : List Byte) (fb w : D) (r' : List Byte), r.length < n →
    parseLoop N n v r fb = some (w, r') → IsRest N v r w r' ∨ MissingOperand N r r' ∨ BadParenthesis N r
  | 0, _, _, _, _, _, h, _ => absurd h (Nat.not_lt_zero _)
  | n + 1, v, r, fb, w, r', h, hp => by
    rw [parseLoop_succ N hN] at hp
    have h0 := skipSpace_length r
    obtain ⟨sp, hsp, hr0⟩ := skipSpace_split r
    cases hr : skipSpace r with
    | nil =>
      rw [hr] at hp
      cases hp
      left
      have := IsRest.done (N := N) (v := v) (r := r) (by rw [hr]; intro c hc; cases hc)
      rwa [hr] at this
    | cons op tl =>
      rw [hr] at hp h0 hr0
      simp only [List.length_cons] at h0
      dsimp only at hp
      have h1 := skipSpace_length tl
      obtain ⟨sp', hsp', htl⟩ := skipSpace_split tl
      by_cases hop : op ≠ 47 ∧ op ≠ 42
      · rw [if_pos hop] at hp
        cases hp
        left
        have := IsRest.done (N := N) (v := v) (r := r) (by rw [hr]; intro c hc; cases hc; exact hop)
        rwa [hr] at this
      · rw [if_neg hop] at hp
        have hop' : op = 47 ∨ op = 42 := by
          by_cases k : op = 47
          · exact Or.inl k
          · by_cases k' : op = 42
            · exact Or.inr k'
            · exact absurd ⟨k, k'⟩ hop
        by_cases hpar : (skipSpace tl).head? = some 40
        · rw [if_pos hpar] at hp
          obtain ⟨b, hb⟩ : ∃ b, skipSpace tl = 40 :: b := by
            cases hT : skipSpace tl with
            | nil => rw [hT] at hpar; cases hpar
            | cons c b => rw [hT] at hpar; cases hpar; exact ⟨b, rfl⟩
          by_cases hex : ∃ v r, IsExpr N b v (41 :: r)
          · rw [hb] at hp h1
            simp only [List.tail_cons, List.length_cons] at hp h1
            obtain ⟨v0, r0, hp0, hle0⟩ := parseExpression_total N hN n b N.one (by omega)
            obtain ⟨r1, rfl, he⟩ := isExpr_suffix_total N hN (by omega) hp0 hex
            rw [hp0] at hp
            simp only [List.head?_cons, ne_eq, not_true_eq_false, if_false, List.tail_cons] at hp
            obtain ⟨c, hc⟩ := hle0
            have hle0 := congrArg List.length hc
            simp only [List.length_append, List.length_cons] at hle0
            -- the loop goes on behind the parenthesis
            have hsuf1 : ∃ c, r = c ++ r1 := by
              refine ⟨sp ++ op :: (sp' ++ 40 :: (c ++ [41])), ?_⟩
              conv_lhs => rw [hr0, htl, hb, ← hc]
              simp
            obtain ⟨c1, hc1⟩ := hsuf1
            rcases parseLoop_cases hN n _ r1 fb w r' (by omega) hp with k | k | k
            · left
              exact .step hr hop' (hb ▸ .paren he) k
            · right; left; rw [hc1]; exact missingOperand_append N c1 k
            · right; right; rw [hc1]; exact badParenthesis_append N c1 k
          · right; right
            refine ⟨sp ++ op :: sp', b, ?_, hex⟩
            conv_lhs => rw [hr0, htl, hb]
            simp
        · rw [if_neg hpar] at hp
          cases hs : N.strtod (skipSpace tl) with
          | none =>
            rw [hs] at hp
            cases hp
            right; left
            refine ⟨sp, op, sp', ?_, hop', hsp', hs⟩
            rw [← htl, ← hr0]
          | some p =>
            obtain ⟨x, rest⟩ := p
            rw [hs] at hp
            dsimp only at hp
            have hl := hN.shorter hs
            obtain ⟨c0, -, hc0⟩ := hN _ _ _ hs
            have hc1 : r = (sp ++ op :: (sp' ++ c0)) ++ rest := by
              conv_lhs => rw [hr0, htl, hc0]
              simp
            rcases parseLoop_cases hN n _ rest fb w r' (by omega) hp with k | k | k
            · left; exact .step hr hop' (.number hpar hs) k
            · right; left; rw [hc1]; exact missingOperand_append N _ k
            · right; right; rw [hc1]; exact badParenthesis_append N _ k

theorem parseExpression_cases (hN : Lawful N) (n : Nat) (t : List Byte) (fb w : D) (r : List Byte) (h : t.length < n)
    (hp : parseExpression N n t fb = some (w, r)) :
    IsExpr N t w r ∨ (r = t ∧ N.strtod t = none) ∨ MissingOperand N t r ∨ BadParenthesis N t := by
  cases n with
  | zero => exact absurd h (Nat.not_lt_zero _)
  | succ n =>
    rw [parseExpression] at hp
    cases hs : N.strtod t with
    | none => rw [hs] at hp; cases hp; exact Or.inr (Or.inl ⟨rfl, rfl⟩)
    | some p =>
      obtain ⟨v, rest⟩ := p
      rw [hs] at hp
      have hl := hN.shorter hs
      obtain ⟨c, -, hc⟩ := hN _ _ _ hs
      rcases parseLoop_cases N hN n v rest fb w r (by omega) hp with k | k | k
      · exact Or.inl (.mk hs k)
      · exact Or.inr (Or.inr (Or.inl (hc ▸ missingOperand_append N c k)))
      · exact Or.inr (Or.inr (Or.inr (hc ▸ badParenthesis_append N c k)))

/-- The text ends in an operator, with white space behind it. -/
def EndsInOperator (t : List Byte) : Prop := ∃ a op w, t = a ++ op :: w ∧ (op = 47 ∨ op = 42) ∧ AllSpace w

/-- A text is an expression with at most one value. -/
theorem C45_one_value (hN : Lawful N) (t : List Byte) (v v' : D) (h : WellFormed N t v) (h' : WellFormed N t v') : v = v' := by
  have e := parseExpression_complete N hN (t.length + 1) t N.one v [] (Nat.lt_succ_self _) h
  have e' := parseExpression_complete N hN (t.length + 1) t N.one v' [] (Nat.lt_succ_self _) h'
  rw [e] at e'
  cases e'
  rfl

/-- **C45, values**: a well-formed expression is accepted with its value as a `float`, unless that is
negative: then it is an error. -/
theorem C45_value (hN : Lawful N) (value : List Byte) (v : D) (h : WellFormed N (cString value) v) :
    parseFloatExpr N value = some (!N.negative (N.toFloat v), some (N.toFloat v)) := by
  unfold parseFloatExpr
  dsimp only
  rw [parseExpression_complete N hN (2 * (cString value).length + 2) (cString value) N.one v [] (by omega) h]
  dsimp only
  cases N.negative (N.toFloat v) <;> rfl

/-- **C45, everything else is an error** (partial): a value that is accepted is a well-formed expression, and
what is stored is its value, unless the text is empty, ends in an operator, or has an opening parenthesis
that is not followed by an expression and a closing parenthesis. -/
theorem C45_accepted_partial (hN : Lawful N) (value : List Byte) (x : Option F)
    (h : parseFloatExpr N value = some (true, x)) (hempty : cString value ≠ []) (hop : ¬EndsInOperator (cString value))
    (hpar : ¬BadParenthesis N (cString value)) :
    ∃ v, WellFormed N (cString value) v ∧ x = some (N.toFloat v) ∧ N.negative (N.toFloat v) = false := by
  unfold parseFloatExpr at h
  dsimp only at h
  generalize cString value = t at *
  obtain ⟨v, r, hp, -⟩ := parseExpression_total N hN (2 * t.length + 2) t N.one (by omega)
  rw [hp] at h
  dsimp only at h
  cases r with
  | cons c r => cases h
  | nil =>
    dsimp only at h
    have hx : x = some (N.toFloat v) ∧ N.negative (N.toFloat v) = false := by
      cases hn : N.negative (N.toFloat v) with
      | true => rw [hn] at h; simp at h
      | false =>
        rw [hn] at h
        simp at h
        exact ⟨h.symm, rfl⟩
    rcases parseExpression_cases N hN _ t N.one v [] (by omega) hp with k | k | k | k
    · exact ⟨v, k, hx⟩
    · exact absurd k.1.symm hempty
    · obtain ⟨a, op, w, ht, hop', hw, -⟩ := k
      exact absurd ⟨a, op, w, by rw [ht, List.append_nil], hop', hw⟩ hop
    · exact absurd k hpar

/-- The parser always comes to an end with an answer. -/
theorem C45_answers (hN : Lawful N) (value : List Byte) : ∃ a, parseFloatExpr N value = some a := by
  unfold parseFloatExpr
  dsimp only
  obtain ⟨v, r, hp, -⟩ := parseExpression_total N hN (2 * (cString value).length + 2) (cString value) N.one (by omega)
  rw [hp]
  cases r with
  | nil =>
    dsimp only
    split <;> exact ⟨_, rfl⟩
  | cons c r => exact ⟨_, rfl⟩

end

/-! ### Written expressions -/

section
variable {D F : Type} (N : Numbers D F)

/-- `x` is how a number is written: followed by the end of the text or by something that cannot continue it,
it is read back as `v`. -/
def Writes (x : List Byte) (v : D) : Prop :=
  (x.head? ≠ some 40 ∧ ∀ c, x.head? = some c → isSpace c = false) ∧ ∀ r : List Byte,
    (∀ c, r.head? = some c → isSpace c = true ∨ c = 47 ∨ c = 42 ∨ c = 41) → N.strtod (x ++ r) = some (v, r)

mutual
/-- Expressions as people think of them: a number times and divided by numbers and expressions in
parentheses. Numbers carry how they are written; every operator the white space around it, every expression
the white space behind it. -/
inductive Ex (D : Type) where
  | mk (text : List Byte) (value : D) (rest : Rest D)

/-- What follows the first number: operators with their operands, or the end. -/
inductive Rest (D : Type) where
  | done (space : List Byte)
  | step (before : List Byte) (isDiv : Bool) (behind : List Byte) (operand : Operand D) (rest : Rest D)

/-- What stands behind an operator: a number or an expression in parentheses. -/
inductive Operand (D : Type) where
  | number (text : List Byte) (value : D)
  | paren (e : Ex D)
end

mutual
/-- How the expression is written. -/
def Ex.text : Ex D → List Byte
  | .mk t _ r => t ++ r.text

/-- How the rest is written. -/
def Rest.text : Rest D → List Byte
  | .done w => w
  | .step b d a o r => b ++ (if d then 47 else 42) :: (a ++ (o.text ++ r.text))

/-- How an operand is written. -/
def Operand.text : Operand D → List Byte
  | .number t _ => t
  | .paren e => 40 :: (e.text ++ [41])
end

mutual
/-- Its value. -/
def Ex.value : Ex D → D
  | .mk _ v r => r.value v

/-- The value of the rest, given what stands in front of it. -/
def Rest.value : Rest D → D → D
  | .done _, v => v
  | .step _ d _ o r, v => r.value (if d then N.div v o.value else N.mul v o.value)

/-- The value of an operand. -/
def Operand.value : Operand D → D
  | .number _ v => v
  | .paren e => e.value
end

mutual
/-- The numbers are written properly and the spaces are spaces. -/
def Ex.Ok : Ex D → Prop
  | .mk t v r => Writes N t v ∧ r.Ok

/-- The same for the rest. -/
def Rest.Ok : Rest D → Prop
  | .done w => AllSpace w
  | .step b _ a o r => AllSpace b ∧ AllSpace a ∧ o.Ok ∧ r.Ok

/-- The same for an operand. -/
def Operand.Ok : Operand D → Prop
  | .number t v => Writes N t v
  | .paren e => e.Ok
end

/-- What may stand behind an expression: nothing, or a closing parenthesis. -/
def Follows (r : List Byte) : Prop := r = [] ∨ r.head? = some 41

theorem skipSpace_append : ∀ (w r : List Byte), AllSpace w → (∀ c, r.head? = some c → isSpace c = false) →
    skipSpace (w ++ r) = r
  | [], r, _, h => by
    cases r with
    | nil => rfl
    | cons c r =>
      have := h c rfl
      simp [skipSpace, this]
  | c :: w, r, hw, h => by
    have hc := hw c (by simp)
    rw [List.cons_append, skipSpace, if_pos hc]
    exact skipSpace_append w r (fun x hx => hw x (by simp [hx])) h

theorem Follows.noSpace {r : List Byte} (h : Follows r) (c : Byte) (hc : r.head? = some c) : isSpace c = false := by
  rcases h with rfl | h
  · cases hc
  · rw [h] at hc; cases hc; decide

theorem rest_follow {r : Rest D} {tail : List Byte} (hr : r.Ok N) (ht : Follows tail) (c : Byte)
    (hc : (r.text ++ tail).head? = some c) : isSpace c = true ∨ c = 47 ∨ c = 42 ∨ c = 41 := by
  cases r with
  | done w =>
    rw [Rest.text] at hc
    rw [Rest.Ok] at hr
    cases w with
    | nil =>
      rcases ht with rfl | ht
      · cases hc
      · rw [List.nil_append, ht] at hc; cases hc; simp
    | cons x w =>
      cases hc
      exact Or.inl (hr _ (by simp))
  | step b d a o r =>
    rw [Rest.text] at hc
    rw [Rest.Ok] at hr
    cases b with
    | nil =>
      cases hc
      cases d <;> simp
    | cons x b =>
      cases hc
      exact Or.inl (hr.1 _ (by simp))

theorem operand_head (hN : Lawful N) {o : Operand D} (ho : o.Ok N) (r : List Byte) (c : Byte)
    (hc : (o.text ++ r).head? = some c) : isSpace c = false := by
  cases o with
  | number t v =>
    rw [Operand.Ok] at ho
    rw [Operand.text] at hc
    cases t with
    | nil =>
      have := ho.2 [] (by intro c hc; cases hc)
      rw [List.nil_append, hN.nil] at this
      cases this
    | cons x t => cases hc; exact ho.1.2 _ rfl
  | paren e => cases hc; decide

mutual
theorem ex_isExpr (hN : Lawful N) : ∀ (e : Ex D) (tail : List Byte), e.Ok N → Follows tail →
    IsExpr N (e.text ++ tail) (e.value N) tail
  | .mk t v r, tail, hok, ht => by
    rw [Ex.Ok] at hok
    rw [Ex.text, Ex.value, List.append_assoc]
    exact .mk (hok.1.2 (r.text ++ tail) (rest_follow N hok.2 ht)) (rest_isRest hN r v tail hok.2 ht)

theorem rest_isRest (hN : Lawful N) : ∀ (r : Rest D) (v : D) (tail : List Byte), r.Ok N → Follows tail →
    IsRest N v (r.text ++ tail) (r.value N v) tail
  | .done w, v, tail, hok, ht => by
    rw [Rest.Ok] at hok
    rw [Rest.text, Rest.value]
    have e := skipSpace_append w tail hok ht.noSpace
    have := IsRest.done (N := N) (v := v) (r := w ++ tail) (by
      rw [e]
      intro c hc
      rcases ht with rfl | ht
      · cases hc
      · rw [ht] at hc; cases hc; decide)
    rwa [e] at this
  | .step b d a o r, v, tail, hok, ht => by
    rw [Rest.Ok] at hok
    obtain ⟨hb, ha, ho, hr⟩ := hok
    rw [Rest.text, Rest.value]
    have h1 : skipSpace (b ++ (if d then 47 else 42) :: (a ++ (o.text ++ r.text)) ++ tail)
        = (if d then 47 else 42) :: (a ++ (o.text ++ (r.text ++ tail))) := by
      rw [List.append_assoc, skipSpace_append b _ hb (by
        intro c hc
        cases hc
        cases d <;> decide)]
      simp
    have h2 : skipSpace (a ++ (o.text ++ (r.text ++ tail))) = o.text ++ (r.text ++ tail) :=
      skipSpace_append a _ ha (operand_head N hN ho _)
    have h3 := operand_isOperand hN o (r.text ++ tail) ho (rest_follow N hr ht)
    have h4 := rest_isRest hN r (if d then N.div v (o.value N) else N.mul v (o.value N)) tail hr ht
    refine .step h1 (by cases d <;> simp) (h2.symm ▸ h3) ?_
    have : applyOp N (if d then 47 else 42) v (o.value N) = if d then N.div v (o.value N) else N.mul v (o.value N) := by
      cases d <;> rfl
    rw [this]
    exact h4

theorem operand_isOperand (hN : Lawful N) : ∀ (o : Operand D) (r : List Byte), o.Ok N →
    (∀ c, r.head? = some c → isSpace c = true ∨ c = 47 ∨ c = 42 ∨ c = 41) → IsOperand N (o.text ++ r) (o.value N) r
  | .number t v, r, hok, hr => by
    rw [Operand.Ok] at hok
    rw [Operand.text, Operand.value]
    refine .number ?_ (hok.2 r hr)
    cases t with
    | nil =>
      have := hok.2 [] (by intro c hc; cases hc)
      rw [List.nil_append, hN.nil] at this
      cases this
    | cons x t => exact hok.1.1
  | .paren e, r, hok, hr => by
    rw [Operand.Ok] at hok
    rw [Operand.text, Operand.value, List.cons_append, List.append_assoc]
    exact .paren (ex_isExpr hN e (41 :: r) hok (Or.inr rfl))
end

/-- **C45, written expressions**: every expression of numbers, multiplications, divisions and parentheses,
written with any white space, is accepted with its value (unless negative). -/
theorem C45_written (hN : Lawful N) (e : Ex D) (hok : e.Ok N) (hnul : (0 : Byte) ∉ e.text) :
    parseFloatExpr N e.text = some (!N.negative (N.toFloat (e.value N)), some (N.toFloat (e.value N))) := by
  have hc : ∀ l : List Byte, (0 : Byte) ∉ l → cString l = l := by
    intro l
    induction l with
    | nil => intro _; rfl
    | cons c l ih =>
      intro h
      have hc : c ≠ 0 := fun k => h (by simp [k])
      unfold cString at ih ⊢
      rw [List.takeWhile_cons_of_pos (by simpa using hc), ih (fun k => h (by simp [k]))]
  apply C45_value N hN
  rw [hc _ hnul]
  have := ex_isExpr N hN e [] hok (Or.inl rfl)
  rwa [List.append_nil] at this

end

/-! ### Broken expressions are accepted -/

/-- Whole numbers in decimal, for the examples. -/
def exDigits : List Byte → Option Nat → Option (Nat × List Byte)
  | [], acc => acc.map fun v => (v, [])
  | c :: s, acc =>
    if 48 ≤ c ∧ c ≤ 57 then exDigits s (some (acc.getD 0 * 10 + (c.toNat - 48)))
    else acc.map fun v => (v, c :: s)

/-- Numbers for the examples: digits are natural numbers. -/
def exNumbers : Numbers Nat Nat where
  strtod s := exDigits s none
  one := 1
  mul := (· * ·)
  div := (· / ·)
  toFloat := id
  negative _ := false

theorem exDigits_suffix : ∀ (s : List Byte) (acc : Option Nat) (v : Nat) (r : List Byte), exDigits s acc = some (v, r) →
    ∃ c, s = c ++ r ∧ (acc = none → c ≠ [])
  | [], acc, v, r, h => by
    cases acc with
    | none => cases h
    | some a => cases h; exact ⟨[], rfl, by simp⟩
  | c :: s, acc, v, r, h => by
    unfold exDigits at h
    split at h
    · obtain ⟨x, hx, -⟩ := exDigits_suffix s _ v r h
      exact ⟨c :: x, by rw [hx]; rfl, by simp⟩
    · cases acc with
      | none => cases h
      | some a => cases h; exact ⟨[], rfl, by simp⟩

theorem exNumbers_lawful : Lawful exNumbers := by
  intro t v r h
  obtain ⟨c, hc, hne⟩ := exDigits_suffix t none v r h
  exact ⟨c, hne rfl, hc⟩

/-- `200*16/(2 * 8)` -/
example : parseFloatExpr exNumbers [50, 48, 48, 42, 49, 54, 47, 40, 50, 32, 42, 32, 56, 41] = some (true, some 200) := by
  decide +kernel

/-- `12x` and `2*)` are refused. -/
example : parseFloatExpr exNumbers [49, 50, 120] = some (false, none) ∧ parseFloatExpr exNumbers [50, 42, 41] = some (false, none) := by
  refine ⟨?_, ?_⟩ <;> decide +kernel

/-- `12` is written properly. -/
example : (Ex.mk [49, 50] 12 (.done [])).Ok exNumbers := by
  rw [Ex.Ok, Rest.Ok]
  refine ⟨⟨⟨by decide, by decide⟩, ?_⟩, by intro c hc; cases hc⟩
  intro r hr
  cases r with
  | nil => rfl
  | cons c r =>
    have hc : ¬(48 ≤ c ∧ c ≤ 57) := by
      rintro ⟨h1, h2⟩
      rcases hr c rfl with h | rfl | rfl | rfl
      · simp only [isSpace, Bool.or_eq_true, Bool.and_eq_true, decide_eq_true_eq] at h
        rcases h with ⟨-, h⟩ | rfl
        · exact absurd (UInt8.le_trans h1 h) (by decide)
        · exact absurd h1 (by decide)
      all_goals exact absurd h1 (by decide)
    show exDigits (49 :: 50 :: c :: r) none = _
    rw [exDigits, if_pos (by decide), exDigits, if_pos (by decide), exDigits, if_neg hc]
    rfl

/-- No expression in front of `]`-like bytes: nothing can be read from a text that does not begin with a
digit. -/
theorem exNumbers_none {t : List Byte} (h : ∀ c, t.head? = some c → ¬(48 ≤ c ∧ c ≤ 57)) : exNumbers.strtod t = none := by
  show exDigits t none = none
  cases t with
  | nil => rfl
  | cons c s => rw [exDigits, if_neg (h c rfl)]; rfl

/-- **C45 does not hold**: the empty value is accepted as 1, `200 *` is accepted as 1, `2*(3` as 1, `2*()` as 2
and `2*(3*)` as 2; none of these is an expression, and no error is reported. -/
theorem C45_broken_accepted :
    (parseFloatExpr exNumbers [] = some (true, some 1) ∧ ¬∃ v, WellFormed exNumbers [] v) ∧
    (parseFloatExpr exNumbers [50, 48, 48, 32, 42] = some (true, some 1) ∧ ¬∃ v, WellFormed exNumbers [50, 48, 48, 32, 42] v) ∧
    (parseFloatExpr exNumbers [50, 42, 40, 51] = some (true, some 1) ∧ ¬∃ v, WellFormed exNumbers [50, 42, 40, 51] v) ∧
    (parseFloatExpr exNumbers [50, 42, 40, 41] = some (true, some 2) ∧ ¬∃ v, WellFormed exNumbers [50, 42, 40, 41] v) ∧
    (parseFloatExpr exNumbers [50, 42, 40, 51, 42, 41] = some (true, some 2) ∧
      ¬∃ v, WellFormed exNumbers [50, 42, 40, 51, 42, 41] v) := by
  have hN := exNumbers_lawful
  -- a well-formed text gives the same answer whatever the fallback
  have key : ∀ (t : List Byte) (a b : Nat), parseExpression exNumbers (t.length + 1) t a
      ≠ parseExpression exNumbers (t.length + 1) t b → ¬∃ v, WellFormed exNumbers t v := by
    rintro t a b hne ⟨v, hv⟩
    apply hne
    rw [parseExpression_complete exNumbers hN (t.length + 1) t a v [] (Nat.lt_succ_self _) hv,
      parseExpression_complete exNumbers hN (t.length + 1) t b v [] (Nat.lt_succ_self _) hv]
  have key2 : ∀ v r, ¬IsExpr exNumbers [41] v r := by
    intro v r h
    cases h with
    | mk hs _ => rw [exNumbers_none (by intro c hc; cases hc; decide)] at hs; cases hs
  have key3 : ∀ v r, ¬IsExpr exNumbers [51, 42, 41] v r := by
    intro v r h
    have e := parseExpression_complete exNumbers hN 4 _ 5 v r (by decide) h
    have e' := parseExpression_complete exNumbers hN 4 _ 6 v r (by decide) h
    rw [← e'] at e
    revert e
    decide +kernel
  have key4 : ∀ (b : List Byte) (v : Nat), (∀ v r, ¬IsExpr exNumbers b v r) → ¬WellFormed exNumbers (50 :: 42 :: 40 :: b) v := by
    intro b v hb h
    cases h with
    | mk hs hrest =>
      have hs' : exNumbers.strtod (50 :: 42 :: 40 :: b) = some (2, 42 :: 40 :: b) := by
        show exDigits _ _ = _
        rw [exDigits, if_pos (by decide), exDigits, if_neg (by decide)]
        rfl
      rw [hs'] at hs
      cases hs
      cases hrest with
      | step hr hop hoperand _ =>
        rw [show skipSpace (42 :: 40 :: b) = 42 :: 40 :: b by simp [skipSpace, isSpace]] at hr
        cases hr
        rw [show skipSpace (40 :: b) = 40 :: b by simp [skipSpace, isSpace]] at hoperand
        cases hoperand with
        | number hh _ => exact hh rfl
        | paren he => exact hb _ _ he
  refine ⟨⟨by decide +kernel, key _ 5 6 (by decide +kernel)⟩, ⟨by decide +kernel, key _ 5 6 (by decide +kernel)⟩,
    ⟨by decide +kernel, key _ 5 6 (by decide +kernel)⟩, ⟨by decide +kernel, ?_⟩, ⟨by decide +kernel, ?_⟩⟩
  · rintro ⟨v, hv⟩
    exact key4 _ v key2 hv
  · rintro ⟨v, hv⟩
    exact key4 _ v key3 hv

/-- The exceptions of `C45_accepted_partial` are the ones that occur: `2*(3` has a bad parenthesis and `200 *`
ends in an operator; on `200*16` none applies. -/
example : EndsInOperator [50, 48, 48, 32, 42] ∧ ¬EndsInOperator [50, 42, 51] := by
  refine ⟨⟨[50, 48, 48, 32], 42, [], rfl, by decide, by intro c hc; cases hc⟩, ?_⟩
  rintro ⟨a, op, w, h, hop, hw⟩
  have : (51 : Byte) ∈ op :: w := by
    have e : ([50, 42, 51] : List Byte).getLast? = (a ++ op :: w).getLast? := by rw [h]
    have : (a ++ op :: w).getLast? = (op :: w).getLast? := by
      rw [List.getLast?_append]
      cases hl : (op :: w).getLast? with
      | none => simp at hl
      | some z => rfl
    rw [this] at e
    exact List.mem_of_getLast? e.symm
  rcases List.mem_cons.1 this with k | k
  · rw [← k] at hop; revert hop; decide
  · exact absurd (hw _ k) (by decide)

end BeagleG.Config
