import Verif.Planner.Spec
/-!
# The planner does not look into its backend

Two backends that give the same answers make the planner do the same: running it with one or the
other keeps any relation between the backend states that the backend operations keep.
-/
namespace BeagleG.EndToEnd

open Planner

variable {F β₁ β₂ : Type}

/-- The operations of both backends preserve `R` and answer alike. -/
structure Sim (B₁ : Backend F β₁) (B₂ : Backend F β₂) (R : β₁ → β₂ → Prop) : Prop where
  enqueue : ∀ b₁ b₂ c, R b₁ b₂ →
    R (B₁.enqueue b₁ c).1 (B₂.enqueue b₂ c).1 ∧ (B₁.enqueue b₁ c).2 = (B₂.enqueue b₂ c).2
  wait : ∀ b₁ b₂, R b₁ b₂ → R (B₁.waitQueueEmpty b₁) (B₂.waitQueueEmpty b₂)
  external : ∀ b₁ b₂ m p, R b₁ b₂ →
    R (B₁.setExternalPosition b₁ m p) (B₂.setExternalPosition b₂ m p)

/-- Planner states that differ in the backend only. -/
structure Rel (R : β₁ → β₂ → Prop) (s₁ : State F β₁) (s₂ : State F β₂) : Prop where
  backend : R s₁.backend s₂.backend
  buffer : s₁.buffer = s₂.buffer
  ready : s₁.ready = s₂.ready
  lookahead : s₁.lookahead = s₂.lookahead
  halted : s₁.halted = s₂.halted
  known : s₁.positionKnown = s₂.positionKnown

/-- Both fail or both succeed with related results. -/
inductive Both {α₁ α₂ : Type} (P : α₁ → α₂ → Prop) : Option α₁ → Option α₂ → Prop
  | none : Both P none none
  | some {a₁ a₂} (h : P a₁ a₂) : Both P (some a₁) (some a₂)

theorem Both.map {α₁ α₂ γ₁ γ₂ : Type} {P : α₁ → α₂ → Prop} {Q : γ₁ → γ₂ → Prop} {x y}
    (h : Both P x y) (f : α₁ → γ₁) (g : α₂ → γ₂) (hf : ∀ a b, P a b → Q (f a) (g b)) :
    Both Q (x.map f) (y.map g) := by
  cases h with
  | none => exact .none
  | some h => exact .some (hf _ _ h)

variable {B₁ : Backend F β₁} {B₂ : Backend F β₂} {R : β₁ → β₂ → Prop} (A : Arith F) (cfg : Config F)

theorem sim_send (h : Sim B₁ B₂ R) {b₁ b₂} (hb : R b₁ b₂) (seg : Segment F) (ret : Bool) :
    R (sendSegment A cfg B₁ b₁ seg ret).1 (sendSegment A cfg B₂ b₂ seg ret).1 ∧
    (sendSegment A cfg B₁ b₁ seg ret).2 = (sendSegment A cfg B₂ b₂ seg ret).2 := by
  unfold sendSegment
  dsimp only
  have h0 : R (if cfg.synchronous then B₁.waitQueueEmpty b₁ else b₁)
      (if cfg.synchronous then B₂.waitQueueEmpty b₂ else b₂) := by
    split
    · exact h.wait _ _ hb
    · exact hb
  generalize (if cfg.synchronous then B₁.waitQueueEmpty b₁ else b₁) = c₁ at *
  generalize (if cfg.synchronous then B₂.waitQueueEmpty b₂ else b₂) = c₂ at *
  have h1 : R (if seg.planned.accel ≠ 0 then B₁.enqueue c₁ (accelCommand A cfg seg) else (c₁, ret)).1
      (if seg.planned.accel ≠ 0 then B₂.enqueue c₂ (accelCommand A cfg seg) else (c₂, ret)).1 ∧
      (if seg.planned.accel ≠ 0 then B₁.enqueue c₁ (accelCommand A cfg seg) else (c₁, ret)).2 =
      (if seg.planned.accel ≠ 0 then B₂.enqueue c₂ (accelCommand A cfg seg) else (c₂, ret)).2 := by
    split
    · exact h.enqueue _ _ _ h0
    · exact ⟨h0, rfl⟩
  generalize (if seg.planned.accel ≠ 0 then B₁.enqueue c₁ (accelCommand A cfg seg) else (c₁, ret)) = d₁ at *
  generalize (if seg.planned.accel ≠ 0 then B₂.enqueue c₂ (accelCommand A cfg seg) else (c₂, ret)) = d₂ at *
  obtain ⟨d₁, r⟩ := d₁
  obtain ⟨d₂, r'⟩ := d₂
  obtain ⟨h1, e⟩ := h1
  dsimp only at h1 e
  subst e
  have h2 : R (if (hasMove A cfg seg && r) = true then B₁.enqueue d₁ (moveCommand A cfg seg) else (d₁, r)).1
      (if (hasMove A cfg seg && r) = true then B₂.enqueue d₂ (moveCommand A cfg seg) else (d₂, r)).1 ∧
      (if (hasMove A cfg seg && r) = true then B₁.enqueue d₁ (moveCommand A cfg seg) else (d₁, r)).2 =
      (if (hasMove A cfg seg && r) = true then B₂.enqueue d₂ (moveCommand A cfg seg) else (d₂, r)).2 := by
    split
    · exact h.enqueue _ _ _ h1
    · exact ⟨h1, rfl⟩
  dsimp only
  generalize (if (hasMove A cfg seg && r) = true then B₁.enqueue d₁ (moveCommand A cfg seg) else (d₁, r)) = e₁ at *
  generalize (if (hasMove A cfg seg && r) = true then B₂.enqueue d₂ (moveCommand A cfg seg) else (d₂, r)) = e₂ at *
  obtain ⟨e₁, r1⟩ := e₁
  obtain ⟨e₂, r2⟩ := e₂
  obtain ⟨h2, e⟩ := h2
  dsimp only at h2 e
  subst e
  split
  · exact h.enqueue _ _ _ h2
  · exact ⟨h2, rfl⟩

theorem sim_issueLoop (h : Sim B₁ B₂ R) (n : Nat) : ∀ (s₁ : State F β₁) (s₂ : State F β₂) (ret : Bool),
    Rel R s₁ s₂ → Both (fun x y => Rel R x.1 y.1 ∧ x.2 = y.2)
      (issueLoop A cfg B₁ n s₁ ret) (issueLoop A cfg B₂ n s₂ ret) := by
  induction n with
  | zero => intro s₁ s₂ ret hr; exact .some ⟨hr, rfl⟩
  | succ n ih =>
    intro s₁ s₂ ret hr
    unfold issueLoop
    rw [hr.buffer]
    cases hb : s₂.buffer with
    | nil => exact .none
    | cons seg rest =>
      dsimp only
      obtain ⟨g1, g2⟩ := sim_send A cfg h hr.backend seg ret
      by_cases hc : rest ≠ []
      · rw [if_pos hc, if_pos hc, g2]
        exact ih _ _ _ ⟨g1, rfl, by rw [hr.ready], hr.lookahead, hr.halted, hr.known⟩
      · rw [if_neg hc, if_neg hc]
        exact ih _ _ _ ⟨g1, rfl, rfl, hr.lookahead, rfl, hr.known⟩

theorem sim_issue (h : Sim B₁ B₂ R) {s₁ : State F β₁} {s₂ : State F β₂} (hr : Rel R s₁ s₂)
    (flush : Bool) : Both (fun x y => Rel R x.1 y.1 ∧ x.2 = y.2)
      (issue A cfg B₁ s₁ flush) (issue A cfg B₂ s₂ flush) := by
  unfold issue
  rw [hr.buffer, hr.lookahead]
  exact sim_issueLoop A cfg h _ _ _ _ hr

theorem sim_halt (h : Sim B₁ B₂ R) {s₁ : State F β₁} {s₂ : State F β₂} (hr : Rel R s₁ s₂) :
    Both (Rel R) (bringPathToHalt A cfg B₁ s₁) (bringPathToHalt A cfg B₂ s₂) := by
  unfold bringPathToHalt
  rw [hr.halted]
  split
  · exact .some hr
  · exact (sim_issue A cfg h hr true).map _ _ fun a b hab => hab.1

theorem sim_move (h : Sim B₁ B₂ R) {s₁ : State F β₁} {s₂ : State F β₂} (hr : Rel R s₁ s₂)
    (axis : Axis → F) (feed : F) (aux : Nat) :
    Both (fun x y => Rel R x.1 y.1 ∧ x.2 = y.2)
      (machineMove A cfg B₁ s₁ axis feed aux) (machineMove A cfg B₂ s₂ axis feed aux) := by
  unfold machineMove
  rw [hr.buffer, hr.known]
  split
  · exact .none
  · cases s₂.buffer.getLast? with
    | none => exact .none
    | some prev =>
      dsimp only
      split
      · exact .some ⟨hr, rfl⟩
      · rw [hr.ready]
        generalize hu : updateMotionProfile A
          (s₂.buffer ++ [⟨newTarget A cfg prev.target axis feed aux, Profile.zero A⟩]) s₂.ready = u
        refine (sim_issue A cfg h (s₁ := { s₁ with buffer := u.1, ready := u.2, positionKnown := s₂.positionKnown })
          (s₂ := { s₂ with buffer := u.1, ready := u.2 })
          ⟨hr.backend, rfl, rfl, hr.lookahead, hr.halted, rfl⟩ false).map _ _ ?_
        rintro ⟨a, r⟩ ⟨b, r'⟩ ⟨hab, e⟩
        dsimp only at hab e
        subst e
        exact ⟨⟨hab.backend, hab.buffer, hab.ready, hab.lookahead, by rw [hab.halted], hab.known⟩, rfl⟩

theorem sim_external (h : Sim B₁ B₂ R) {s₁ : State F β₁} {s₂ : State F β₂} (hr : Rel R s₁ s₂)
    (axis : Axis) (pos : F) :
    Both (Rel R) (setExternalPosition A cfg B₁ s₁ axis pos)
      (setExternalPosition A cfg B₂ s₂ axis pos) := by
  unfold setExternalPosition
  rw [hr.buffer, hr.halted]
  have fold : ∀ (l : List Motor) (p : Int) b₁ b₂, R b₁ b₂ →
      R (l.foldl (fun b m => if cfg.motorMap axis m then B₁.setExternalPosition b m p else b) b₁)
        (l.foldl (fun b m => if cfg.motorMap axis m then B₂.setExternalPosition b m p else b) b₂) := by
    intro l p
    induction l with
    | nil => intro b₁ b₂ hb; exact hb
    | cons m l ih =>
      intro b₁ b₂ hb
      simp only [List.foldl_cons]
      apply ih
      split
      · exact h.external _ _ _ _ hb
      · exact hb
  cases s₂.buffer with
  | nil => exact .none
  | cons seg rest =>
    cases rest with
    | cons _ _ => exact .none
    | nil =>
      dsimp only
      split
      · exact .some ⟨fold _ _ _ _ hr.backend, rfl, hr.ready, hr.lookahead, rfl, rfl⟩
      · exact .none

theorem sim_direct (h : Sim B₁ B₂ R) {s₁ : State F β₁} {s₂ : State F β₂} (hr : Rel R s₁ s₂)
    (axis : Axis) (d v0 v1 : F) (aux : Nat) :
    Both (fun x y => Rel R x.1 y.1 ∧ x.2 = y.2) (directDrive A cfg B₁ s₁ axis d v0 v1 aux)
      (directDrive A cfg B₂ s₂ axis d v0 v1 aux) := by
  unfold directDrive
  refine (sim_halt A cfg h hr).map _ _ fun a b hab => ⟨⟨?_, hab.buffer, hab.ready, hab.lookahead,
    hab.halted, rfl⟩, rfl⟩
  exact h.wait _ _ (h.enqueue _ _ _ hab.backend).1

theorem sim_step (h : Sim B₁ B₂ R) {s₁ : State F β₁} {s₂ : State F β₂} (hr : Rel R s₁ s₂)
    (op : Op F) : Both (Rel R) (step A cfg B₁ s₁ op) (step A cfg B₂ s₂ op) := by
  cases op with
  | move axis feed aux => exact (sim_move A cfg h hr axis feed aux).map _ _ fun _ _ h => h.1
  | halt => exact sim_halt A cfg h hr
  | lookahead n =>
    refine .some ?_
    unfold setLookahead
    split
    · exact hr
    · exact ⟨hr.backend, hr.buffer, hr.ready, rfl, hr.halted, hr.known⟩
  | external a p => exact sim_external A cfg h hr a p
  | direct a d v0 v1 aux => exact (sim_direct A cfg h hr a d v0 v1 aux).map _ _ fun _ _ h => h.1

/-- The same calls to planners with backends that answer alike. -/
theorem sim_run (h : Sim B₁ B₂ R) (ops : List (Op F)) : ∀ (s₁ : State F β₁) (s₂ : State F β₂),
    Rel R s₁ s₂ → Both (Rel R) (run A cfg B₁ s₁ ops) (run A cfg B₂ s₂ ops) := by
  induction ops with
  | nil => intro s₁ s₂ hr; exact .some hr
  | cons op ops ih =>
    intro s₁ s₂ hr
    simp only [run, List.foldlM_cons, Option.bind_eq_bind]
    have := sim_step A cfg h hr op
    cases e₁ : step A cfg B₁ s₁ op <;> cases e₂ : step A cfg B₂ s₂ op <;> rw [e₁, e₂] at this <;>
      cases this
    · exact .none
    · rename_i h'; exact ih _ _ h'

end BeagleG.EndToEnd
