import Verif.Machine.Trace
/-!
# The planner reaches the motors only through its backend
-/
namespace BeagleG.Machine

open Planner (Axis Motor Arith Command)
open Hardware

section
variable {F β : Type} {B : Planner.Backend F β} {R : β → β → Prop}

/-- A reflexive and transitive relation that all operations of the backend respect. -/
structure Respects (B : Planner.Backend F β) (R : β → β → Prop) : Prop where
  refl : ∀ b, R b b
  trans : ∀ {a b c}, R a b → R b c → R a c
  enqueue : ∀ b cmd, R b (B.enqueue b cmd).1
  wait : ∀ b, R b (B.waitQueueEmpty b)
  ext : ∀ b m p, R b (B.setExternalPosition b m p)

variable (hR : Respects B R) (A : Arith F) (cfg : Planner.Config F)
include hR

theorem Respects.send (b : β) (seg : Planner.Segment F) (ret : Bool) :
    R b (Planner.sendSegment A cfg B b seg ret).1 := by
  have h0 : R b (if cfg.synchronous then B.waitQueueEmpty b else b) := by
    split
    · exact hR.wait b
    · exact hR.refl b
  unfold Planner.sendSegment
  dsimp only
  generalize (if cfg.synchronous then B.waitQueueEmpty b else b) = b0 at h0 ⊢
  have h1 : R b0 (if seg.planned.accel ≠ 0 then B.enqueue b0 (Planner.accelCommand A cfg seg)
      else (b0, ret)).1 := by
    split
    · exact hR.enqueue _ _
    · exact hR.refl _
  generalize (if seg.planned.accel ≠ 0 then B.enqueue b0 (Planner.accelCommand A cfg seg)
      else (b0, ret)) = r1 at h1 ⊢
  have h2 : R r1.1 (if (Planner.hasMove A cfg seg && r1.2) = true then
      B.enqueue r1.1 (Planner.moveCommand A cfg seg) else r1).1 := by
    split
    · exact hR.enqueue _ _
    · exact hR.refl _
  generalize (if (Planner.hasMove A cfg seg && r1.2) = true then
      B.enqueue r1.1 (Planner.moveCommand A cfg seg) else r1) = r2 at h2 ⊢
  have h3 := hR.trans h0 (hR.trans h1 h2)
  split
  · exact hR.trans h3 (hR.enqueue _ _)
  · exact h3

theorem Respects.issueLoop : ∀ n s ret (r : Planner.State F β × Bool),
    Planner.issueLoop A cfg B n s ret = some r → R s.backend r.1.backend
  | 0, s, ret, r, h => by cases h; exact hR.refl _
  | n + 1, s, ret, r, h => by
    unfold Planner.issueLoop at h
    split at h
    · cases h
    · dsimp only at h
      split at h
      · exact hR.trans (hR.send A cfg _ _ _) (Respects.issueLoop n _ _ r h)
      · exact hR.trans (hR.send A cfg _ _ _) (Respects.issueLoop n _ _ r h)

theorem Respects.halt {s s' : Planner.State F β} (h : Planner.bringPathToHalt A cfg B s = some s') :
    R s.backend s'.backend := by
  unfold Planner.bringPathToHalt at h
  split at h
  · cases h; exact hR.refl _
  · cases hi : Planner.issue A cfg B s true with
    | none => rw [hi] at h; cases h
    | some r =>
      rw [hi] at h; cases h
      exact hR.issueLoop A cfg _ _ _ r hi

theorem Respects.move {s : Planner.State F β} {axis feed aux r}
    (h : Planner.machineMove A cfg B s axis feed aux = some r) : R s.backend r.1.backend := by
  unfold Planner.machineMove at h
  split at h
  · cases h
  · split at h
    · cases h
    · dsimp only at h
      split at h
      · cases h; exact hR.refl _
      · generalize hs1 : Planner.State.mk s.backend _ _ s.lookahead s.halted s.positionKnown = s1 at h
        cases hi : Planner.issue A cfg B s1 false with
        | none => rw [hi] at h; cases h
        | some q =>
          rw [hi] at h; cases h
          have := hR.issueLoop A cfg _ _ _ q hi
          rw [← hs1] at this
          exact this

theorem Respects.external {s s' : Planner.State F β} {axis pos}
    (h : Planner.setExternalPosition A cfg B s axis pos = some s') : R s.backend s'.backend := by
  have hf : ∀ (l : List Motor) p b, R b (l.foldl
      (fun b m => if cfg.motorMap axis m then B.setExternalPosition b m p else b) b) := by
    intro l p
    induction l with
    | nil => intro b; exact hR.refl b
    | cons m l ih =>
      intro b
      rw [List.foldl_cons]
      refine hR.trans ?_ (ih _)
      split
      · exact hR.ext _ _ _
      · exact hR.refl _
  unfold Planner.setExternalPosition at h
  split at h
  · split at h
    · cases h; exact hf _ _ _
    · cases h
  · cases h

theorem Respects.drive {s : Planner.State F β} {axis d v0 v1 aux r}
    (h : Planner.directDrive A cfg B s axis d v0 v1 aux = some r) : R s.backend r.1.backend := by
  unfold Planner.directDrive at h
  cases hb : Planner.bringPathToHalt A cfg B s with
  | none => rw [hb] at h; cases h
  | some s1 =>
    rw [hb] at h; cases h
    exact hR.trans (hR.halt A cfg hb) (hR.trans (hR.enqueue _ _) (hR.wait _))

end

/-! ### The steps of the machine control that go through the planner -/

section
variable {F β σ : Type} {e : Env F β σ}

/-- Everything but the planner. -/
structure SameButPlanner (s s' : State F β σ) : Prop where
  spindle : s'.spindle = s.spindle
  tick : s'.tick = s.tick
  out : s'.out = s.out
  feedrate : s'.feedrate = s.feedrate
  progFactor : s'.progFactor = s.progFactor
  nextMotor : s'.nextMotor = s.nextMotor
  nextFan : s'.nextFan = s.nextFan
  pauseEnabled : s'.pauseEnabled = s.pauseEnabled
  homing : s'.homing = s.homing

variable {R : Hw F × β → Hw F × β → Prop} {s s' : State F β σ}

theorem halt_rel (hR : Respects e.backend R) {r : Unit} (h : halt e s = some (r, s')) :
    SameButPlanner s s' ∧ R s.planner.backend s'.planner.backend := by
  unfold halt at h
  cases hb : Planner.bringPathToHalt e.A e.plan e.backend s.planner with
  | none => rw [hb] at h; cases h
  | some p => rw [hb] at h; cases h; exact ⟨⟨rfl, rfl, rfl, rfl, rfl, rfl, rfl, rfl, rfl⟩, hR.halt _ _ hb⟩

theorem move_rel (hR : Respects e.backend R) {pos feed r} (h : plannerEnqueue e pos feed s = some (r, s')) :
    SameButPlanner s s' ∧ R s.planner.backend s'.planner.backend := by
  unfold plannerEnqueue at h
  cases hb : Planner.machineMove e.A e.plan e.backend s.planner pos feed s.hw.auxBits.toNat with
  | none => rw [hb] at h; cases h
  | some p => rw [hb] at h; cases h; exact ⟨⟨rfl, rfl, rfl, rfl, rfl, rfl, rfl, rfl, rfl⟩, hR.move _ _ hb⟩

theorem drive_rel (hR : Respects e.backend R) {a d v0 v1 r}
    (h : plannerDrive e a d v0 v1 s = some (r, s')) :
    SameButPlanner s s' ∧ R s.planner.backend s'.planner.backend := by
  unfold plannerDrive at h
  cases hb : Planner.directDrive e.A e.plan e.backend s.planner a d v0 v1 s.hw.auxBits.toNat with
  | none => rw [hb] at h; cases h
  | some p => rw [hb] at h; cases h; exact ⟨⟨rfl, rfl, rfl, rfl, rfl, rfl, rfl, rfl, rfl⟩, hR.drive _ _ hb⟩

theorem external_rel (hR : Respects e.backend R) {a pos r}
    (h : plannerExternal e a pos s = some (r, s')) :
    SameButPlanner s s' ∧ R s.planner.backend s'.planner.backend := by
  unfold plannerExternal at h
  cases hb : Planner.setExternalPosition e.A e.plan e.backend s.planner a pos with
  | none => rw [hb] at h; cases h
  | some p =>
    rw [hb] at h; cases h; exact ⟨⟨rfl, rfl, rfl, rfl, rfl, rfl, rfl, rfl, rfl⟩, hR.external _ _ hb⟩

/-- Every backend respects the relation that is always true. -/
theorem respects_true (B : Planner.Backend F (Hw F × β)) : Respects B (fun _ _ => True) :=
  ⟨fun _ => trivial, fun _ _ => trivial, fun _ _ => trivial, fun _ => trivial, fun _ _ _ => trivial⟩

end
end BeagleG.Machine
