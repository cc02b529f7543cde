import Verif.Machine.SyncProps
import Verif.Planner.Exact
import Mathlib.Tactic.FieldSimp
import Mathlib.Tactic.Linarith
/-!
# C78: probing reports where the probe is
-/
namespace BeagleG.Machine

open Planner (Axis Motor Arith Command Op Inv)
open Hardware

variable {F β σ : Type} {e : Env F β σ} {acc : Motor → β → Int}

theorem allowedHoming_true {s s' : State F β σ} (h : allowedHoming e s = some (true, s')) : s' = s := by
  unfold allowedHoming at h
  split at h
  · cases h; rfl
  · obtain ⟨_, s1, h1, h⟩ := bind_some.1 h
    cases h1
    split at h
    · cases h; rfl
    · obtain ⟨_, s2, _, h⟩ := bind_some.1 h
      cases h

theorem allowedEstop_true {s s' : State F β σ} (h : allowedEstop s = some (true, s')) : s' = s := by
  unfold allowedEstop inEstop at h
  obtain ⟨b, s1, h1, h⟩ := bind_some.1 h
  cases h1
  split at h
  · obtain ⟨_, s2, _, h⟩ := bind_some.1 h
    cases h
  · cases h; rfl

/-- Steps of one drive of probing. -/
def probeSteps (e : Env F β σ) (axis : Axis) (step : F) : Int := e.A.lround (e.A.mul step (e.plan.stepsPerMm axis))

/-- One drive from rest: exactly its steps are made by the motors of the axis, and the planner keeps its position. -/
theorem drive_steps (hq : Counts e.queue acc) {axis : Axis} {d v0 v1 : F} {s s' : State F β σ} {r : Int}
    (h : plannerDrive e axis d v0 v1 s = some (r, s')) (hh : s.planner.halted = true) :
    r = probeSteps e axis d ∧ s'.planner.halted = true ∧ s'.planner.buffer = s.planner.buffer ∧
      ∀ m, acc m s'.planner.backend.2 = acc m s.planner.backend.2 + if e.plan.motorMap axis m then r else 0 := by
  unfold plannerDrive Planner.directDrive Planner.bringPathToHalt at h
  rw [if_pos hh] at h
  cases h
  refine ⟨rfl, hh, rfl, fun m => ?_⟩
  show acc m (e.queue.waitQueueEmpty (e.queue.enqueue _ _).1).2 = _
  rw [hq.wait, hq.enqueue]

/-- What happened between the two states: the axis was driven `k` times by `step`, `total - from` steps in total, and
then the probe was read as touching, or the axis had moved more than `maxSteps`. -/
structure Probed (e : Env F β σ) (acc : Motor → β → Int) (axis : Axis) (step : F) (maxSteps start total : Int)
    (s s' : State F β σ) : Prop where
  drives : ∃ k : Nat, Drove e axis step k s.planner s'.planner ∧ total = start + k * probeSteps e axis step
  motors : ∀ m, acc m s'.planner.backend.2 =
    acc m s.planner.backend.2 + if e.plan.motorMap axis m then total - start else 0
  buffer : s'.planner.buffer = s.planner.buffer
  halted : s'.planner.halted = true
  keep : Keep e.cape s.hw s'.hw
  ends : (∃ last, s.tick ≤ last ∧ last + 1 = s'.tick ∧ e.read last s.hw.probeInput = true ∧ s'.out = s.out) ∨
    (maxSteps < (total.natAbs : Int) ∧ s'.out = s.out ++ [.maxProbe])
  bound : (start.natAbs : Int) ≤ maxSteps → (total.natAbs : Int) ≤ maxSteps + (probeSteps e axis step).natAbs

theorem Keep.probeInput {c : Cape} {h h' : Hw F} (k : Keep c h h') : h'.probeInput = h.probeInput := by
  rw [k.same]

theorem probeLoop_probed (hl : Lawful e.cape e.queue) (hc : Sane e.cape) (hq : Counts e.queue acc) {axis : Axis} {step v1 : F}
    {maxSteps : Int} : ∀ (fuel : Nat) (v0 : F) (start total : Int) (s s' : State F β σ),
    s.hw.initialized = true → e.cape.switchPin s.hw.probeInput ≠ 0 → s.planner.halted = true →
    probeLoop e axis step v1 maxSteps fuel v0 start s = some (total, s') →
    Probed e acc axis step maxSteps start total s s'
  | 0, _, _, _, _, _, _, _, _, h => by cases h
  | fuel + 1, v0, start, total, s, s', hi, hn, hh, h => by
    unfold probeLoop testProbe at h
    obtain ⟨b, s1, h1, h⟩ := bind_some.1 h
    obtain ⟨_, s0, h0, h1⟩ := bind_some.1 h1
    cases h0
    rw [testSwitch_read hi hn] at h1
    cases h1
    split at h
    · rename_i hb
      cases h
      refine ⟨⟨0, .zero _, by simp⟩, fun m => by simp, rfl, hh, .refl _, .inl ⟨s.tick, Nat.le_refl _, rfl, hb, rfl⟩, ?_⟩
      intro h; omega
    · obtain ⟨d, s3, h3, h⟩ := bind_some.1 h
      obtain ⟨g1, g2, g3, g4⟩ := drive_steps hq h3 hh
      obtain ⟨_, g5, _⟩ := drove_one h3
      have hk : Keep e.cape s.hw s3.hw := ((drive_rel (hl.respects hc) h3).2 : Keep e.cape _ _)
      have ht3 : s3.tick = s.tick + 1 := by rw [g5]
      have ho3 : s3.out = s.out := by rw [g5]
      split at h
      · rename_i hm
        obtain ⟨_, s4, h4, h⟩ := bind_some.1 h
        cases h4
        cases h
        refine ⟨⟨1, Drove.cons (s := { s with tick := s.tick + 1 }) (s' := s3) h3 (.zero _), by rw [g1]; simp⟩, fun m => ?_, g3, g2, hk, .inr ⟨hm, by
          show s3.out ++ _ = _; rw [ho3]⟩, ?_⟩
        · show acc m s3.planner.backend.2 = _
          rw [g4]
          simp
        · intro h
          rw [g1]
          omega
      · rename_i hm
        have i := probeLoop_probed hl hc hq fuel v1 (start + d) total s3 s' (hk.sameMap.initialized.trans hi)
          (by rw [hk.probeInput]; exact hn) g2 h
        obtain ⟨k, i1, i2⟩ := i.drives
        refine ⟨⟨k + 1, Drove.cons (s := { s with tick := s.tick + 1 }) h3 i1, ?_⟩, fun m => ?_, i.buffer.trans g3, i.halted, hk.trans i.keep, ?_, ?_⟩
        · rw [i2, g1]; push_cast; ring
        · rw [i.motors, g4]
          split
          · show acc m s.planner.backend.2 + d + (total - (start + d)) = acc m s.planner.backend.2 + (total - start)
            omega
          · show acc m s.planner.backend.2 + 0 + 0 = acc m s.planner.backend.2 + 0
            omega
        · rw [← ho3]
          rcases i.ends with ⟨last, j1, j2, j3, j4⟩ | j
          · rw [hk.probeInput] at j3
            exact .inl ⟨last, by omega, j2, j3, j4⟩
          · exact .inr j
        · intro _
          exact i.bound (by omega)

/-- The distance of one drive: 0.05 mm, away from the home position if this is at the lower end. -/
def probeStep (e : Env F β σ) (axis : Axis) : F :=
  e.A.mul (e.A.ofInt (if e.cfg.homingTrigger axis = .min then 1 else -1))
    (e.A.toFloat (e.A.div (e.A.ofInt 5) (e.A.ofInt 100)))

/-- The whole range of the axis, in steps. -/
def probeRange (e : Env F β σ) (axis : Axis) : Int :=
  e.A.toInt (e.A.abs (e.A.mul (e.cfg.moveRange axis) (e.plan.stepsPerMm axis)))

/-- **C78. Probing reports where the probe is**, if the motors have stopped before: the axis is driven in steps of
0.05 mm, by `total` steps altogether, until the probe is read as touching or the whole range is exceeded. The
reported position is the one before plus the distance made, and this is also the position the planner goes on with. -/
theorem C78_probe_partial (hl : Lawful e.cape e.queue) (hc : Sane e.cape) (hq : Counts e.queue acc)
    {s s' : State F β σ} {feed : F} {axis : Axis} {q : F} (h : probeAxis e feed axis s = some (some q, s'))
    (hs : Known e acc s) (hp : Arrived e acc s)
    (hw : ∀ a m, (s.hw.axisToDriver a).getLsbD m.val = e.plan.motorMap a m) {m : Motor} (hm : e.plan.motorMap axis m = true)
    (hz : e.A.eq (e.plan.stepsPerMm axis) e.A.zero = false)
    (hi : s.hw.initialized = true) (hn : e.cape.switchPin s.hw.probeInput ≠ 0) :
    axis = 2 ∧ ∃ u total, Probed e acc axis (probeStep e axis) (probeRange e axis) 0 total s u ∧
      q = e.A.add (e.A.div (e.A.ofInt (s.planner.position axis)) (e.plan.stepsPerMm axis))
        (e.A.div (e.A.ofInt total) (e.plan.stepsPerMm axis)) ∧
      (∀ a, s'.planner.position a = if a = axis then e.A.lround (e.A.mul q (e.plan.stepsPerMm axis)) else s.planner.position a) ∧
      acc m u.planner.backend.2 = s.planner.position axis + total ∧
      acc m s'.planner.backend.2 = e.A.lround (e.A.mul q (e.plan.stepsPerMm axis)) ∧ s'.out = u.out ∧ s'.tick = u.tick := by
  unfold probeAxis at h
  obtain ⟨b, s1, h1, h⟩ := bind_some.1 h
  split at h
  · cases h
  · rename_i hb
    simp only [Bool.not_eq_true', Bool.not_eq_false] at hb
    subst hb
    cases allowedHoming_true h1
    obtain ⟨b, s2, h2, h⟩ := bind_some.1 h
    split at h
    · cases h
    · rename_i hb
      simp only [Bool.not_eq_true', Bool.not_eq_false] at hb
      subst hb
      cases allowedEstop_true h2
      obtain ⟨_, s3, h3, h'⟩ := bind_some.1 h
      have e3 : s3 = s := by
        unfold halt Planner.bringPathToHalt at h3
        rw [if_pos hp.halted] at h3
        cases h3; rfl
      subst e3
      clear h
      obtain ⟨_, s4, h4, h⟩ := bind_some.1 h'
      cases h4
      split at h
      · obtain ⟨_, s5, _, h⟩ := bind_some.1 h
        cases h
      · rename_i hx
        obtain ⟨hx, _⟩ := not_not.1 hx
        refine ⟨hx, ?_⟩
        dsimp only at h
        obtain ⟨total, s5, h5, h⟩ := bind_some.1 h
        obtain ⟨_, s6, h6, h⟩ := bind_some.1 h
        cases h
        unfold moveToProbe at h5
        obtain ⟨_, s7, h7, h5⟩ := bind_some.1 h5
        cases h7
        rw [if_neg (by simp [hi])] at h5
        have k := probeLoop_probed hl hc hq _ _ _ _ _ _ hi hn hp.halted h5
        have hcur := C77_reported hs hp hw hm hz
        rw [hcur] at h6
        have kacc : acc m s5.planner.backend.2 = s3.planner.position axis + total := by
          rw [k.motors, if_pos hm, C77_at_rest hs hp.halted hm]; omega
        rw [hcur]
        unfold plannerExternal Planner.setExternalPosition at h6
        split at h6
        · rename_i seg hbuf
          rw [if_pos k.halted] at h6
          cases h6
          have hpos : ∀ a, s3.planner.position a = seg.target.positionSteps a := by
            intro a
            unfold Planner.State.position
            rw [← k.buffer, hbuf]; rfl
          refine ⟨s5, total, k, rfl, fun a => ?_, kacc, ?_, rfl, rfl⟩
          · rw [hpos a]
            rfl
          · exact foldl_external hq hm _ _
        · cases h6
where
  foldl_external {F β σ : Type} {e : Env F β σ} {acc : Motor → β → Int} (hq : Counts e.queue acc) {axis : Axis} {m : Motor}
      (hm : e.plan.motorMap axis m = true) (q : Int) (b : Hw F × β) :
      acc m ((List.finRange 8).foldl
        (fun b m => if e.plan.motorMap axis m then e.queue.setExternalPosition b m q else b) b).2 = q := by
    have key : ∀ (l : List Motor) (b : Hw F × β), m ∈ l ∨ acc m b.2 = q → acc m (l.foldl
        (fun b m => if e.plan.motorMap axis m then e.queue.setExternalPosition b m q else b) b).2 = q := by
      intro l
      induction l with
      | nil => intro b h; exact h.resolve_left (by simp)
      | cons k l ih =>
        intro b h
        rw [List.foldl_cons]
        apply ih
        by_cases hk : m = k
        · subst hk
          rw [if_pos hm]
          right; rw [hq.ext, if_pos rfl]
        · rcases h with h | h
          · exact .inl ((List.mem_cons.1 h).resolve_left hk)
          · right
            split
            · rw [hq.ext, if_neg hk]; exact h
            · exact h
    exact key _ _ (.inl (List.mem_finRange m))

/-- In exact arithmetic, declaring the position shifts nothing: what is declared is where the motors are. -/
theorem C78_exact_partial [Field F] [LinearOrder F] [IsStrictOrderedRing F] (ex : Planner.Exact e.A)
    (hl : Lawful e.cape e.queue) (hc : Sane e.cape) (hq : Counts e.queue acc)
    {s s' : State F β σ} {feed : F} {axis : Axis} {q : F} (h : probeAxis e feed axis s = some (some q, s'))
    (hs : Known e acc s) (hp : Arrived e acc s)
    (hw : ∀ a m, (s.hw.axisToDriver a).getLsbD m.val = e.plan.motorMap a m) {m : Motor} (hm : e.plan.motorMap axis m = true)
    (hz : e.plan.stepsPerMm axis ≠ 0) (h0 : e.A.zero = 0)
    (hi : s.hw.initialized = true) (hn : e.cape.switchPin s.hw.probeInput ≠ 0) :
    ∃ u total, Probed e acc axis (probeStep e axis) (probeRange e axis) 0 total s u ∧
      q * e.plan.stepsPerMm axis = ((s.planner.position axis + total : Int) : F) ∧
      s'.planner.position axis = s.planner.position axis + total ∧
      acc m s'.planner.backend.2 = acc m u.planner.backend.2 := by
  obtain ⟨_, u, total, h1, h2, h3, h4, h5, _⟩ := C78_probe_partial hl hc hq h hs hp hw hm
    (by rw [ex.eq, h0]; simpa using hz) hi hn
  have hqv : q * e.plan.stepsPerMm axis = ((s.planner.position axis + total : Int) : F) := by
    rw [h2, ex.add, ex.div, ex.div, ex.ofInt, ex.ofInt]
    field_simp
    push_cast
    ring
  have hr : e.A.lround (e.A.mul q (e.plan.stepsPerMm axis)) = s.planner.position axis + total := by
    rw [ex.mul, hqv]
    have := ex.near ((s.planner.position axis + total : Int) : F)
    have a1 : (e.A.lround ((s.planner.position axis + total : Int) : F) : F) < ((s.planner.position axis + total + 1 : Int) : F) := by
      push_cast at this ⊢; linarith [this.1]
    have a2 : ((s.planner.position axis + total - 1 : Int) : F) < (e.A.lround ((s.planner.position axis + total : Int) : F) : F) := by
      push_cast at this ⊢; linarith [this.2]
    have b1 := Int.cast_lt.1 a1
    have b2 := Int.cast_lt.1 a2
    omega
  refine ⟨u, total, h1, hqv, ?_, ?_⟩
  · rw [h3, if_pos rfl, hr]
  · rw [h5, hr, h4]

end BeagleG.Machine
