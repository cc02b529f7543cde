import Mathlib.Tactic.Linarith
import Mathlib.Tactic.Ring
import Mathlib.Tactic.NormNum
import Verif.Sim.Audio
import Verif.StepGen.SimProps

/-!
# The sound of the motors (C88)
-/
namespace BeagleG.Sim

open StepGen
open Idiv (reg)
open Text (Byte)

/-! ## What has to be heard -/

/-- The passes of the firmware with their ends; a pass takes the time of an update and of the delay behind it. -/
def history (t : ℚ) : List Pass → List Nat → List Event
  | p :: ps, d :: ds =>
    ⟨p.pin, t + updateTime + waitTime d⟩ :: history (t + updateTime + waitTime d) ps ds
  | _, _ => []

/-- How long a segment takes: there is one more update than there are delays. -/
def duration (ds : List Nat) : ℚ := (ds.map fun d => updateTime + waitTime d).sum + updateTime

/-- The delays of a segment. -/
def delays (s : MotionSegment) : List Nat := ((simExec s fun _ => 0).map (·.1)).getD []

/-- The passes of all segments, one after the other. -/
def timeline : ℚ → List (Option MotionSegment) → List Event
  | _, [] => []
  | t, none :: ss => timeline t ss
  | t, some s :: ss => history t (exec s noEstop).1 (delays s) ++ timeline (t + duration (delays s)) ss

/-- What is heard at this time: the first pass that is not over. -/
def heardAt (es : List Event) (t : ℚ) : Option (Motor → Bool) :=
  (es.find? fun e => decide (t ≤ e.until_)).map (·.pins)

/-! ## `Enqueue` makes these calls -/

theorem audioLoop_full (fr : Motor → Nat) (dir : Motor → Bool) (L : Nat) :
    ∀ (r : Regs) (m : Motor → Nat) (steps : Motor → Int) (t : ℚ) (k status : Nat), r.loops = L →
      (∀ j < L, delayAfter r j ≠ 0) →
      ∃ ds st, simLoop fr dir (L + 1) r m steps = some (ds, st) ∧
        audioLoop fr (L + 1) r m t =
          some (history t (stepGen fr noEstop (L + 1) k r m status).1 ds, t + duration ds) := by
  induction L with
  | zero =>
    intro r m steps t k status hr _
    refine ⟨[], _, by rw [simLoop, simDelay_done r hr], ?_⟩
    rw [audioLoop, simDelay_done r hr]
    simp only [duration, List.map_nil, List.sum_nil, zero_add]
    congr 2
    cases (stepGen fr noEstop 1 k r m status).1 <;> rfl
  | succ L ih =>
    intro r m steps t k status hr hd
    obtain ⟨d, h1, -⟩ := simDelay_eq r (by omega)
    have hl : (calculateDelay r).1.loops = L := by
      rw [calculateDelay_loops r (by omega)]; omega
    have h0 : (calculateDelay r).2 ≠ 0 := hd 0 (by omega)
    obtain ⟨ds, st, h2, h3⟩ := ih (calculateDelay r).1 (fun i => reg (m i + fr i))
      (fun i => if !(m i).testBit 31 && (reg (m i + fr i)).testBit 31 then
        steps i + (if dir i then -1 else 1) else steps i) (t + updateTime + waitTime d) (k + 1) (status - 1) hl
      (fun j hj => hd (j + 1) (by omega))
    refine ⟨d :: ds, st, ?_, ?_⟩
    · rw [simLoop, h1]
      simp only [h2, Option.map_some]
    · rw [audioLoop, h1]
      simp only [h3, Option.map_some]
      have hstep : (stepGen fr noEstop (L + 1 + 1) k r m status).1 =
          ⟨fun i => reg (m i + fr i), status - 1, (calculateDelay r).2⟩ ::
            (stepGen fr noEstop (L + 1) (k + 1) (calculateDelay r).1 (fun i => reg (m i + fr i)) (status - 1)).1 := by
        conv_lhs => rw [stepGen]
        simp only [noEstop, Bool.false_eq_true, if_false, if_neg h0]
      rw [hstep]
      have e : t + updateTime + waitTime d + duration ds = t + duration (d :: ds) := by
        simp only [duration, List.map_cons, List.sum_cons]
        ring
      rw [e]
      rfl

theorem enqueue_calls (s : MotionSegment) (hn : NoEarlyStop s) (t : ℚ) :
    audioLoop s.fractions (s.loops + 1) (Regs.simLoad s) (fun _ => 0) t =
      some (history t (exec s noEstop).1 (delays s), t + duration (delays s)) := by
  obtain ⟨ds, st, h1, h2⟩ := audioLoop_full s.fractions s.dirPin s.loops (Regs.load s) (fun _ => 0) (fun _ => 0) t 0
    s.loops (load_loops s) hn
  have e : delays s = ds := by
    unfold delays simExec
    have : Regs.simLoad s = Regs.load s := rfl
    rw [this, h1]
    rfl
  rw [e]
  exact h2

/-! ## `Update` -/

theorem fill_eq (pins : Motor → Bool) : ∀ (n : Nat) (w : Writer),
    (fill pins n w).bytes = w.bytes ++ (List.replicate n pins).flatMap sample ∧
    (fill pins n w).current = w.current + n := by
  intro n
  induction n with
  | zero => intro w; simp [fill]
  | succ n ih =>
    intro w
    rw [fill]
    obtain ⟨h1, h2⟩ := ih { bytes := w.bytes ++ sample pins, current := w.current + 1 }
    refine ⟨?_, by rw [h2]; show w.current + 1 + n = _; omega⟩
    rw [h1, List.replicate_succ, List.flatMap_cons, List.append_assoc]

/-- Is the sample before the end of this event? -/
def Reaches (e : Event) (k : Nat) : Prop := ((k : ℚ) + 1) / sampleRate ≤ e.until_

instance (e : Event) (k : Nat) : Decidable (Reaches e k) := by unfold Reaches; infer_instance

theorem reaches_iff (e : Event) (k : Nat) : Reaches e k ↔ k < (e.until_ * sampleRate).floor.toNat := by
  have hpos : (0 : ℚ) < sampleRate := by norm_num [sampleRate]
  unfold Reaches
  rw [div_le_iff₀ hpos, Int.lt_toNat, ← Int.add_one_le_iff, Rat.le_floor_iff]
  push_cast
  rfl

theorem heardAt_cons_pos {e : Event} {es : List Event} {k : Nat} (h : Reaches e k) :
    heardAt (e :: es) (((k : ℚ) + 1) / sampleRate) = some e.pins := by
  unfold heardAt
  rw [List.find?_cons_of_pos (by simpa [Reaches] using h)]
  rfl

theorem heardAt_cons_neg {e : Event} {es : List Event} {k : Nat} (h : ¬ Reaches e k) :
    heardAt (e :: es) (((k : ℚ) + 1) / sampleRate) = heardAt es (((k : ℚ) + 1) / sampleRate) := by
  unfold heardAt
  rw [List.find?_cons_of_neg (by simpa [Reaches] using h)]

/-- The time of the event fits in the counter. -/
def Fits (e : Event) : Prop := e.until_ * sampleRate < 2 ^ 32

theorem fits_target {e : Event} (h : Fits e) : (e.until_ * sampleRate).floor.toNat < 2 ^ 32 := by
  rw [Int.toNat_lt_of_ne_zero (by norm_num)]
  rw [Rat.floor_lt_iff]
  have h : e.until_ * sampleRate < 2 ^ 32 := h
  push_cast
  exact h

/-- The samples written by some calls of `Update`. -/
theorem updates_spec : ∀ (es : List Event) (w : Writer), (∀ e ∈ es, Fits e) →
    ∃ (w' : Writer) (xs : List (Motor → Bool)), updates es w = some w' ∧ w'.bytes = w.bytes ++ xs.flatMap sample ∧
      w'.current = w.current + xs.length ∧
      (∀ k, w.current ≤ k → (k < w'.current ↔ ∃ e ∈ es, Reaches e k)) ∧
      (∀ j (h : j < xs.length), heardAt es ((((w.current + j : Nat) : ℚ) + 1) / sampleRate) = some xs[j]) := by
  intro es
  induction es with
  | nil =>
    intro w _
    exact ⟨w, [], rfl, by simp, by simp, fun k hk => by simp; omega, fun j h => by simp at h⟩
  | cons e es ih =>
    intro w hf
    have ht := fits_target (hf e List.mem_cons_self)
    let n := (e.until_ * sampleRate).floor.toNat - w.current
    obtain ⟨f1, f2⟩ := fill_eq e.pins n w
    obtain ⟨w', xs, h1, h2, h3, h4, h5⟩ := ih (fill e.pins n w) fun d hd => hf d (List.mem_cons_of_mem _ hd)
    have hc : ∀ k, w.current ≤ k → (k < w.current + n ↔ Reaches e k) := by
      intro k hk
      rw [reaches_iff]
      omega
    refine ⟨w', List.replicate n e.pins ++ xs, ?_, ?_, ?_, ?_, ?_⟩
    · simp only [updates, Writer.update, if_pos ht, Option.bind_some]
      exact h1
    · rw [h2, f1, List.flatMap_append, List.append_assoc]
    · rw [h3, f2, List.length_append, List.length_replicate]; omega
    · intro k hk
      by_cases hr : Reaches e k
      · have := (hc k hk).2 hr
        exact ⟨fun _ => ⟨e, List.mem_cons_self, hr⟩, fun _ => by omega⟩
      · have hge : (fill e.pins n w).current ≤ k := by
          rw [f2]
          by_contra hlt
          exact hr ((hc k hk).1 (by omega))
        rw [h4 k hge]
        constructor
        · rintro ⟨d, hd, hdk⟩
          exact ⟨d, List.mem_cons_of_mem _ hd, hdk⟩
        · rintro ⟨d, hd, hdk⟩
          rcases List.mem_cons.1 hd with rfl | hd
          · exact absurd hdk hr
          · exact ⟨d, hd, hdk⟩
    · intro j hj
      by_cases hn : j < n
      · have hr : Reaches e (w.current + j) := (hc _ (by omega)).1 (by omega)
        rw [heardAt_cons_pos hr, List.getElem_append_left (by simpa using hn)]
        simp
      · have hr : ¬ Reaches e (w.current + j) := fun h => hn (by have := (hc _ (by omega)).2 h; omega)
        rw [heardAt_cons_neg hr]
        rw [List.length_append, List.length_replicate] at hj
        have := h5 (j - n) (by omega)
        rw [f2] at this
        have e1 : w.current + n + (j - n) = w.current + j := by omega
        rw [e1] at this
        rw [this, List.getElem_append_right (by simp; omega)]
        simp

theorem updates_append : ∀ (as bs : List Event) (w : Writer),
    updates (as ++ bs) w = (updates as w).bind (updates bs) := by
  intro as
  induction as with
  | nil => intro bs w; rfl
  | cons a as ih =>
    intro bs w
    simp only [List.cons_append, updates]
    cases w.update a.pins a.until_ with
    | none => rfl
    | some w => simp only [Option.bind_some]; exact ih bs w

/-! ## All segments -/

/-- The run makes the calls of the timeline. -/
theorem record_updates : ∀ (ss : List (Option MotionSegment)) (a : Audio),
    (∀ s, some s ∈ ss → NoEarlyStop s) →
    ((Audio.record ss a).map (·.writer)) = updates (timeline a.time ss) a.writer := by
  intro ss
  induction ss with
  | nil => intro a _; rfl
  | cons s ss ih =>
    intro a hn
    have hn' : ∀ s, some s ∈ ss → NoEarlyStop s := fun s hs => hn s (List.mem_cons_of_mem _ hs)
    cases s with
    | none => exact ih a hn'
    | some s =>
      simp only [Audio.record, Audio.enqueue, enqueue_calls s (hn s List.mem_cons_self), Option.bind_some, timeline]
      rw [updates_append]
      cases updates (history a.time (exec s noEstop).1 (delays s)) a.writer with
      | none => rfl
      | some w =>
        simp only [Option.map_some, Option.bind_some]
        exact ih _ hn'

/-- The header that a file with so many samples of two channels, 16 bits and 44100 Hz has to have. -/
def riff (n : Nat) : List Byte :=
  [82, 73, 70, 70] ++ le32 (36 + 4 * n) ++ [87, 65, 86, 69] ++              -- RIFF, length, WAVE
  [102, 109, 116, 32] ++ le32 16 ++ [1, 0] ++ [2, 0] ++                       -- fmt, PCM, channels
  le32 44100 ++ le32 (44100 * 2 * 2) ++ [2 * 2, 0] ++ [16, 0] ++              -- rate, bytes per second, per sample, bits
  [100, 97, 116, 97] ++ le32 (4 * n)                                          -- data

/-- **C88.** The file has a header with the right lengths, and the samples that have to be heard: sample `k` is that
of the pass in progress at the end of the sample, and there are as many as fit in the time. Segments must be such that
the firmware does not end them early, and the file be smaller than four gigabytes. -/
theorem C88_file_partial (ss : List (Option MotionSegment)) (hn : ∀ s, some s ∈ ss → NoEarlyStop s)
    (hf : ∀ e ∈ timeline 0 ss, e.until_ * sampleRate < 2 ^ 30 - 9) :
    ∃ (a : Audio) (xs : List (Motor → Bool)), Audio.record ss Audio.init = some a ∧
      a.writer.close true = riff xs.length ++ xs.flatMap sample ∧
      (∀ k, k < xs.length ↔ ∃ e ∈ timeline 0 ss, Reaches e k) ∧
      (∀ k (h : k < xs.length), heardAt (timeline 0 ss) (((k : ℚ) + 1) / sampleRate) = some xs[k]) := by
  have hfit : ∀ e ∈ timeline 0 ss, Fits e := fun e he => lt_trans (hf e he) (by norm_num)
  obtain ⟨w, xs, h1, h2, h3, h4, h5⟩ := updates_spec (timeline 0 ss) Writer.init hfit
  have hrec := record_updates ss Audio.init hn
  have h1' : (Audio.record ss Audio.init).map (·.writer) = some w := hrec.trans h1
  obtain ⟨a, ha, rfl⟩ := Option.map_eq_some_iff.1 h1'
  have hlen : a.writer.current = xs.length := by simpa [Writer.init] using h3
  have h4' : ∀ k, k < xs.length ↔ ∃ e ∈ timeline 0 ss, Reaches e k := by
    intro k
    rw [← hlen]
    exact h4 k (Nat.zero_le _)
  refine ⟨a, xs, ha, ?_, h4', ?_⟩
  · have hsmall : 4 * xs.length + 36 < 2 ^ 32 := by
      by_contra hbig
      obtain ⟨e, he, hr⟩ := (h4' (2 ^ 30 - 10)).1 (by omega)
      have := hf e he
      have hpos : (0 : ℚ) < sampleRate := by norm_num [sampleRate]
      unfold Reaches at hr
      rw [div_le_iff₀ hpos] at hr
      norm_num at hr this
      linarith
    have r1 : reg (4 * xs.length) = 4 * xs.length := Nat.mod_eq_of_lt (by omega)
    have r2 : reg (4 * xs.length + 36) = 36 + 4 * xs.length := by
      rw [Nat.add_comm]; exact Nat.mod_eq_of_lt (by omega)
    unfold Writer.close
    rw [hlen, h2]
    dsimp only
    rw [r1, r2]
    generalize xs.flatMap sample = data
    rfl
  · intro k hk
    have := h5 k hk
    have e : Writer.init.current + k = k := Nat.zero_add k
    rw [e] at this
    exact this

/-- The lengths in the header are those of what follows. -/
theorem C88_lengths (n : Nat) (xs : List (Motor → Bool)) (h : xs.length = n) :
    (riff n).length = 44 ∧ (riff n ++ xs.flatMap sample).length - 8 = 36 + 4 * n ∧
    (riff n ++ xs.flatMap sample).length - 44 = 4 * n := by
  have h44 : (riff n).length = 44 := rfl
  have hd : (xs.flatMap sample).length = 4 * xs.length := by
    clear h
    induction xs with
    | nil => rfl
    | cons x xs ih =>
      rw [List.flatMap_cons, List.length_append, ih]
      have : (sample x).length = 4 := by
        unfold sample level
        split <;> split <;> rfl
      rw [this, List.length_cons]; omega
  rw [List.length_append, h44, hd, h]
  refine ⟨rfl, ?_, ?_⟩ <;> omega

/-- **Not a file but a pipe**: the lengths stay unknown, and eight bytes are appended that are no samples. -/
theorem C88_pipe (w : Writer) : w.close false =
    w.bytes ++ le32 (reg (4 * w.current)) ++ le32 (reg (reg (4 * w.current) + 36)) := rfl

/-- **The time that is heard is that of the processor**: at 200 MHz a delay loop takes two cycles, and an update is assumed
to take 32 cycles. -/
theorem C88_cycles (ds : List Nat) : duration ds * 200000000 = (((ds.map fun d => 32 + 2 * d).sum + 32 : Nat) : ℚ) := by
  unfold duration
  induction ds with
  | nil => norm_num [updateTime]
  | cons d ds ih =>
    simp only [List.map_cons, List.sum_cons]
    push_cast at ih ⊢
    unfold waitTime updateTime at *
    linarith

/-- **More than six hours and three quarters**: 2³⁰ samples have the length zero. -/
theorem C88_long (data : List Byte) :
    ((({ bytes := wavHeader ++ data, current := 2 ^ 30 } : Writer).close true).drop 40).take 4 = le32 0 := by
  have e : reg (4 * 2 ^ 30) = 0 := by norm_num [reg]
  unfold Writer.close
  dsimp only
  rw [e]
  rfl

/-- Non-vacuity: a segment whose first motor makes a step in ten milliseconds is heard as a rectangle. -/
def beep : MotionSegment :=
  { directionBits := 0, loopsAccel := 0, loopsTravel := 2, loopsDecel := 0, aux := 0, accelSeriesIndex := 0
    hiresAccelCycles := 0, travelDelayCycles := 5000, fractions := fun i => if i = 0 then 2 ^ 31 - 1 else 0 }

example : NoEarlyStop beep ∧ (timeline 0 [some beep]).map (fun e => (e.pins 0, e.pins 1, e.until_)) =
    [(false, false, 5016 / 100000000), (true, false, 10032 / 100000000)] ∧
    ((Audio.record [some beep] Audio.init).map fun a => (a.writer.close true).drop 44) =
      some [0x80, 0xc1, 0x80, 0xc1, 0x80, 0xc1, 0x80, 0xc1, 0x80, 0x3e, 0x80, 0xc1, 0x80, 0x3e, 0x80, 0xc1] := by
  decide +kernel

end BeagleG.Sim
