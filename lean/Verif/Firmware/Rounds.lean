import Verif.Firmware.Round
/-!
# What a round of the firmware does, in terms of the model of the step generation
-/
namespace BeagleG.Firmware
open StepGen (Motor sub32 Regs MotionSegment Outcome)

variable {env : Env} {c : Cape} {prog : List (Instr Nat)}

/-- What happens outside, in order, without the times and without the reading of inputs. -/
def seen (log : List (Nat × Ev)) : List Ev :=
  log.filterMap fun e => match e.2 with
    | .load .bus _ _ => none
    | e => some e

theorem seen_append (a b : List (Nat × Ev)) : seen (a ++ b) = seen a ++ seen b := List.filterMap_append

/-- A pin is set to a level: its bit, and only that, is written to one of the two registers of its bank. -/
def pinWrite (x : Nat × Bool) : List Ev :=
  if unmapped x.1 then []
  else [.store .bus (((x.1 &&& 0xfffff000) + if x.2 then gpioSet else gpioClear) % 2 ^ 32) (bytesOf 4 (2 ^ (x.1 &&& 0x1f)))]

theorem seen_outs (l : List (Nat × Bool)) : ∀ t n, seen (outs env l t n).log = l.flatMap pinWrite := by
  induction l with
  | nil => intro t n; rfl
  | cons x l ih =>
    intro t n
    obtain ⟨p, b⟩ := x
    simp only [outs, Done.bind, seen_append, ih, List.flatMap_cons]
    congr 1
    unfold gpioOut pinWrite
    simp only
    split <;> rfl

theorem seen_estop (c : Cape) (env : Env) (t n : Nat) : seen (estopDone c env t n).1.log = [] := by
  unfold estopDone
  split
  · rfl
  · split
    · rfl
    · simp only
      split
      · rfl
      · split <;> rfl

/-- Status word. -/
def statusWrite (w : Nat) : Ev := .store .dram 0 (bytesOf 4 w)

/-- What a pass of the model seen; `base` is the part of the status word that is not the loop counter. After the last
pass there is no status word. -/
def passWrites (c : Cape) (base : Nat) (p : StepGen.Pass) : List Ev :=
  (stepPins c p.mstate).flatMap pinWrite ++ if p.delay = 0 then [] else [statusWrite (base + p.status)]

theorem stepGen_congr (fr : Motor → Nat) : ∀ (fuel k : Nat) (e e' : Nat → Bool) (r : Regs) (m : Motor → Nat) (s : Nat),
    (∀ j, k ≤ j → e j = e' j) → StepGen.stepGen fr e fuel k r m s = StepGen.stepGen fr e' fuel k r m s := by
  intro fuel
  induction fuel with
  | zero => intros; rfl
  | succ fuel ih =>
    intro k e e' r m s h
    unfold StepGen.stepGen
    simp only
    rw [h k (Nat.le_refl k), ih (k + 1) e e' _ _ _ (fun j hj => h j (by omega))]

/-- Loops that were not performed because a computed delay happened to be 0. -/
def unspent (loops : Nat) (x : List StepGen.Pass × Outcome) : Nat := if x.2 = .aborted then 0 else loops + 1 - x.1.length

/-- What a pass does that is not the last one. -/
def againDone (c : Cape) (env : Env) (fr : Motor → Nat) (g : Regs) (m : Motor → Nat) (st t n : Nat) : Done :=
  ((((((estopDone c env (t + 2) n).1.bind (Done.wait 10)).bind (outs env (stepPins c (advance fr m)))).bind (Done.wait 1)).bind
    (Done.wait (calcCycles g + 1))).bind (statusDone env (sub32 st 1))).bind
      (Done.wait (2 * StepGen.waitRounds (StepGen.calculateDelay g).2 + 1))

theorem pass_again (c : Cape) (env : Env) (fr : Motor → Nat) (g : Regs) (m : Motor → Nat) (st t n : Nat)
    (he : (estopDone c env (t + 2) n).2 = false) (hd : (StepGen.calculateDelay g).2 ≠ 0) :
    pass c env fr g m st t n = (againDone c env fr g m st t n, .again (StepGen.calculateDelay g).1 (advance fr m) (sub32 st 1)) := by
  unfold pass againDone
  simp only [he, hd, Bool.false_eq_true, if_false]

theorem seen_again (c : Cape) (env : Env) (fr : Motor → Nat) (g : Regs) (m : Motor → Nat) (st t n : Nat) :
    seen (againDone c env fr g m st t n).log = (stepPins c (advance fr m)).flatMap pinWrite ++ [statusWrite (sub32 st 1)] := by
  simp only [againDone, Done.bind, Done.wait, seen_append, seen_estop, seen_outs, List.nil_append, List.append_nil, statusDone]
  rfl

theorem passes_seen (c : Cape) (env : Env) (fr : Motor → Nat) (hi lo : Nat) (hhi : hi < 256) :
    ∀ (fuel k : Nat) (g : Regs) (m : Motor → Nat) (t n : Nat), g.loops < fuel → lo + g.loops < 2 ^ 24 →
    ∃ estop : Nat → Bool, (c.checksEstop = false → ∀ j, estop j = false) ∧
      let x := passes c env fr fuel g m (hi * 2 ^ 24 + lo + g.loops) t n
      let y := StepGen.stepGen fr estop fuel k g m g.loops
      seen x.1.log = y.1.flatMap (passWrites c (hi * 2 ^ 24 + lo)) ++ (if y.2 = .aborted then [statusWrite (hi * 2 ^ 24)] else []) ∧
      x.2.1 = decide (y.2 = .aborted) ∧ y.2 ≠ .stuck ∧
      x.2.2 = (if y.2 = .aborted then hi * 2 ^ 24 else hi * 2 ^ 24 + lo + unspent g.loops y) ∧ y.1.length ≤ g.loops + 1 := by
  intro fuel
  induction fuel with
  | zero => intro k g m t n h; omega
  | succ fuel ih =>
    intro k g m t n hf hlo
    cases he : (estopDone c env (t + 2) n).2
    · by_cases hd : (StepGen.calculateDelay g).2 = 0
      · refine ⟨fun _ => false, fun _ _ => rfl, ?_⟩
        simp only [passes, StepGen.stepGen, pass, he, hd, Bool.false_eq_true, if_false, if_true, List.flatMap_cons, List.flatMap_nil,
          List.append_nil, reduceCtorEq, decide_false, Done.bind, Done.wait, seen_append, seen_estop, seen_outs, List.nil_append, unspent,
          List.length_singleton, Nat.add_sub_cancel, ne_eq, not_false_eq_true, true_and, passWrites]
        refine ⟨rfl, ?_⟩
        omega
      · have hg := loops_dec g hd
        obtain ⟨e, h0, h1, h2, h3, h4, h5⟩ := ih (k + 1) (StepGen.calculateDelay g).1 (advance fr m)
          (againDone c env fr g m (hi * 2 ^ 24 + lo + g.loops) t n).t
          (againDone c env fr g m (hi * 2 ^ 24 + lo + g.loops) t n).n (by omega) (by omega)
        have hst : sub32 (hi * 2 ^ 24 + lo + g.loops) 1 = hi * 2 ^ 24 + lo + (StepGen.calculateDelay g).1.loops := by
          simp only [sub32, Idiv.reg]
          omega
        have hcong : StepGen.stepGen fr (fun j => if j ≤ k then false else e j) fuel (k + 1) (StepGen.calculateDelay g).1 (advance fr m)
            (StepGen.calculateDelay g).1.loops = StepGen.stepGen fr e fuel (k + 1) (StepGen.calculateDelay g).1 (advance fr m)
            (StepGen.calculateDelay g).1.loops := stepGen_congr fr _ _ _ _ _ _ _ fun j hj => if_neg (by omega)
        refine ⟨fun j => if j ≤ k then false else e j, fun hc j => by simp only [h0 hc j, ite_self], ?_⟩
        have hx : passes c env fr (fuel + 1) g m (hi * 2 ^ 24 + lo + g.loops) t n =
            ((againDone c env fr g m (hi * 2 ^ 24 + lo + g.loops) t n).bind fun t n => (passes c env fr fuel (StepGen.calculateDelay g).1 (advance fr m)
              (hi * 2 ^ 24 + lo + (StepGen.calculateDelay g).1.loops) t n).1,
             (passes c env fr fuel (StepGen.calculateDelay g).1 (advance fr m) (hi * 2 ^ 24 + lo + (StepGen.calculateDelay g).1.loops)
              (againDone c env fr g m (hi * 2 ^ 24 + lo + g.loops) t n).t (againDone c env fr g m (hi * 2 ^ 24 + lo + g.loops) t n).n).2) := by
          rw [passes, pass_again c env fr g m _ t n he hd, hst]
        have hy : StepGen.stepGen fr (fun j => if j ≤ k then false else e j) (fuel + 1) k g m g.loops =
            (⟨advance fr m, (StepGen.calculateDelay g).1.loops, (StepGen.calculateDelay g).2⟩ ::
              (StepGen.stepGen fr e fuel (k + 1) (StepGen.calculateDelay g).1 (advance fr m) (StepGen.calculateDelay g).1.loops).1,
              (StepGen.stepGen fr e fuel (k + 1) (StepGen.calculateDelay g).1 (advance fr m) (StepGen.calculateDelay g).1.loops).2) := by
          rw [StepGen.stepGen]
          rw [if_neg (by simp)]
          simp only [hd, if_false]
          rw [show g.loops - 1 = (StepGen.calculateDelay g).1.loops by omega]
          rw [show (fun i => Idiv.reg (m i + fr i)) = advance fr m from rfl, hcong]
        rw [hy]
        generalize StepGen.stepGen fr e fuel (k + 1) (StepGen.calculateDelay g).1 (advance fr m) (StepGen.calculateDelay g).1.loops = y at *
        rw [hx]
        simp only
        refine ⟨?_, h2, h3, ?_, ?_⟩
        · rw [Done.bind, seen_append, h1]
          rw [seen_again, hst]
          simp only [List.flatMap_cons, passWrites, if_neg hd, List.append_assoc]
        · rw [h4]
          unfold unspent
          split
          · rfl
          · simp only [List.length_cons]
            omega
        · simp only [List.length_cons]
          omega
    · refine ⟨fun _ => true, ?_, ?_⟩
      · intro hc
        unfold estopDone at he
        simp [hc] at he
      · simp only [passes, StepGen.stepGen, pass, he, if_true, List.flatMap_nil, List.nil_append, decide_true, ne_eq, reduceCtorEq,
          not_false_eq_true, true_and, List.length_nil, Nat.zero_le, and_true]
        have hhi' : (hi * 2 ^ 24 + lo + g.loops) / 2 ^ 24 * 2 ^ 24 = hi * 2 ^ 24 := by omega
        rw [hhi']
        refine ⟨?_, rfl⟩
        simp only [Done.bind, Done.wait, seen_append, seen_estop, statusDone, List.nil_append, List.append_nil]
        rfl

/-! ### Rounds -/

/-- A round: the bytes read, and for a segment what the emergency stop shows before each pass. -/
inductive Act where
  | poll (b0 b1 : Nat)
  | exit (b0 b1 : Nat)
  | run (b0 b1 : Nat) (bytes : List Nat) (estop : Nat → Bool)

/-- The state byte decides. -/
def Act.Ok (c : Cape) : Act → Prop
  | .poll b0 _ => b0 = stateEmpty ∨ b0 = stateAbort
  | .exit b0 _ => b0 = stateExit
  | .run b0 _ bytes estop => b0 ≠ stateEmpty ∧ b0 ≠ stateAbort ∧ b0 ≠ stateExit ∧ bytes.length = paramSize ∧
      (c.checksEstop = false → ∀ j, estop j = false)

/-- Where element `i` of the queue is. -/
def slotAddr (i : Nat) : Nat := queueOffset + elementSize * i

/-- The segment that was read. -/
def actSegment (b1 : Nat) (bytes : List Nat) : MotionSegment := EndToEnd.firmwareLoad (b1 :: bytes)

/-- What a round is to do at element `i`; `lo` is what is left in the lower bytes of the status word. -/
def actSeen (c : Cape) (i lo : Nat) : Act → List Ev
  | .poll b0 b1 => [.load .dram (slotAddr i) [b0, b1]]
  | .exit b0 b1 => [.load .dram (slotAddr i) [b0, b1], .store .dram (slotAddr i) [stateEmpty], .event 35]
  | .run b0 b1 bytes estop =>
    let s := actSegment b1 bytes
    let x := StepGen.exec s estop
    [.load .dram (slotAddr i) [b0, b1]] ++ (dirPins c s.directionBits).flatMap pinWrite ++
    [.load .dram (slotAddr i + headerSize) bytes] ++ (auxPins c s.aux).flatMap pinWrite ++
    [statusWrite (i * 2 ^ 24 + lo + s.loops)] ++
    x.1.flatMap (passWrites c (i * 2 ^ 24 + lo)) ++
    (if x.2 = .aborted then [statusWrite (i * 2 ^ 24), .store .dram (slotAddr i) [stateAbort], .event 35]
     else [.store .dram (slotAddr i) [stateEmpty], .event 35])

/-- The element that is next, and what is left in the status word. -/
def actNext (i lo : Nat) : Act → Option (Nat × Nat)
  | .poll .. => some (i, lo)
  | .exit .. => none
  | .run _ b1 bytes estop =>
    if i + 1 < queueLen then
      some (i + 1, if (StepGen.exec (actSegment b1 bytes) estop).2 = .aborted then 0
        else lo + unspent (actSegment b1 bytes).loops (StepGen.exec (actSegment b1 bytes) estop))
    else some (0, 0)

/-- Largest number of loops of a segment. -/
def maxLoops : Nat := 3 * 65535

theorem segmentAt_eq (env : Env) (n n' : Nat) : segmentAt env n n' = actSegment (env.ans n 1 % 256) (answer env n' paramSize) := rfl

theorem segment_loops (env : Env) (n n' : Nat) : (segmentAt env n n').loops ≤ maxLoops := by
  have h := loaded (env := env) (fun _ => 0) n n'
  have h1 := h.la
  have h2 := h.lt
  have h3 := h.ld
  have k1 : get _ pLoopsAccel < 2 ^ 16 := get_lt2 (putBytes (fun _ => 0) (Fld.byte pLoopsAccel) paramSize (env.ans n')) 7 0
  have k2 : get _ pLoopsTravel < 2 ^ 16 := get_lt2 (putBytes (fun _ => 0) (Fld.byte pLoopsAccel) paramSize (env.ans n')) 7 2
  have k3 : get _ pLoopsDecel < 2 ^ 16 := get_lt2 (putBytes (fun _ => 0) (Fld.byte pLoopsAccel) paramSize (env.ans n')) 8 0
  simp only [MotionSegment.loops, maxLoops]
  rw [h1] at k1
  rw [h2] at k2
  rw [h3] at k3
  omega

theorem segment_dir (b1 : Nat) (bytes : List Nat) : (actSegment b1 bytes).directionBits = b1 := by
  show EndToEnd.value [b1] = b1
  simp [EndToEnd.value]

theorem answer_two (env : Env) (n : Nat) : answer env n headerSize = [env.ans n 0 % 256, env.ans n 1 % 256] := rfl

theorem seen_fetch (c : Cape) (env : Env) (a st : Nat) (seg : MotionSegment) (t n : Nat) :
    seen (fetchDone c env a st seg t n).log =
      [.load .dram a [env.ans n 0 % 256, env.ans n 1 % 256]] ++ (dirPins c (env.ans n 1 % 256)).flatMap pinWrite ++
      [.load .dram ((a + headerSize) % 2 ^ 32) (answer env (dirDone c env a t n).n paramSize)] ++ (auxPins c seg.aux).flatMap pinWrite ++
      [statusWrite ((st + seg.loops) % 2 ^ 32)] := by
  unfold fetchDone
  generalize hd : dirDone c env a t n = d
  have h1 : seen d.log = [.load .dram a [env.ans n 0 % 256, env.ans n 1 % 256]] ++ (dirPins c (env.ans n 1 % 256)).flatMap pinWrite := by
    rw [← hd]
    simp only [dirDone, pinsDone, Done.bind, Done.wait, seen_append, seen_outs, List.append_nil, loadDone, answer_two]
    rfl
  simp only [Done.bind, seen_append, h1, auxDone, pinsDone, seen_outs, startDone, Done.wait, List.append_nil, List.nil_append, loadDone,
    storeDone, List.append_assoc]
  rfl

theorem seen_end (env : Env) (a b t n : Nat) : seen (endDone env a b t n).log = [.store .dram a [b], .event 35] := by
  simp only [endDone, storeDone, eventDone, Done.bind, Done.wait, List.append_nil, seen_append]
  rfl

theorem slotAddr_lt {i : Nat} (h : i < queueLen) : slotAddr i + headerSize < 2 ^ 32 := by
  simp only [slotAddr, queueOffset, elementSize, headerSize, paramSize, queueLen] at *
  omega

theorem noWrap_slot {i : Nat} (h : i < queueLen) : noWrap (slotAddr i) = decide (i + 1 < queueLen) := by
  unfold noWrap
  apply decide_eq_decide.mpr
  simp only [slotAddr, queueOffset, elementSize, headerSize, paramSize, queueLen] at *
  rw [Nat.mod_eq_of_lt (by omega)]
  omega

theorem nextSlot_slot {i : Nat} (h : i < queueLen) : nextSlot (slotAddr i) = slotAddr (if i + 1 < queueLen then i + 1 else 0) := by
  unfold nextSlot
  rw [noWrap_slot h]
  by_cases h1 : i + 1 < queueLen
  · simp only [h1, decide_true, if_true]
    simp only [slotAddr, queueOffset, elementSize, headerSize, paramSize, queueLen] at *
    rw [Nat.mod_eq_of_lt (by omega)]
    omega
  · simp only [h1, decide_false, Bool.false_eq_true, if_false]
    rfl

theorem exec_nonempty (s : MotionSegment) (e : Nat → Bool) (h : (StepGen.exec s e).2 ≠ .aborted) : 1 ≤ (StepGen.exec s e).1.length := by
  unfold StepGen.exec at *
  rw [StepGen.stepGen] at *
  by_cases h1 : e 0 = true
  · rw [if_pos h1] at h
    exact absurd rfl h
  · rw [if_neg h1]
    simp only
    split <;> simp

/-- One round of the program. -/
theorem round_seen (c : Cape) (env : Env) (i lo t n : Nat) (hi : i < queueLen) (hlo : lo ≤ i * maxLoops) :
    ∃ act : Act, act.Ok c ∧ seen (round c env (slotAddr i) (i * 2 ^ 24 + lo) t n).1.log = actSeen c i lo act ∧
      match actNext i lo act with
      | none => (round c env (slotAddr i) (i * 2 ^ 24 + lo) t n).2 = .halted
      | some (i', lo') => (round c env (slotAddr i) (i * 2 ^ 24 + lo) t n).2 = .next (slotAddr i') (i' * 2 ^ 24 + lo') ∧
          i' < queueLen ∧ lo' ≤ i' * maxLoops := by
  unfold round
  by_cases h1 : env.ans n 0 % 256 = stateEmpty ∨ env.ans n 0 % 256 = stateAbort
  · rw [if_pos h1]
    exact ⟨.poll (env.ans n 0 % 256) (env.ans n 1 % 256), h1, by
      simp only [Done.bind, Done.wait, loadDone, List.append_nil, answer_two]; rfl, rfl, hi, hlo⟩
  · rw [if_neg h1]
    by_cases h2 : env.ans n 0 % 256 = stateExit
    · rw [if_pos h2]
      exact ⟨.exit (env.ans n 0 % 256) (env.ans n 1 % 256), h2, by
        simp only [exitDone, Done.bind, Done.wait, loadDone, storeDone, eventDone, List.append_nil, answer_two, seen_append]; rfl, rfl⟩
    · rw [if_neg h2]
      unfold segment
      have hloops := segment_loops env n (dirDone c env (slotAddr i) t n).n
      have hdir : (segmentAt env n (dirDone c env (slotAddr i) t n).n).directionBits = env.ans n 1 % 256 := by
        rw [segmentAt_eq, segment_dir]
      generalize hseg : segmentAt env n (dirDone c env (slotAddr i) t n).n = seg at hloops hdir ⊢
      have hact : actSegment (env.ans n 1 % 256) (answer env (dirDone c env (slotAddr i) t n).n paramSize) = seg := by
        rw [← hseg, segmentAt_eq]
      have hlo24 : lo + seg.loops < 2 ^ 24 := by
        simp only [maxLoops, queueLen] at *
        omega
      obtain ⟨e, h0, h3, h4, h5, h6, h7⟩ := passes_seen c env seg.fractions i lo (by simp only [queueLen] at hi; omega) (seg.loops + 1) 0
        (Regs.load seg) (fun _ => 0) (fetchDone c env (slotAddr i) (i * 2 ^ 24 + lo) seg t n).t
        (fetchDone c env (slotAddr i) (i * 2 ^ 24 + lo) seg t n).n (by rw [StepGen.load_loops]; omega) (by rw [StepGen.load_loops]; exact hlo24)
      refine ⟨.run (env.ans n 0 % 256) (env.ans n 1 % 256) (answer env (dirDone c env (slotAddr i) t n).n paramSize) e,
        ⟨fun h => h1 (.inl h), fun h => h1 (.inr h), h2, by simp [answer], h0⟩, ?_⟩
      simp only [actSeen, actNext, hact]
      rw [StepGen.load_loops] at h3 h4 h5 h6 h7
      rw [show StepGen.stepGen seg.fractions e (seg.loops + 1) 0 (Regs.load seg) (fun _ => 0) seg.loops = StepGen.exec seg e from rfl] at h3 h4 h5 h6 h7
      unfold slotDone
      simp only
      have hmod : (i * 2 ^ 24 + lo + seg.loops) % 2 ^ 32 = i * 2 ^ 24 + lo + seg.loops := by
        simp only [queueLen] at hi
        omega
      rw [hmod]
      generalize hd : fetchDone c env (slotAddr i) (i * 2 ^ 24 + lo) seg t n = d at h3 h4 h6
      have hds := seen_fetch c env (slotAddr i) (i * 2 ^ 24 + lo) seg t n
      rw [hd, hmod, Nat.mod_eq_of_lt (slotAddr_lt hi)] at hds
      have hne := exec_nonempty seg e
      generalize StepGen.exec seg e = y at h3 h4 h5 h6 h7 hne ⊢
      constructor
      · simp only [Done.bind, seen_append, hds, h3, h4, seen_end, Done.wait, hdir]
        by_cases ha : y.2 = .aborted
        · simp only [ha, decide_true, if_true, List.append_assoc]
          rfl
        · simp only [ha, decide_false, Bool.false_eq_true, if_false, List.append_assoc]
          rfl
      · rw [h6, nextSlot_slot hi]
        unfold nextStatus
        rw [noWrap_slot hi]
        by_cases h1 : i + 1 < queueLen
        · simp only [h1, decide_true, if_true]
          have hu : y.2 ≠ .aborted → lo + unspent seg.loops y ≤ (i + 1) * maxLoops := by
            intro ha
            have := hne ha
            simp only [unspent, if_neg ha]
            rw [Nat.add_mul]
            omega
          by_cases ha : y.2 = .aborted
          · simp only [ha, if_true]
            refine ⟨?_, trivial, Nat.zero_le _⟩
            congr 1
            simp only [queueLen] at h1
            omega
          · simp only [ha, if_false]
            refine ⟨?_, trivial, hu ha⟩
            have := hu ha
            congr 1
            simp only [queueLen, maxLoops] at h1 this
            omega
        · simp only [h1, decide_false, Bool.false_eq_true, if_false]
          exact ⟨rfl, by decide, by decide⟩

end BeagleG.Firmware
