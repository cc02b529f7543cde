import Verif.Firmware.Rounds
import Verif.Firmware.Capes
import Verif.StepGen.Props
/-!
# The firmware, instruction by instruction, does what the model of the step generation says (C69)
-/
namespace BeagleG.Firmware
open StepGen (Motor sub32 Regs MotionSegment Outcome)

variable {env : Env} {c : Cape} {prog : List (Instr Nat)}

/-! ### The whole program -/

/-- What a sequence of rounds is to do. -/
def actsSeen (c : Cape) : (i lo : Nat) → List Act → List Ev
  | _, _, [] => []
  | i, lo, act :: l => actSeen c i lo act ++
    match actNext i lo act with
    | none => []
    | some x => actsSeen c x.1 x.2 l

/-- The access to the configuration register at the start; `w` is its content. -/
def initSeen (bytes : List Nat) (w : Nat) : List Ev := [.load .cfg 4 bytes, .store .cfg 4 (bytesOf 4 (if w.testBit 4 then w - 16 else w))]

theorem rounds_seen (c : Cape) (env : Env) : ∀ (k i lo t n : Nat), i < queueLen → lo ≤ i * maxLoops →
    ∃ acts : List Act, acts.length ≤ k ∧ (∀ a ∈ acts, a.Ok c) ∧
      seen (rounds c env k (slotAddr i) (i * 2 ^ 24 + lo) t n).1.log = actsSeen c i lo acts ∧
      ((rounds c env k (slotAddr i) (i * 2 ^ 24 + lo) t n).2 = .halted ∨ acts.length = k) := by
  intro k
  induction k with
  | zero =>
    intro i lo t n hi hlo
    exact ⟨[], Nat.le_refl _, fun _ h => by simp at h, rfl, .inr rfl⟩
  | succ k ih =>
    intro i lo t n hi hlo
    obtain ⟨act, h1, h2, h3⟩ := round_seen c env i lo t n hi hlo
    generalize hr : round c env (slotAddr i) (i * 2 ^ 24 + lo) t n = x at h2 h3
    obtain ⟨d, o⟩ := x
    simp only at h2 h3
    cases hn : actNext i lo act with
    | none =>
      rw [hn] at h3
      simp only at h3
      subst h3
      refine ⟨[act], by simp, by simpa using h1, ?_, .inl ?_⟩
      · rw [rounds, hr]
        simp only [actsSeen, hn, List.append_nil, h2]
      · rw [rounds, hr]
    | some x =>
      obtain ⟨i', lo'⟩ := x
      rw [hn] at h3
      simp only at h3
      obtain ⟨h4, h5, h6⟩ := h3
      subst h4
      obtain ⟨acts, k1, k2, k3, k4⟩ := ih i' lo' d.t d.n h5 h6
      refine ⟨act :: acts, by simpa using k1, ?_, ?_, ?_⟩
      · intro a ha
        rcases List.mem_cons.mp ha with rfl | ha
        · exact h1
        · exact k2 a ha
      · rw [rounds, hr]
        simp only [Done.bind, seen_append, k3, h2, actsSeen, hn]
      · rw [rounds, hr]
        simp only
        exact k4.imp id fun h => by simp [h]

/-! The machine is deterministic, time goes forward and nothing that happened is taken back. -/

theorem exec_forward (env : Env) (s s' : St) (i : Instr Nat) (h : exec env s i = some s') : s.t < s'.t ∧ s.log <+: s'.log := by
  cases i <;> simp only [exec, Option.some.injEq, reduceCtorEq] at h
  case mov d o =>
    subst h
    refine ⟨?_, List.prefix_rfl⟩
    simp only [St.next]
    split
    · split <;> omega
    · omega
  all_goals
    subst h
    first
      | exact ⟨by simp only [St.alu, St.next, St.branch]; omega, List.prefix_rfl⟩
      | exact ⟨by simp only [St.next]; omega, List.prefix_append _ _⟩

theorem Star.forward {prog : List (Instr Nat)} {s s' : St} (h : Star prog env s s') : s.t ≤ s'.t ∧ s.log <+: s'.log ∧ (s'.t = s.t → s' = s) := by
  induction h with
  | refl s => exact ⟨Nat.le_refl _, List.prefix_rfl, fun _ => rfl⟩
  | step h1 h2 ih =>
    rename_i a b d
    have : a.t < b.t ∧ a.log <+: b.log := by
      unfold Firmware.step at h1
      split at h1
      · simp at h1
      · exact exec_forward env _ _ _ h1
    exact ⟨by omega, this.2.trans ih.2.1, fun h => by omega⟩

theorem Star.linear {prog : List (Instr Nat)} {s a b : St} (ha : Star prog env s a) (hb : Star prog env s b) :
    Star prog env a b ∨ Star prog env b a := by
  induction ha with
  | refl s => exact .inl hb
  | step h1 h2 ih =>
    cases hb with
    | refl => exact .inr (.step h1 h2)
    | step k1 k2 =>
      rw [h1] at k1
      simp only [Option.some.injEq] at k1
      subst k1
      exact ih k2

theorem Done.ne {d : Done} {f : Nat → Nat → Done} (h : d.log ≠ []) : (d.bind f).log ≠ [] := by
  simp [Done.bind, h]

theorem round_time (c : Cape) (hl : Located c prog) (hok : c.Ok) (s : St) (a st : Nat) (ha : get s.r r2 = a) (hst : get s.r r28 = st) (hpc : s.pc = 5) :
    s.t < (round c env a st s.t s.n).1.t := by
  obtain ⟨s', h1, h2⟩ := round_run (env := env) hl hok s a st ha hst hpc
  have hf := h1.forward
  have ht : s'.t = (round c env a st s.t s.n).1.t := by
    revert h2
    split
    · exact fun h => h.1.t
    · exact fun h => h.1.t
  have hlen : (round c env a st s.t s.n).1.log ≠ [] := by
    have hl : (loadDone env a headerSize s.t s.n).log ≠ [] := List.cons_ne_nil _ _
    unfold round
    split
    · exact Done.ne hl
    · split
      · exact Done.ne (Done.ne (Done.ne hl))
      · exact Done.ne (Done.ne (Done.ne (Done.ne (Done.ne (Done.ne (Done.ne (Done.ne hl)))))))
  have hlog : s'.log = s.log ++ (round c env a st s.t s.n).1.log := by
    revert h2
    split
    · exact fun h => h.1.log
    · exact fun h => h.1.log
  rcases Nat.lt_or_ge s.t (round c env a st s.t s.n).1.t with h | h
  · exact h
  · have : s' = s := hf.2.2 (by omega)
    rw [this] at hlog
    exact absurd (List.append_right_eq_self.mp hlog.symm) hlen

theorem rounds_time (c : Cape) (hl : Located c prog) (hok : c.Ok) : ∀ (k : Nat) (s : St) (a st : Nat), get s.r r2 = a → get s.r r28 = st →
    s.pc = 5 → (rounds c env k a st s.t s.n).2 = .halted ∨ s.t + k ≤ (rounds c env k a st s.t s.n).1.t := by
  intro k
  induction k with
  | zero => intro s a st _ _ _; exact .inr (Nat.le_refl _)
  | succ k ih =>
    intro s a st ha hst hpc
    have h0 := round_time (env := env) c hl hok s a st ha hst hpc
    obtain ⟨s1, -, h1⟩ := round_run (env := env) hl hok s a st ha hst hpc
    rw [rounds]
    generalize round c env a st s.t s.n = x at h0 h1
    obtain ⟨d, o⟩ := x
    cases o with
    | halted => exact .inl rfl
    | next a' st' =>
      simp only at h0 h1 ⊢
      obtain ⟨h2, h3, h4⟩ := h1
      have := ih s1 a' st' h3 h4 h2.pc
      rw [h2.t, h2.n] at this
      refine this.imp id fun h => ?_
      simp only [Done.bind]
      omega

/-- C69. Whatever the firmware has done at any time, from its first instruction on, is the beginning of what the model of
the step generation does for some sequence of rounds: element after element of the queue, polled until it is filled,
then directions, auxiliary outputs, and the passes of `StepGen.exec` for the segment that was read, step outputs and status
word by status word, and at the end the state byte and the event. -/
theorem C69_refines (hok : c.Ok) (s s1 : St) (hpc : s.pc = 0) (hlog : s.log = []) (h : Star (firmware c) env s s1) :
    ∃ (acts : List Act) (bytes : List Nat) (w : Nat), (∀ a ∈ acts, a.Ok c) ∧ seen s1.log <+: initSeen bytes w ++ actsSeen c 0 0 acts := by
  obtain ⟨s0, h0, h1, h2, h3⟩ := init_run (env := env) (located c) s hpc
  obtain ⟨s2, h4, h5⟩ := rounds_run (env := env) (located c) hok s1.t s0 _ _ h2 h3 h1.pc
  have ht := rounds_time (env := env) c (located c) hok s1.t s0 _ _ h2 h3 h1.pc
  obtain ⟨acts, -, k2, k3, -⟩ := rounds_seen c env s1.t 0 0 s0.t s0.n (by decide) (by decide)
  have e1 : slotAddr 0 = queueOffset := rfl
  have e2 : 0 * 2 ^ 24 + 0 = 0 := by simp
  rw [e1, e2] at k3
  have hs2 : s2.log = s.log ++ (initDone env s.t s.n).log ++ (rounds c env s1.t queueOffset 0 s0.t s0.n).1.log ∧
      (step (firmware c) env s2 = none ∨ s1.t ≤ s2.t) := by
    revert h5 ht
    generalize rounds c env s1.t queueOffset 0 s0.t s0.n = x
    obtain ⟨d, o⟩ := x
    intro h5 ht
    cases o with
    | halted =>
      simp only at h5
      exact ⟨by rw [h5.1.log, h1.log], .inl h5.2⟩
    | next a st =>
      simp only at h5 ht
      refine ⟨by rw [h5.1.log, h1.log], .inr ?_⟩
      rw [h5.1.t]
      rcases ht with h | h
      · simp at h
      · omega
  have hpre : s1.log <+: s2.log := by
    rcases h.linear (h0.trans h4) with h6 | h6
    · exact h6.forward.2.1
    · rcases hs2.2 with h7 | h7
      · cases h6 with
        | refl => exact List.prefix_rfl
        | step k1 _ => rw [h7] at k1; simp at k1
      · have h8 := h6.forward
        have : s1 = s2 := h8.2.2 (Nat.le_antisymm h7 h8.1)
        rw [this]
        exact List.prefix_rfl
  refine ⟨acts, answer env s.n 4, word (env.ans s.n), k2, ?_⟩
  have h9 : seen s2.log = initSeen (answer env s.n 4) (word (env.ans s.n)) ++ actsSeen c 0 0 acts := by
    rw [hs2.1, hlog, List.nil_append, seen_append, k3]
    rfl
  rw [← h9]
  exact hpre.filterMap _

/-! ### What is written at all -/

/-- What the firmware may do outside of itself: set or clear a mapped step, direction or auxiliary pin, write the status
word, give back an element of the queue as empty or aborted, the event, and the configuration register at the start. Of
its memory it reads the elements. -/
inductive Allowed (c : Cape) : Ev → Prop
  | pin (p : Nat) (level : Bool) (hp : (∃ i, c.step i = p) ∨ (∃ i, c.dir i = p) ∨ ∃ i, c.aux i = p) (hm : unmapped p = false) :
      Allowed c (.store .bus (((p &&& 0xfffff000) + if level then gpioSet else gpioClear) % 2 ^ 32) (bytesOf 4 (2 ^ (p &&& 0x1f))))
  | status (w : Nat) : Allowed c (statusWrite w)
  | slot (i b : Nat) (hi : i < queueLen) (hb : b = stateEmpty ∨ b = stateAbort) : Allowed c (.store .dram (slotAddr i) [b])
  | event : Allowed c (.event 35)
  | config (bytes : List Nat) : Allowed c (.store .cfg 4 bytes)
  | readConfig (bytes : List Nat) : Allowed c (.load .cfg 4 bytes)
  | readHeader (i b0 b1 : Nat) (hi : i < queueLen) : Allowed c (.load .dram (slotAddr i) [b0, b1])
  | readParams (i : Nat) (bytes : List Nat) (hi : i < queueLen) (hl : bytes.length = paramSize) :
      Allowed c (.load .dram (slotAddr i + headerSize) bytes)
  | readInput (a : Nat) (bytes : List Nat) : Allowed c (.load .bus a bytes)

theorem allowed_pins (l : List (Nat × Bool)) (hl : ∀ x ∈ l, (∃ i, c.step i = x.1) ∨ (∃ i, c.dir i = x.1) ∨ ∃ i, c.aux i = x.1) :
    ∀ e ∈ l.flatMap pinWrite, Allowed c e := by
  intro e he
  obtain ⟨x, hx, he⟩ := List.mem_flatMap.mp he
  unfold pinWrite at he
  split at he
  · simp at he
  · rename_i hm
    simp only [List.mem_singleton] at he
    subst he
    exact .pin x.1 x.2 (hl x hx) (by simpa using hm)

theorem mem_stepPins {m : Motor → Nat} {x : Nat × Bool} (h : x ∈ stepPins c m) : ∃ i, c.step i = x.1 := by
  simp only [stepPins, List.mem_cons, List.not_mem_nil, or_false] at h
  rcases h with rfl | rfl | rfl | rfl | rfl | rfl | rfl | rfl <;> exact ⟨_, rfl⟩

theorem mem_dirPins {b : Nat} {x : Nat × Bool} (h : x ∈ dirPins c b) : ∃ i, c.dir i = x.1 := by
  simp only [dirPins, List.mem_cons, List.not_mem_nil, or_false] at h
  rcases h with rfl | rfl | rfl | rfl | rfl | rfl | rfl | rfl <;> exact ⟨_, rfl⟩

theorem mem_auxPins {b : Nat} {x : Nat × Bool} (h : x ∈ auxPins c b) : ∃ i, c.aux i = x.1 := by
  simp only [auxPins, List.mem_cons, List.not_mem_nil, or_false] at h
  rcases h with rfl | rfl | rfl | rfl | rfl | rfl | rfl | rfl | rfl | rfl | rfl | rfl | rfl | rfl | rfl | rfl <;> exact ⟨_, rfl⟩

theorem allowed_act (i lo : Nat) (hi : i < queueLen) (act : Act) (ha : act.Ok c) : ∀ e ∈ actSeen c i lo act, Allowed c e := by
  cases act with
  | poll b0 b1 =>
    intro e he
    simp only [actSeen, List.mem_singleton] at he
    subst he
    exact .readHeader i b0 b1 hi
  | exit b0 b1 =>
    intro e he
    simp only [actSeen, List.mem_cons, List.not_mem_nil, or_false] at he
    rcases he with rfl | rfl | rfl
    · exact .readHeader i b0 b1 hi
    · exact .slot i _ hi (.inl rfl)
    · exact .event
  | run b0 b1 bytes estop =>
    intro e he
    simp only [actSeen, List.mem_append, or_assoc] at he
    rcases he with he | he | he | he | he | he | he
    · simp only [List.mem_singleton] at he
      subst he
      exact .readHeader i b0 b1 hi
    · refine allowed_pins _ ?_ e he
      exact fun x hx => .inr (.inl (mem_dirPins hx))
    · simp only [List.mem_singleton] at he
      subst he
      exact .readParams i bytes hi ha.2.2.2.1
    · refine allowed_pins _ ?_ e he
      exact fun x hx => .inr (.inr (mem_auxPins hx))
    · simp only [List.mem_singleton] at he
      subst he
      exact .status _
    · obtain ⟨p, -, he⟩ := List.mem_flatMap.mp he
      unfold passWrites at he
      rcases List.mem_append.mp he with he | he
      · refine allowed_pins _ ?_ e he
        exact fun x hx => .inl (mem_stepPins hx)
      · split at he
        · simp at he
        · simp only [List.mem_singleton] at he
          subst he
          exact .status _
    · split at he
      · simp only [List.mem_cons, List.not_mem_nil, or_false] at he
        rcases he with rfl | rfl | rfl
        · exact .status _
        · exact .slot i _ hi (.inr rfl)
        · exact .event
      · simp only [List.mem_cons, List.not_mem_nil, or_false] at he
        rcases he with rfl | rfl
        · exact .slot i _ hi (.inl rfl)
        · exact .event

theorem actNext_lt {i lo i' lo' : Nat} {act : Act} (hi : i < queueLen) (h : actNext i lo act = some (i', lo')) : i' < queueLen := by
  cases act with
  | poll =>
    simp only [actNext, Option.some.injEq, Prod.mk.injEq] at h
    omega
  | exit => simp [actNext] at h
  | run b0 b1 bytes e =>
    simp only [actNext] at h
    split at h
    · simp only [Option.some.injEq, Prod.mk.injEq] at h
      omega
    · simp only [Option.some.injEq, Prod.mk.injEq] at h
      simp only [queueLen]
      omega

theorem allowed_acts : ∀ (acts : List Act) (i lo : Nat), i < queueLen → (∀ a ∈ acts, a.Ok c) → ∀ e ∈ actsSeen c i lo acts, Allowed c e := by
  intro acts
  induction acts with
  | nil => intro i lo _ _ e he; simp [actsSeen] at he
  | cons a l ih =>
    intro i lo hi ha e he
    rw [actsSeen] at he
    rcases List.mem_append.mp he with he | he
    · exact allowed_act i lo hi a (ha a (List.mem_cons_self ..)) e he
    · split at he
      · simp at he
      · rename_i x hx
        obtain ⟨i', lo'⟩ := x
        exact ih i' lo' (actNext_lt hi hx) (fun b hb => ha b (List.mem_cons_of_mem _ hb)) e he

/-- C69. Nothing else is ever written by the firmware: no other pin of a bank, no other part of the memory that it shares
with the host. -/
theorem C69_writes_only (hok : c.Ok) (s s1 : St) (hpc : s.pc = 0) (hlog : s.log = []) (h : Star (firmware c) env s s1) :
    ∀ e ∈ s1.log, Allowed c e.2 := by
  intro e he
  obtain ⟨acts, bytes, w, ha, hp⟩ := C69_refines hok s s1 hpc hlog h
  have key : ∀ x ∈ seen s1.log, Allowed c x := by
    intro x hx
    rcases List.mem_append.mp (hp.subset hx) with hx | hx
    · simp only [initSeen, List.mem_cons, List.not_mem_nil, or_false] at hx
      rcases hx with rfl | rfl
      · exact .readConfig _
      · exact .config _
    · exact allowed_acts acts 0 0 (by decide) ha x hx
  obtain ⟨t, e⟩ := e
  by_cases hb : ∃ a bytes, e = .load .bus a bytes
  · obtain ⟨a, bytes, rfl⟩ := hb
    exact .readInput a bytes
  · refine key e (List.mem_filterMap.mpr ⟨(t, e), he, ?_⟩)
    cases e with
    | load sp a bytes => cases sp <;> first | rfl | exact absurd ⟨a, bytes, rfl⟩ hb
    | store sp a bytes => rfl
    | event n => rfl

/-- C69. The firmware never gets stuck within a round: whatever is read, after its start and any number `k` of rounds it is
either halted, having been told to exit, or about to read the header of an element for the next round. -/
theorem C69_progress (hok : c.Ok) (s : St) (hpc : s.pc = 0) (k : Nat) :
    ∃ s', Star (firmware c) env s s' ∧ (step (firmware c) env s' = none ∨ s'.pc = 5 ∧ s.t + k ≤ s'.t) := by
  obtain ⟨s0, h0, h1, h2, h3⟩ := init_run (env := env) (located c) s hpc
  obtain ⟨s2, h4, h5⟩ := rounds_run (env := env) (located c) hok k s0 _ _ h2 h3 h1.pc
  have ht := rounds_time (env := env) c (located c) hok k s0 _ _ h2 h3 h1.pc
  refine ⟨s2, h0.trans h4, ?_⟩
  have hs0 := h0.forward.1
  revert h5 ht
  generalize rounds c env k queueOffset 0 s0.t s0.n = x
  obtain ⟨d, o⟩ := x
  intro h5 ht
  cases o with
  | halted => exact .inl h5.2
  | next a st =>
    simp only at h5 ht
    refine .inr ⟨h5.1.pc, ?_⟩
    rw [h5.1.t]
    rcases ht with h | h
    · simp at h
    · omega

/-- The four capes of the repository are among those the theorems are about. -/
theorem C69_capes : ∀ c ∈ capes, c.Ok := capes_ok

/-- **C69, the headers**: no two pins of one board are the same signal: P8 and P9 of the BeagleBone, P1 and P2 of the PocketBeagle. -/
theorem C69_headers :
    (((List.range 47).map p9 ++ (List.range 47).map p8).filter (· ≠ notMapped)).Nodup ∧
    (((List.range 37).map p1 ++ (List.range 37).map p2).filter (· ≠ notMapped)).Nodup := by
  constructor <;> decide +kernel

/-- An element with the sample segment, after that the request to exit. -/
def demoEnv : Env where
  ans n j := if n = 2 then (1 :: EndToEnd.hostBytes StepGen.sampleSegment).getD j 0
    else if n = 11 then ((EndToEnd.hostBytes StepGen.sampleSegment).drop 1).getD j 0 else if n = 0 then 0 else 2
  lat _ := 3

/-- Non-vacuity: with that the firmware for the BUMPS cape halts after 1633 cycles, having made 82 accesses. -/
theorem demo_done : (programDone bumps demoEnv 5 0 0).1.t = 1633 ∧ (programDone bumps demoEnv 5 0 0).1.log.length = 82 := by
  decide +kernel

theorem program_reaches (hok : c.Ok) (s : St) (hpc : s.pc = 0) (hlog : s.log = []) (k t l : Nat)
    (h : (programDone c env k s.t s.n).1.t = t ∧ (programDone c env k s.t s.n).1.log.length = l) :
    ∃ s', Star (firmware c) env s s' ∧ s'.t = t ∧ s'.log.length = l := by
  obtain ⟨s', h1, h2, h3, -⟩ := program_run (env := env) hok k s hpc
  exact ⟨s', h1, by rw [h3, h.1], by rw [h2, hlog, List.nil_append, h.2]⟩

example : ∃ s', Star (firmware bumps) demoEnv ⟨0, fun _ => 0, 0, 0, 0, []⟩ s' ∧ s'.t = 1633 ∧ s'.log.length = 82 :=
  program_reaches (C69_capes bumps (by simp [capes])) _ rfl rfl 5 _ _ demo_done

/-! ### The lower bytes of the status word -/

theorem stepGen_length (fr : Motor → Nat) (e : Nat → Bool) : ∀ (L k : Nat) (r : Regs) (m : Motor → Nat) (st : Nat),
    r.loops = L → (∀ j < L, StepGen.delayAfter r j ≠ 0) → (StepGen.stepGen fr e (L + 1) k r m st).2 ≠ .aborted →
    (StepGen.stepGen fr e (L + 1) k r m st).1.length = L + 1 := by
  intro L
  induction L with
  | zero =>
    intro k r m st hr _ ha
    rw [StepGen.stepGen] at ha ⊢
    by_cases he : e k = true
    · rw [if_pos he] at ha
      exact absurd rfl ha
    · rw [if_neg he]
      simp only [StepGen.calculateDelay_done r hr, if_true, List.length_singleton]
  | succ L ih =>
    intro k r m st hr hd ha
    have h0 : (StepGen.calculateDelay r).2 ≠ 0 := hd 0 (by omega)
    have hl := loops_dec r h0
    rw [StepGen.stepGen] at ha ⊢
    by_cases he : e k = true
    · rw [if_pos he] at ha
      exact absurd rfl ha
    · rw [if_neg he] at ha ⊢
      simp only [h0, if_false] at ha ⊢
      rw [List.length_cons, ih (k + 1) (StepGen.calculateDelay r).1 _ _ (by omega) (fun j hj => hd (j + 1) (by omega)) ha]

theorem done_length (s : MotionSegment) (e : Nat → Bool) (hn : StepGen.NoEarlyStop s) (ha : (StepGen.exec s e).2 ≠ .aborted) :
    (StepGen.exec s e).1.length = s.loops + 1 :=
  stepGen_length s.fractions e s.loops 0 (Regs.load s) _ _ (StepGen.load_loops s) hn ha

/-- The elements lie where the host has them: `PRUCommunication` (pru-motion-queue.cc 42-45) is packed, four bytes of status and then
one state byte and the other bytes of the segment for each element. What is read of a segment is its header of two bytes and
the rest. -/
theorem C69_slots (s : MotionSegment) (i : Nat) : slotAddr i = 4 + i * (1 + (EndToEnd.hostBytes s).length) ∧
    headerSize + paramSize = 1 + (EndToEnd.hostBytes s).length := by
  rw [(EndToEnd.C58_same_widths s).2.2]
  refine ⟨?_, rfl⟩
  show 4 + 54 * i = 4 + i * 54
  omega

/-- If every segment is performed to its end, the lower bytes of the status word are 0 at the end of each, as the comment
in the firmware says ("we guarantee that the bottom three bytes are all zero"). -/
theorem C69_bottom_zero (i : Nat) (act : Act)
    (h : ∀ b0 b1 bytes e, act = .run b0 b1 bytes e → StepGen.NoEarlyStop (actSegment b1 bytes)) :
    ∀ x, actNext i 0 act = some x → x.2 = 0 := by
  intro x hx
  cases act with
  | poll => simp only [actNext, Option.some.injEq] at hx; rw [← hx]
  | exit => simp [actNext] at hx
  | run b0 b1 bytes e =>
    have hn := h b0 b1 bytes e rfl
    simp only [actNext] at hx
    split at hx
    · simp only [Option.some.injEq] at hx
      rw [← hx]
      simp only [Nat.zero_add]
      split
      · rfl
      · rename_i hab
        unfold unspent
        rw [if_neg hab]
        have := done_length (actSegment b1 bytes) e hn hab
        omega
    · simp only [Option.some.injEq] at hx; rw [← hx]

/-- Otherwise they are not: the loops left over stay in the status word of the following elements. -/
theorem C69_leftover : ∃ (act : Act), act.Ok bumps ∧ actNext 0 0 act = some (1, 6) := by
  refine ⟨.run 1 2 ((EndToEnd.hostBytes { StepGen.sampleSegment with travelDelayCycles := 2 }).drop 1) (fun _ => false), ?_, ?_⟩
  · exact ⟨by decide, by decide, by decide, by decide +kernel, fun _ _ => rfl⟩
  · decide +kernel

end BeagleG.Firmware
