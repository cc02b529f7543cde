import Verif.Pwm.Timers
import Verif.Pwm.Props
import Verif.Hardware.Model
import Mathlib.Data.Fin.VecNotation
/-!
# C97: PWM outputs, pins and timers
-/
namespace BeagleG.Pwm

open Planner (Arith Exact)
open Firmware (p8 p9 notMapped Cape bumps cramps pockegotion vgen5 capes)

variable {F : Type} {A : Arith F}

/-! ### Pins -/

/-- **C97, pins**: exactly four pins have a timer, each its own; no pin without number has one. -/
theorem C97_pins : (∀ g k, timerOf g = some k ↔ g = (![p8 7, p8 9, p8 10, p8 8] k)) ∧
    (∀ g h k, timerOf g = some k → timerOf h = some k → g = h) ∧ timerOf notMapped = none := by
  have key : ∀ g k, timerOf g = some k ↔ g = (![p8 7, p8 9, p8 10, p8 8] k) := by
    intro g k
    unfold timerOf
    constructor
    · intro h
      split_ifs at h with h1 h2 h3 h4 <;> (cases h; assumption)
    · intro h
      subst h
      revert k
      decide
  refine ⟨key, fun g h k hg hh => ?_, by decide⟩
  rw [(key g k).1 hg, (key h k).1 hh]

/-- **C97, separate**: a call for a pin changes only the timer of this pin; calls for pins with different timers can be exchanged. -/
theorem C97_separate (ts : Timers F) (g : Nat) (f : Timer F → Timer F) :
    (∀ k, timerOf g ≠ some k → onPin ts g f k = ts k) ∧
    (∀ k, timerOf g = some k → onPin ts g f k = f (ts k)) ∧
    ∀ h f', timerOf g ≠ timerOf h → onPin (onPin ts g f) h f' = onPin (onPin ts h f') g f := by
  refine ⟨?_, ?_, ?_⟩
  · intro k hk
    unfold onPin
    rcases hj : timerOf g with _ | j
    · rfl
    · show put _ _ _ k = _
      unfold put
      rw [if_neg (fun e => hk (by rw [hj, e]))]
  · intro k hk
    unfold onPin put
    simp [hk]
  · intro h f' hne
    unfold onPin
    rcases hg : timerOf g with _ | a <;> rcases hh : timerOf h with _ | b
    · rfl
    · rfl
    · rfl
    · have hab : a ≠ b := fun e => hne (by rw [hg, hh, e])
      funext j
      simp only [put]
      by_cases h1 : j = a
      · subst h1; simp [hab]
      · by_cases h2 : j = b
        · subst h2; simp [Ne.symm hab]
        · simp [h1, h2]

/-- The effect of a call of the interface on a timer. -/
theorem use_eq (ts : Timers F) (u : Use F) : ∃ f : Timer F → Timer F, use A ts u = onPin ts u.pin f ∧
    (∀ t, (f t).mapped = t.mapped) ∧ ∀ t, t.mapped = false → f t = t := by
  have hs : ∀ (t : Timer F) on, (start A t on).mapped = t.mapped := by
    intro t on; unfold start; split_ifs <;> rfl
  cases u with
  | start g on => exact ⟨(start A · on), rfl, fun t => hs t on, fun t h => by unfold start; simp [h]⟩
  | duty g v =>
    refine ⟨(setDuty A · v), rfl, fun t => ?_, fun t h => by unfold setDuty; simp [h]⟩
    show (setDuty A t v).mapped = _
    unfold setDuty
    split_ifs
    · rfl
    · rfl
    · exact hs t false
    · rfl
  | freq g v =>
    refine ⟨(setFreq A · v), rfl, fun t => ?_, fun t h => by unfold setFreq; simp [h]⟩
    show (setFreq A t v).mapped = _
    unfold setFreq
    dsimp only
    split_ifs <;> rfl

/-- **C97, calls**: any sequence of calls leaves the mapping as it is, changes only timers of pins that were used, and changes
nothing at all for pins without timer and for timers that are not mapped: no null pointer is followed. -/
theorem C97_calls (us : List (Use F)) (ts : Timers F) (k : Fin 4) : ((us.foldl (use A) ts) k).mapped = (ts k).mapped ∧
    ((∀ u ∈ us, timerOf u.pin ≠ some k) ∨ (ts k).mapped = false → (us.foldl (use A) ts) k = ts k) := by
  induction us generalizing ts with
  | nil => exact ⟨rfl, fun _ => rfl⟩
  | cons u us ih =>
    obtain ⟨f, e, fm, fn⟩ := use_eq (A := A) ts u
    obtain ⟨s1, s2, -⟩ := C97_separate ts u.pin f
    have hm : (use A ts u k).mapped = (ts k).mapped := by
      rw [e]
      by_cases h : timerOf u.pin = some k
      · rw [s2 k h, fm]
      · rw [s1 k h]
    obtain ⟨i1, i2⟩ := ih (use A ts u)
    refine ⟨i1.trans hm, fun h => ?_⟩
    have hk : use A ts u k = ts k := by
      rw [e]
      by_cases h' : timerOf u.pin = some k
      · rcases h with h | h
        · exact absurd h' (h u (List.mem_cons_self ..))
        · rw [s2 k h', fn _ h]
      · exact s1 k h'
    refine (i2 ?_).trans hk
    rcases h with h | h
    · exact .inl fun v hv => h v (List.mem_cons_of_mem _ hv)
    · exact .inr (hm.trans h)

/-! ### Mapping -/

/-- The loop over the timers. -/
theorem mapLoop_ok (S : Sys) (ks : List (Fin 4)) (p : Ptrs) : (mapLoop S ks p).2.2 = ks.all S.timer ∧
    ((mapLoop S ks p).2.2 = true → (mapLoop S ks p).2.1 = ks.map .mmap) := by
  induction ks generalizing p with
  | nil => exact ⟨rfl, fun _ => rfl⟩
  | cons k ks ih =>
    unfold mapLoop
    dsimp only
    cases h : S.timer k
    · simp [h]
    · obtain ⟨i1, i2⟩ := ih (fun j => if j = k then .mapped else p j)
      simp only [if_true, List.all_cons, h, Bool.true_and, List.map_cons]
      exact ⟨i1, fun e => by rw [i2 e]⟩

/-- **C97, mapping**: it reports success exactly when the memory, the clock module and all four timers could be mapped; then all
timers are mapped, each was mapped once, and all clocks are set to 24 MHz (value 1) before. If it reports an error with the memory
device open, or with no timer mapped before, then no timer is mapped. The registers of the timers are not touched. -/
theorem C97_map {S : Sys} {fuel : Nat} {ts : Timers F} {m : Mapping F} (h : mapTimers A S fuel ts = some m) :
    (m.ok = true ↔ S.mem = true ∧ S.cm = true ∧ ∀ k, S.timer k = true) ∧
    (m.ok = true → (∀ k, (m.timers k).mapped = true) ∧
      ∃ clocks, enableClocks S fuel = some clocks ∧ m.calls = clocks ++ (List.finRange 4).map .mmap) ∧
    (m.ok = false → (S.mem = true ∨ ∀ k, (ts k).mapped = false) → ∀ k, (m.timers k).mapped = false) ∧
    ∀ k, (m.timers k).tclr = (ts k).tclr ∧ (m.timers k).tcrr = (ts k).tcrr ∧ (m.timers k).tldr = (ts k).tldr ∧
      (m.timers k).tmar = (ts k).tmar := by
  have hr : ∀ k, ((put ts 0 (cleared A (ts 0))) k).tclr = (ts k).tclr ∧ ((put ts 0 (cleared A (ts 0))) k).tcrr = (ts k).tcrr ∧
      ((put ts 0 (cleared A (ts 0))) k).tldr = (ts k).tldr ∧ ((put ts 0 (cleared A (ts 0))) k).tmar = (ts k).tmar := by
    intro k
    unfold put
    split
    · subst k; exact ⟨rfl, rfl, rfl, rfl⟩
    · exact ⟨rfl, rfl, rfl, rfl⟩
  unfold mapTimers at h
  dsimp only at h
  cases hm : S.mem
  · simp only [hm, Bool.not_false, if_true, Option.some.injEq] at h
    subst h
    refine ⟨by simp, by simp, fun _ h' k => ?_, hr⟩
    rcases h' with h' | h'
    · simp at h'
    · simp only [put]
      split
      · rfl
      · exact h' k
  · cases hc : S.cm
    · simp only [hm, hc, Bool.not_true, Bool.false_eq_true, if_false, Bool.not_false, if_true, Option.some.injEq] at h
      subst h
      exact ⟨by simp, by simp, fun _ _ k => rfl, hr⟩
    · simp only [hm, hc, Bool.not_true, Bool.false_eq_true, if_false] at h
      rcases he : enableClocks S fuel with _ | clocks
      · simp [he] at h
      · simp only [he, Option.map_some, Option.some.injEq] at h
        obtain ⟨l1, l2⟩ := mapLoop_ok S (List.finRange 4) (ptrs (put ts 0 (cleared A (ts 0))))
        generalize mapLoop S (List.finRange 4) (ptrs (put ts 0 (cleared A (ts 0)))) = r at *
        have hall : (List.finRange 4).all S.timer = true ↔ ∀ k, S.timer k = true := by
          simp [List.all_eq_true]
        cases hb : r.2.2
        · simp only [hb, Bool.false_eq_true, if_false] at h
          subst h
          rw [hb] at l1
          refine ⟨?_, by simp, fun _ _ k => rfl, hr⟩
          rw [← hall, ← l1]
          simp
        · simp only [hb, if_true] at h
          subst h
          rw [hb] at l1
          refine ⟨?_, fun _ => ⟨fun _ => rfl, clocks, rfl, by rw [l2 hb]⟩, by simp, hr⟩
          rw [← hall, ← l1]
          simp

theorem four (k : Fin 4) : k = 0 ∨ k = 1 ∨ k = 2 ∨ k = 3 := by revert k; decide

/-- **C97, clocks**: the clocks come up as soon as each of them says so after some time; then the last four words written select the
24 MHz oscillator, and before that each clock that is not idle is enabled. -/
theorem C97_clocks (S : Sys) (fuel : Nat) : (enableClocks S fuel ≠ none ↔
      ∀ k, S.clock k 0 &&& 0x30000 ≠ 0 → ∃ n < fuel, S.clock k (n + 1) &&& 0x30000 = 0) ∧
    ∀ calls, enableClocks S fuel = some calls →
      calls = ((List.finRange 4).filter fun k => S.clock k 0 &&& 0x30000 ≠ 0).map (fun k => .cm (clkctrl k) (S.clock k 0 ||| 2)) ++
        (List.finRange 4).map (fun k => .cm (clksel k) 1) := by
  have one : ∀ reg clock, (enableClock reg clock fuel ≠ none ↔
      (clock 0 &&& 0x30000 ≠ 0 → ∃ n < fuel, clock (n + 1) &&& 0x30000 = 0)) ∧
      ∀ c, enableClock reg clock fuel = some c → c = if clock 0 &&& 0x30000 ≠ 0 then [.cm reg (clock 0 ||| 2)] else [] := by
    intro reg clock
    unfold enableClock
    by_cases h : clock 0 &&& 0x30000 ≠ 0
    · simp only [h, if_true, not_false_eq_true, ne_eq, true_implies]
      by_cases h' : (List.range fuel).any (fun n => decide (clock (n + 1) &&& 0x30000 = 0)) = true
      · rw [if_pos h']
        refine ⟨⟨fun _ => ?_, fun _ => by simp⟩, fun c hc => by cases hc; rfl⟩
        simpa using h'
      · rw [if_neg h']
        refine ⟨⟨fun h => absurd rfl h, fun hx => absurd ?_ h'⟩, fun c hc => by cases hc⟩
        simpa using hx
    · simp [h]
  have fr : List.finRange 4 = [0, 1, 2, 3] := by decide
  constructor
  · have hsplit : enableClocks S fuel ≠ none ↔ ∀ k, enableClock (clkctrl k) (S.clock k) fuel ≠ none := by
      constructor
      · intro h k hk
        apply h
        unfold enableClocks
        have : k = 0 ∨ k = 1 ∨ k = 2 ∨ k = 3 := four k
        rcases this with rfl | rfl | rfl | rfl
        · simp [hk]
        · rw [hk]; cases enableClock (clkctrl 0) (S.clock 0) fuel <;> rfl
        · rw [hk]; cases enableClock (clkctrl 0) (S.clock 0) fuel <;> cases enableClock (clkctrl 1) (S.clock 1) fuel <;> rfl
        · rw [hk]; cases enableClock (clkctrl 0) (S.clock 0) fuel <;> cases enableClock (clkctrl 1) (S.clock 1) fuel <;>
            cases enableClock (clkctrl 2) (S.clock 2) fuel <;> rfl
      · intro h hn
        obtain ⟨a, ha⟩ := Option.ne_none_iff_exists'.1 (h 0)
        obtain ⟨b, hb⟩ := Option.ne_none_iff_exists'.1 (h 1)
        obtain ⟨c, hc⟩ := Option.ne_none_iff_exists'.1 (h 2)
        obtain ⟨d, hd⟩ := Option.ne_none_iff_exists'.1 (h 3)
        simp [enableClocks, ha, hb, hc, hd] at hn
    rw [hsplit]
    exact forall_congr' fun k => (one _ _).1
  · intro calls h
    unfold enableClocks at h
    rcases ha : enableClock (clkctrl 0) (S.clock 0) fuel with _ | a
    · simp [ha] at h
    rcases hb : enableClock (clkctrl 1) (S.clock 1) fuel with _ | b
    · simp [ha, hb] at h
    rcases hc : enableClock (clkctrl 2) (S.clock 2) fuel with _ | c
    · simp [ha, hb, hc] at h
    rcases hd : enableClock (clkctrl 3) (S.clock 3) fuel with _ | d
    · simp [ha, hb, hc, hd] at h
    simp only [ha, hb, hc, hd, Option.bind_eq_bind, Option.bind_some, Option.pure_def, Option.some.injEq] at h
    subst h
    rw [(one _ _).2 a ha, (one _ _).2 b hb, (one _ _).2 c hc, (one _ _).2 d hd, fr]
    by_cases h0 : S.clock 0 0 &&& 0x30000 = 0 <;> by_cases h1 : S.clock 1 0 &&& 0x30000 = 0 <;>
      by_cases h2 : S.clock 2 0 &&& 0x30000 = 0 <;> by_cases h3 : S.clock 3 0 &&& 0x30000 = 0 <;>
      simp [h0, h1, h2, h3]

/-- **C97, mapping again without clock module**: exactly the timers that were mapped are unmapped, but for the first one: its pointer was
cleared before, so that its mapping is lost. -/
theorem C97_lost {S : Sys} {fuel : Nat} {ts : Timers F} {m : Mapping F} (h : mapTimers A S fuel ts = some m) (h1 : S.mem = true)
    (h2 : S.cm = false) : ∀ c, c ∈ m.calls ↔ ∃ k : Fin 4, k ≠ 0 ∧ (ts k).mapped = true ∧ c = .munmap k .mapped := by
  unfold mapTimers at h
  simp only [h1, h2, Bool.not_true, Bool.not_false, Bool.false_eq_true, if_false, if_true, Option.some.injEq] at h
  subst h
  intro c
  unfold unmapCalls
  simp only [List.mem_filterMap, List.mem_finRange, true_and]
  constructor
  · rintro ⟨k, hk⟩
    by_cases hm : ((put ts 0 (cleared A (ts 0))) k).mapped = true
    · have e : ptrs (put ts 0 (cleared A (ts 0))) k = .mapped := by unfold ptrs; rw [if_pos hm]
      rw [e, if_neg (by decide)] at hk
      cases hk
      have hk0 : k ≠ 0 := by rintro rfl; simp [put, cleared] at hm
      exact ⟨k, hk0, by simpa [put, hk0] using hm, rfl⟩
    · have e : ptrs (put ts 0 (cleared A (ts 0))) k = .null := by unfold ptrs; rw [if_neg hm]
      rw [e, if_pos rfl] at hk
      cases hk
  · rintro ⟨k, hk0, hm, rfl⟩
    refine ⟨k, ?_⟩
    have e : ptrs (put ts 0 (cleared A (ts 0))) k = .mapped := by unfold ptrs put; simp [hk0, hm]
    rw [e, if_neg (by decide)]

/-- Without mapping, nothing the program does with its outputs has an effect. -/
theorem C97_failed {S : Sys} {fuel : Nat} {ts : Timers F} {m : Mapping F} (h : mapTimers A S fuel ts = some m) (ho : m.ok = false)
    (h0 : ∀ k, (ts k).mapped = false) (us : List (Use F)) : us.foldl (use A) m.timers = m.timers := by
  funext k
  exact ((C97_calls us m.timers k).2 (.inr ((C97_map h).2.2.1 ho (.inr h0) k)))

/-! ### The outputs of a cape -/

/-- Each PWM output of the cape has a timer. -/
def Timed (c : Cape) : Prop := ∀ i, timerOf (c.pwm i) ≠ none

instance (c : Cape) : Decidable (Timed c) := by unfold Timed; infer_instance

/-- Calls for all outputs, one after the other. -/
theorem all_outputs (c : Cape) (f : Timer F → Timer F) (hf : ∀ t, f (f t) = f t) (ts : Timers F) (is : List (Fin 4)) (k : Fin 4) :
    (is.foldl (fun ts i => onPin ts (c.pwm i) f) ts) k =
      if ∃ i ∈ is, timerOf (c.pwm i) = some k then f (ts k) else ts k := by
  induction is generalizing ts with
  | nil => simp
  | cons i is ih =>
    rw [List.foldl_cons, ih]
    obtain ⟨s1, s2, -⟩ := C97_separate ts (c.pwm i) f
    by_cases h : timerOf (c.pwm i) = some k
    · have hx : ∃ j ∈ i :: is, timerOf (c.pwm j) = some k := ⟨i, List.mem_cons_self .., h⟩
      rw [s2 k h, if_pos hx]
      split
      · exact hf _
      · rfl
    · rw [s1 k h]
      simp [h]

theorem start_false_twice (t : Timer F) : start A (start A t false) false = start A t false := by
  unfold start
  cases h : t.mapped <;> simp [h]

theorem setFreq_default (t : Timer F) (h : t.mapped = true) : setFreq A t 0 =
    { t with
      freq := 16000, pre := (findRatio A 16000 ratios 0).2.1, ptv := (findRatio A 16000 ratios 0).2.2
      resolution := (findRatio A 16000 ratios 0).1 % 2 ^ 32 } := by
  rw [C43_default]
  unfold setFreq
  rw [if_neg (by simp [h])]
  rfl

theorem setFreq_twice (t : Timer F) : setFreq A (setFreq A t 0) 0 = setFreq A t 0 := by
  cases h : t.mapped
  · have : setFreq A t 0 = t := by unfold setFreq; simp [h]
    rw [this, this]
  · rw [setFreq_default t h, setFreq_default]
    exact h

theorem start_mapped (t : Timer F) (on : Bool) : (start A t on).mapped = t.mapped := by
  unfold start; split_ifs <;> rfl

/-- **C97, start**: after the hardware was initialized, every mapped timer of an output stands still, set to 16 kHz with a resolution
of that frequency, whatever it did before; timers that no output has are left alone. -/
theorem C97_init (c : Cape) (ts : Timers F) (k : Fin 4) :
    ((∃ i, timerOf (c.pwm i) = some k) → initTimers A c ts k = setFreq A (start A (ts k) false) 16000 ∧
      ((ts k).mapped = true → (initTimers A c ts k).running = false ∧ (initTimers A c ts k).tclr = 0 ∧ (initTimers A c ts k).freq = 16000)) ∧
    ((¬ ∃ i, timerOf (c.pwm i) = some k) → initTimers A c ts k = ts k) := by
  have e : initTimers A c ts k = if ∃ i, timerOf (c.pwm i) = some k then setFreq A (start A (ts k) false) 16000 else ts k := by
    unfold initTimers
    rw [all_outputs c (setFreq A · 0) setFreq_twice, all_outputs c (start A · false) start_false_twice]
    simp only [List.mem_finRange, true_and]
    split
    · rw [C43_default]
    · rfl
  constructor
  · intro h
    rw [e, if_pos h]
    refine ⟨rfl, fun hm => ?_⟩
    have hs : start A (ts k) false = { ts k with tclr := 0, running := false } := by
      unfold start; simp [hm]
    rw [hs, ← C43_default, setFreq_default]
    · exact ⟨rfl, rfl, rfl⟩
    · exact hm
  · intro h
    rw [e, if_neg h]

/-- **C97, reset**: stops every timer of an output, and only them. -/
theorem C97_reset (c : Cape) (ts : Timers F) (k : Fin 4) :
    ((∃ i, timerOf (c.pwm i) = some k) → (ts k).mapped = true →
      resetTimers A c ts k = { ts k with tclr := 0, running := false }) ∧
    ((¬ ∃ i, timerOf (c.pwm i) = some k) → resetTimers A c ts k = ts k) := by
  have e : resetTimers A c ts k = if ∃ i, timerOf (c.pwm i) = some k then start A (ts k) false else ts k := by
    unfold resetTimers
    rw [all_outputs c (start A · false) start_false_twice]
    simp
  constructor
  · intro h hm
    rw [e, if_pos h]
    unfold start
    simp [hm]
  · intro h
    rw [e, if_neg h]

section
variable [Field F] [LinearOrder F] [IsStrictOrderedRing F]

/-- **C97, output**: on mapped timers that were initialized, an output with a timer and a value above 0 and up to 1 makes this timer,
and no other, run with this duty cycle, its high time within 3 clock cycles (of 1500) of it; a value of 0 or less stops it. The value of an output
without a timer has no effect. -/
theorem C97_output_partial (ex : Exact A) (c : Cape) (ts : Timers F) (k : Fin 4) (hm : (ts k).mapped = true) (i : Fin 4)
    (hi : timerOf (c.pwm i) = some k) (v : F) :
    (∀ j, j ≠ k → output A (initTimers A c ts) (c.pwm i) v j = initTimers A c ts j) ∧
    (0 < v → v ≤ 1 →
      let t := output A (initTimers A c ts) (c.pwm i) v k
      t.running = true ∧ t.tclr = 0x1843 ∧ t.duty = v ∧ t.resolution = 1500 ∧ |((t.tmar : F) - t.tldr) - 1500 * v| ≤ 3 ∧
        1500 ≤ overflow - t.tldr ∧ overflow - t.tldr ≤ 1504) ∧
    (v ≤ 0 → (output A (initTimers A c ts) (c.pwm i) v k).running = false ∧ (output A (initTimers A c ts) (c.pwm i) v k).tclr = 0) := by
  obtain ⟨i1, i2⟩ := (C97_init (A := A) c ts k).1 ⟨i, hi⟩
  obtain ⟨-, -, -⟩ := i2 hm
  have hmi : (initTimers A c ts k).mapped = true := by
    rw [i1]
    unfold setFreq
    dsimp only
    have hs : (start A (ts k) false).mapped = true := (start_mapped _ _).trans hm
    split_ifs <;> exact hs
  refine ⟨?_, ?_, ?_⟩
  · intro j hj
    have hne : timerOf (c.pwm i) ≠ some j := by rw [hi]; intro e; exact hj (Option.some.inj e).symm
    unfold output
    split
    · exact (C97_separate _ _ _).1 j hne
    · rw [(C97_separate _ _ _).1 j hne, (C97_separate _ _ _).1 j hne]
  · intro h0 h1
    have e : output A (initTimers A c ts) (c.pwm i) v k = start A (setDuty A (setFreq A (start A (ts k) false) 16000) v) true := by
      unfold output
      rw [if_neg (by rw [ex.le, ex.zero]; simpa using h0), (C97_separate _ _ _).2.1 k hi, (C97_separate _ _ _).2.1 k hi, i1]
    have hs : (start A (ts k) false).mapped = true := (start_mapped _ _).trans hm
    obtain ⟨r1, r2, -⟩ := C43_runs ex _ hs 16000 (by decide) (by decide) v h0 h1
    obtain ⟨d1, d2, d3, -, -, -, d7, d8, d9⟩ := C43_duty ex _ hs 16000 (by decide) (by decide) v h0 h1
    have keep : ∀ (t : Timer F) on, (start A t on).duty = t.duty ∧ (start A t on).resolution = t.resolution ∧
        (start A t on).tmar = t.tmar ∧ (start A t on).tldr = t.tldr := by
      intro t on; unfold start; split_ifs <;> exact ⟨rfl, rfl, rfl, rfl⟩
    have hres : (baseClock / 16000).toNat = 1500 := by decide
    rw [hres] at d1
    rw [d1] at d7 d8 d9
    intro t
    have ht : t = start A (setDuty A (setFreq A (start A (ts k) false) 16000) v) true := e
    clear_value t
    obtain ⟨k1, k2, k3, k4⟩ := keep (setDuty A (setFreq A (start A (ts k) false) 16000) v) true
    rw [ht, k1, k2, k3, k4]
    refine ⟨r1, r2, d3, d1, ?_, d8, d9⟩
    exact_mod_cast d7
  · intro h
    have e : output A (initTimers A c ts) (c.pwm i) v k = { initTimers A c ts k with tclr := 0, running := false } := by
      unfold output
      rw [if_pos (by rw [ex.le, ex.zero]; simpa using h), (C97_separate _ _ _).2.1 k hi]
      unfold start
      simp [hmi]
    rw [e]
    exact ⟨rfl, rfl⟩

/-- **C97, too large**: a value above 1 is not cut off to 1: the timer goes on with the duty cycle it had. -/
theorem C97_too_large (ex : Exact A) (ts : Timers F) (g : Nat) (v : F) (hv : 1 < v) :
    output A ts g v = onPin ts g (start A · true) := by
  have h0 : ¬ v ≤ 0 := not_le.2 (lt_trans zero_lt_one hv)
  unfold output
  rw [if_neg (by rw [ex.le, ex.zero]; simpa using h0)]
  congr 1
  unfold onPin
  split
  · rfl
  · rename_i k _
    show put ts k (setDuty A (ts k) v) = ts
    rw [(C43_refused ex (ts k) v).1 (.inr hv)]
    funext j
    unfold put
    split
    · subst j; rfl
    · rfl

end

/-- The timers as they are seen in the model of the hardware (`Hardware.Hw`), where each pin has `pwmOn` and a duty cycle: the same for the pins
with a timer, all timers being mapped and having a frequency. -/
def Seen (h : Hardware.Hw F) (ts : Timers F) : Prop :=
  ∀ g k, timerOf g = some k → (ts k).mapped = true ∧ (ts k).freq ≠ 0 ∧ h.pwmOn g = (ts k).running ∧
    (h.pwmOn g = true → h.duty g = (ts k).duty)

/-- It holds after the hardware was initialized, whatever was before, if every timer is the one of an output (BUMPS and VGEN5). -/
theorem C97_seen_init (c : Cape) (hc : ∀ k, ∃ i, timerOf (c.pwm i) = some k) (ts : Timers F) (hm : ∀ k, (ts k).mapped = true)
    (h : Hardware.Hw F) : Seen { h with pwmOn := fun _ => false } (initTimers A c ts) := by
  intro g k _
  obtain ⟨e, f⟩ := (C97_init (A := A) c ts k).1 (hc k)
  obtain ⟨f1, -, f3⟩ := f (hm k)
  refine ⟨?_, by rw [f3]; decide, f1.symm, by intro x; cases x⟩
  rw [e, ← C43_default, setFreq_default]
  · exact (start_mapped _ _).trans (hm k)
  · exact (start_mapped _ _).trans (hm k)

example : (∀ k, ∃ i, timerOf (bumps.pwm i) = some k) ∧ (∀ k, ∃ i, timerOf (vgen5.pwm i) = some k) := by decide

section
variable [Field F] [LinearOrder F] [IsStrictOrderedRing F]

/-- **C97, in the machine**: the model of the hardware used by the other properties shows what the timers do: this is kept by setting any
output of initialized hardware to any value up to 1. -/
theorem C97_seen (ex : Exact A) (h : Hardware.Hw F) (ts : Timers F) (hs : Seen h ts) (hi : h.initialized = true) (o : Hardware.Output) (v : F)
    (hv : v ≤ 1) :
    Seen (Hardware.setPwmOutput h o v (!A.le v A.zero)) (output A ts (h.pwmOf o) v) := by
  have hz : timerOf 0 = none := by decide
  intro g k hg
  have hg0 : g ≠ 0 := by rintro rfl; rw [hz] at hg; cases hg
  obtain ⟨m1, m2, m3, m4⟩ := hs g k hg
  by_cases hp : h.pwmOf o = g
  · subst hp
    by_cases h0 : v ≤ 0
    · have hl : A.le v A.zero = true := by rw [ex.le, ex.zero]; simpa using h0
      have e1 : output A ts (h.pwmOf o) v k = { ts k with tclr := 0, running := false } := by
        unfold output
        rw [if_pos hl, (C97_separate _ _ _).2.1 k hg]
        unfold start
        simp [m1]
      rw [e1, hl]
      unfold Hardware.setPwmOutput Hardware.pwmStart
      rw [if_neg hg0]
      refine ⟨m1, m2, ?_, ?_⟩ <;> simp [hi]
    · have hl : A.le v A.zero = false := by rw [ex.le, ex.zero]; simpa using h0
      rw [not_le] at h0
      have e1 : output A ts (h.pwmOf o) v k = start A (setDuty A (ts k) v) true := by
        unfold output
        rw [hl, if_neg (by simp), (C97_separate _ _ _).2.1 k hg, (C97_separate _ _ _).2.1 k hg]
      have e2 : ∃ a b, setDuty A (ts k) v = { ts k with tcrr := a, tldr := a, tmar := b, duty := v } := by
        unfold setDuty
        rw [if_neg (by simp [m1]), if_neg (by simp [ex.lt, ex.zero, ex.ofInt, m2, h0.le, hv]),
          if_neg (by simp [ex.eq, ex.zero, h0.ne'])]
        exact ⟨_, _, rfl⟩
      obtain ⟨a, b, e2⟩ := e2
      have e3 : ∃ w, start A (setDuty A (ts k) v) true =
          { ts k with tcrr := a, tldr := a, tmar := b, duty := v, tclr := w, running := true } := by
        rw [e2]
        unfold start
        rw [if_neg (by simp [m1]), if_neg (by simp [ex.eq, ex.zero, m2, h0.ne'])]
        exact ⟨_, rfl⟩
      obtain ⟨w, e3⟩ := e3
      rw [e1, e3, hl]
      unfold Hardware.setPwmOutput Hardware.pwmStart Hardware.pwmDuty
      rw [if_neg hg0]
      refine ⟨m1, m2, ?_, ?_⟩ <;> simp [hg0, hi]
  · have hne' : timerOf (h.pwmOf o) ≠ some k := by
      intro e
      exact hp (C97_pins.2.1 _ _ _ e hg)
    have e1 : output A ts (h.pwmOf o) v k = ts k := by
      unfold output
      split
      · exact (C97_separate _ _ _).1 k hne'
      · rw [(C97_separate _ _ _).1 k hne', (C97_separate _ _ _).1 k hne']
    have e2 : (Hardware.setPwmOutput h o v (!A.le v A.zero)).pwmOn g = h.pwmOn g ∧
        (Hardware.setPwmOutput h o v (!A.le v A.zero)).duty g = h.duty g := by
      unfold Hardware.setPwmOutput Hardware.pwmStart Hardware.pwmDuty
      split_ifs <;> simp [Ne.symm hp]
    rw [e1, e2.1, e2.2]
    exact ⟨m1, m2, m3, m4⟩

end

/-- **C97, capes**: on BUMPS and VGEN5 every PWM output has a timer of its own; Pockegotion has no PWM outputs. -/
theorem C97_capes : Timed bumps ∧ Timed vgen5 ∧ (∀ i j, timerOf (bumps.pwm i) = timerOf (bumps.pwm j) → i = j) ∧
    (∀ i j, timerOf (vgen5.pwm i) = timerOf (vgen5.pwm j) → i = j) ∧ ∀ i, pockegotion.pwm i = notMapped := by
  refine ⟨by decide, by decide, by decide, by decide, by decide⟩

/-- **C97, violated on CRAMPS**: its PWM outputs (heaters and fans) are on pins, but none of these has a timer: no value of any output changes
anything. -/
theorem C97_cramps (ts : Timers F) (i : Fin 4) (v : F) : cramps.pwm i ≠ notMapped ∧ timerOf (cramps.pwm i) = none ∧
    output A ts (cramps.pwm i) v = ts ∧ initTimers A cramps ts = ts := by
  have h : ∀ i, timerOf (cramps.pwm i) = none := by decide
  have hp : ∀ (ts : Timers F) i f, onPin ts (cramps.pwm i) f = ts := by
    intro ts i f; unfold onPin; rw [h i]
  refine ⟨by revert i; decide, h i, ?_, ?_⟩
  · unfold output
    split
    · exact hp _ _ _
    · rw [hp, hp]
  · funext k
    exact (C97_init cramps ts k).2 (by rintro ⟨j, hj⟩; rw [h j] at hj; cases hj)

/-- **C97, again**: when the timers are mapped a second time, the first timer starts from nothing, the others with what they had
(`sizeof(*timers)` is the size of one of the four). -/
theorem C97_again {S : Sys} {fuel : Nat} {ts : Timers F} {m : Mapping F} (h : mapTimers A S fuel ts = some m) :
    (m.timers 0).duty = A.zero ∧ (m.timers 0).freq = 0 ∧ (m.timers 0).running = false ∧
    ∀ k, k ≠ 0 → (m.timers k).duty = (ts k).duty ∧ (m.timers k).freq = (ts k).freq ∧ (m.timers k).running = (ts k).running := by
  have hput : ∀ k, k ≠ 0 → put ts 0 (cleared A (ts 0)) k = ts k := by
    intro k hk; unfold put; rw [if_neg hk]
  have h0 : put ts 0 (cleared A (ts 0)) 0 = cleared A (ts 0) := by unfold put; rw [if_pos rfl]
  have key : ∀ k, ∃ b, m.timers k = { (put ts 0 (cleared A (ts 0))) k with mapped := b } := by
    intro k
    unfold mapTimers at h
    dsimp only at h
    split at h
    · cases h; exact ⟨_, rfl⟩
    · split at h
      · cases h; exact ⟨false, rfl⟩
      · rcases he : enableClocks S fuel with _ | clocks
        · simp [he] at h
        · simp only [he, Option.map_some, Option.some.injEq] at h
          subst h
          split
          · exact ⟨true, rfl⟩
          · exact ⟨false, rfl⟩
  refine ⟨?_, ?_, ?_, fun k hk => ?_⟩
  · obtain ⟨b, e⟩ := key 0; rw [e, h0]; rfl
  · obtain ⟨b, e⟩ := key 0; rw [e, h0]; rfl
  · obtain ⟨b, e⟩ := key 0; rw [e, h0]; rfl
  · obtain ⟨b, e⟩ := key k; rw [e, hput k hk]; exact ⟨rfl, rfl, rfl⟩

/-- **C97, violated**: when a timer cannot be mapped, `munmap` is called with `MAP_FAILED`. -/
theorem C97_munmap_failed {S : Sys} {fuel : Nat} {ts : Timers F} {clocks : List Call} (hm : S.mem = true) (hc : S.cm = true)
    (he : enableClocks S fuel = some clocks) (k : Fin 4) (hk : S.timer k = false) :
    ∃ m j, mapTimers A S fuel ts = some m ∧ S.timer j = false ∧ Call.munmap j .failed ∈ m.calls := by
  have hl : ∀ (ks : List (Fin 4)) p, k ∈ ks → ∃ j, S.timer j = false ∧ (mapLoop S ks p).1 j = .failed ∧ (mapLoop S ks p).2.2 = false := by
    intro ks
    induction ks with
    | nil => intro p h; cases h
    | cons a ks ih =>
      intro p h
      unfold mapLoop
      dsimp only
      cases ha : S.timer a
      · exact ⟨a, ha, by simp, by simp⟩
      · simp only [if_true]
        have : k ∈ ks := by
          rcases List.mem_cons.1 h with e | e
          · subst e; rw [hk] at ha; cases ha
          · exact e
        exact ih _ this
  obtain ⟨j, j1, j2, j3⟩ := hl (List.finRange 4) (ptrs (put ts 0 (cleared A (ts 0)))) (List.mem_finRange k)
  unfold mapTimers
  dsimp only
  rw [hm, hc, he]
  simp only [Bool.not_true, Bool.false_eq_true, if_false, Option.map_some, j3]
  refine ⟨_, j, rfl, j1, ?_⟩
  apply List.mem_append_right
  unfold unmapCalls
  rw [List.mem_filterMap]
  exact ⟨j, List.mem_finRange j, by rw [j2]; rfl⟩

/-- There are systems where all goes well, and where a timer cannot be mapped. -/
example : (enableClocks ⟨true, true, fun k => k ≠ 2, fun _ n => if n < 3 then 0x30000 else 2⟩ 5).isSome = true := by decide

end BeagleG.Pwm
