import Verif.Spindle.Model
/-!
# C57: commands to the Pololu motor controller
-/
namespace BeagleG.Spindle

/-- The speed the controller understands from the two data bytes (Pololu's protocol: low five bits
first). -/
def SmcAct.speed : SmcAct → Option Nat
  | .target _ low high => some (low + 32 * high)
  | _ => none

theorem waitSpeed_done {report : Nat → Int} {done : Int → Bool} {fuel n m : Nat}
    (h : waitSpeed report done fuel n = some m) : ∃ k, m = k + 1 ∧ n ≤ k ∧ done (report k) = true := by
  induction fuel generalizing n with
  | zero =>
    unfold waitSpeed at h
    split at h
    · rename_i hd
      injection h with h
      exact ⟨n, h.symm, Nat.le_refl _, hd⟩
    · cases h
  | succ f ih =>
    unfold waitSpeed at h
    split at h
    · rename_i hd
      injection h with h
      exact ⟨n, h.symm, Nat.le_refl _, hd⟩
    · obtain ⟨k, h1, h2, h3⟩ := ih h
      exact ⟨k, h1, by omega, h3⟩

theorem waitSpeed_never {report : Nat → Int} {done : Int → Bool} (h : ∀ n, done (report n) = false)
    (fuel n : Nat) : waitSpeed report done fuel n = none := by
  induction fuel generalizing n with
  | zero => simp [waitSpeed, h]
  | succ f ih => simp [waitSpeed, h, ih]

theorem smcSpeed_eq {cfg : Config} {rpm sp : Int} (hr : 0 ≤ rpm) (h : smcSpeed cfg rpm = some sp) :
    sp = min (rpm * 3200 / cfg.maxRpm) 3200 ∧ rpm * 3200 < 2 ^ 31 := by
  unfold smcSpeed smcMaxSpeed at h
  split at h
  · cases h
  · rename_i hn
    injection h with h
    refine ⟨?_, by omega⟩
    rw [← h, Int.tdiv_eq_ediv_of_nonneg (by omega)]

/-- **C57.** The speed is defined exactly if there is a maximum and the product fits an `int`: up to 671088 rpm. -/
theorem C57_defined (cfg : Config) (rpm : Int) (hr : 0 ≤ rpm) : (smcSpeed cfg rpm).isSome ↔ cfg.maxRpm ≠ 0 ∧ rpm ≤ 671088 := by
  unfold smcSpeed smcMaxSpeed
  split
  · rename_i h
    simp only [Option.isSome_none, Bool.false_eq_true, false_iff]
    rintro ⟨h1, h2⟩
    rcases h with h | h | h
    · exact h1 h
    · omega
    · omega
  · rename_i h
    simp only [Option.isSome_some, true_iff]
    exact ⟨fun h1 => h (.inl h1), by omega⟩

/-- **C57.** A speed of `rpm` is sent as two seven bit data bytes that encode `rpm` scaled to the range
0..3200 of the controller and never more than 3200, with the command of the requested direction. -/
theorem C57_target (cfg : Config) (report : Nat → Int) (fuel : Nat) (s s' : SmcState) (ccw : Bool)
    (rpm : Int) (l : List SmcAct) (hm : 0 < cfg.maxRpm) (hr : 0 ≤ rpm)
    (h : smcOn cfg report fuel s ccw rpm = some (s', l)) (a : SmcAct) (ha : a ∈ l) :
    ∀ command low high, a = .target command low high →
      low < 32 ∧ high < 128 ∧ (low + 32 * high : Int) = min (rpm * 3200 / cfg.maxRpm) 3200 ∧
      command = (if ccw then 0x86 else 0x85) ∧ (ccw = true → cfg.allowCcw = true) := by
  intro command low high e
  unfold smcOn at h
  by_cases hx : (!cfg.allowCcw && ccw) = true
  · rw [if_pos hx] at h
    injection h with h
    injection h with h1 h2
    subst h2
    cases ha
  · rw [if_neg hx] at h
    have hccw : ccw = true → cfg.allowCcw = true := by intro g; subst g; simpa using hx
    obtain ⟨sp, hsp, h⟩ := Option.bind_eq_some_iff.1 h
    obtain ⟨hq0, hq1⟩ := smcSpeed_eq hr hsp
    have hq : 0 ≤ rpm * 3200 / cfg.maxRpm := Int.ediv_nonneg (by omega) (by omega)
    subst hq0
    generalize rpm * 3200 / cfg.maxRpm = q at *
    have key : ∀ sp : Int, 0 ≤ sp → sp ≤ 3200 → setTargetSpeed ccw sp = .target command low high →
        low < 32 ∧ high < 128 ∧ (low + 32 * high : Int) = sp ∧
          command = (if ccw then 0x86 else 0x85) := by
      intro sp h0 h1 e
      unfold setTargetSpeed at e
      injection e with e1 e2 e3
      omega
    have hfin : setTargetSpeed ccw (min q 3200) = .target command low high := by
      by_cases ho : s.isOff = true
      · rw [if_pos ho] at h
        simp only [Option.map_eq_some_iff] at h
        obtain ⟨n, -, h2⟩ := h
        injection h2 with h2 h3
        subst h3 e
        simp only [List.mem_cons, reduceCtorEq, List.not_mem_nil, or_false, false_or] at ha
        exact ha.symm
      · rw [if_neg ho] at h
        injection h with h
        injection h with h2 h3
        subst h3 e
        simp only [List.mem_cons, List.not_mem_nil, or_false] at ha
        exact ha.symm
    obtain ⟨k1, k2, k3, k4⟩ := key (min q 3200) (by omega) (by omega) hfin
    exact ⟨k1, k2, k3, k4, hccw⟩

/-- **C57.** `Off` stops the motor and removes power only after the controller reported a speed of
zero. -/
theorem C57_off (report : Nat → Int) (fuel : Nat) (s s' : SmcState) (l : List SmcAct)
    (h : smcOff report fuel s = some (s', l)) :
    l = [.stop, .power false] ∧ s'.isOff = true ∧
      ∃ k, s.queries ≤ k ∧ s'.queries = k + 1 ∧ report k = 0 := by
  unfold smcOff at h
  simp only [Option.map_eq_some_iff] at h
  obtain ⟨n, h1, h2⟩ := h
  injection h2 with h2 h3
  subst h2 h3
  obtain ⟨k, e1, e2, e3⟩ := waitSpeed_done h1
  exact ⟨rfl, rfl, k, e2, e1, by simpa using e3⟩

/-- Not as intended: the wait after switching on compares the reported speed, which is negative while
the motor turns in reverse, with the positive requested speed. With such a controller, `M4` on a spindle
that is off never returns. -/
theorem C57_reverse_never_returns (cfg : Config) (report : Nat → Int) (fuel : Nat) (s : SmcState)
    (rpm : Int) (hm : 0 < cfg.maxRpm) (hs : cfg.maxRpm ≤ rpm * 3200) (hd : rpm ≤ 671088) (hoff : s.isOff = true)
    (hallow : cfg.allowCcw = true) (hrev : ∀ n, report n ≤ 0) :
    smcOn cfg report fuel s true rpm = none := by
  have hr : 0 ≤ rpm := by omega
  obtain ⟨sp, hsp⟩ := Option.isSome_iff_exists.1 ((C57_defined cfg rpm hr).2 ⟨by omega, hd⟩)
  obtain ⟨h0, -⟩ := smcSpeed_eq hr hsp
  unfold smcOn
  rw [if_neg (by simp [hallow]), hsp]
  simp only [hoff, if_true, Option.map_eq_none_iff, Option.bind_some]
  apply waitSpeed_never
  intro n
  have h1 : 1 ≤ rpm * 3200 / cfg.maxRpm := by
    rw [Int.le_ediv_iff_mul_le hm]; omega
  have := hrev n
  apply decide_eq_false
  omega

/-- Not vacuous. -/
example : smcOn ⟨3000, true⟩ (fun _ => 3200) 5 ⟨true, 0⟩ false 1500 =
    some (⟨false, 1⟩, [.power true, .exitSafeStart, .target 0x85 0 50]) := by decide

example : smcOff (fun n => if n < 3 then 100 else 0) 5 ⟨false, 1⟩ =
    some (⟨true, 4⟩, [.stop, .power false]) := by decide

end BeagleG.Spindle
