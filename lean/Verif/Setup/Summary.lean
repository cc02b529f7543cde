import Verif.Setup.InitProps
import Verif.Setup.Example
/-!
# The summary of the configuration at the start (C103)

`GCodeMachineControl::Impl::Init` logs a line for every axis that has a motor, gcode-machine-control.cc 277-328, with
the motors as `HardwareMapping::DebugMotorString` names them, hardware-mapping.cc 277-288. The lines come from the same
loop that assigns motors to the axes without one, so it matters what is assigned after a line has been written.

Simplification: the parts of a line are kept apart instead of being printed one behind the other.
-/
namespace BeagleG.Setup

open Text Hardware
open Planner (Axis Motor Arith)

variable {F : Type}

/-- The loop of `DebugMotorString`, hardware-mapping.cc 277-288, on the bits of an axis. `%d` of the number of a motor
is one digit here, because there are eight motors. -/
def motorNames (b : BitVec 8) : List Byte :=
  let r := (List.finRange 8).foldl (fun r m =>
    if b.getLsbD m.val then (if r = [] then r else r ++ ascii ", ") ++ [UInt8.ofNat (49 + m.val)] else r) []
  if r = [] then ascii "<none>" else r

/-- `DebugMotorString`, hardware-mapping.cc 277-288. -/
def debugMotorString (h : Hw F) (a : Axis) : List Byte := motorNames (h.axisToDriver a)

/-- The texts `|<-HOME@min; `, `PROBE@max->|; `, `|<-PROBE@min; `, `HOME@max->|; `, gcode-machine-control.cc 307-315. -/
inductive Mark where
  | homeMin | probeMax | probeMin | homeMax
  deriving DecidableEq

/-- The parts of a line, gcode-machine-control.cc 293-326. -/
structure AxisLine (F : Type) where
  /-- the letter, by its axis -/
  axis : Axis
  motors : List Byte
  feedrate : F
  acceleration : F
  steps : F
  /-- the unit is `°` -/
  degrees : Bool
  /-- `none`: "unknown range" -/
  range : Option F
  marks : List Mark
  /-- "[ probe @ … ]" -/
  probe : Option F
  /-- "[clamped to range]" -/
  clamped : Bool
  /-- "Limit checks disabled!" -/
  unlimited : Bool

/-- The marks, gcode-machine-control.cc 307-315; `TRIGGER_MIN` is tested first, so it decides for `any`. -/
def marks (t : AxisTrigger) (probe : Bool) : List Mark :=
  match t with
  | .none => []
  | .min | .any => .homeMin :: if probe then [.probeMax] else []
  | .max => (if probe then [.probeMin] else []) ++ [.homeMax]

/-- The line of an axis, gcode-machine-control.cc 293-326. -/
def axisLine (A : Arith F) (c : Machine F) (clamped : Axis → Bool) (h : Hw F) (a : Axis) : AxisLine F where
  axis := a
  motors := debugMotorString h a
  feedrate := c.maxFeedrate a
  acceleration := c.acceleration a
  steps := c.stepsPerMm a
  degrees := a.val = 3 || a.val = 4 || a.val = 5
  range := if A.lt (A.ofInt 0) (c.moveRange a) then some (c.moveRange a) else none
  marks := marks (c.homingTrigger a) (hasProbeSwitch h a)
  probe := if hasProbeSwitch h a then some (c.maxProbeFeedrate a) else none
  clamped := clamped a
  unlimited := !c.rangeCheck

/-- A round of the last loop of `Init`, gcode-machine-control.cc 278-337, with what it logs. The errors it counts are
in `initMotor`. -/
def summaryStep (A : Arith F) (c : Machine F) (clamped : Axis → Bool) (s : Hw F × List (AxisLine F)) (a : Axis) :
    Hw F × List (AxisLine F) :=
  let h :=
    if A.lt (A.ofInt 0) (c.stepsPerMm a) && !hasMotorFor s.1 a then
      (addMotorMapping s.1 a (firstFreeMotor s.1) false).1
    else s.1
  if !hasMotorFor h a then (h, s.2) else (h, s.2 ++ [axisLine A c clamped h a])

/-- What `Init` logs with `Log_debug`, gcode-machine-control.cc 277-337; `none`: it has returned before (190-221). -/
def summary (A : Arith F) (c : Machine F) (h : Hw F) : Option (List (AxisLine F)) :=
  (initAxes A h c axes).map fun c => (axes.foldl (summaryStep A c (clampedAxes c.clampToRange)) (h, [])).2

/-! ### The motors of an axis -/

/-- The numbers of the motors are separated by a comma and a blank and ascend. -/
theorem motorNames_eq (b : BitVec 8) :
    motorNames b = if b = 0 then ascii "<none>"
      else List.intercalate (ascii ", ") (((List.finRange 8).filter fun m => b.getLsbD m.val).map
        fun m => [UInt8.ofNat (49 + m.val)]) := by
  revert b; decide +kernel

theorem motorNames_mem (b : BitVec 8) (m : Motor) :
    UInt8.ofNat (49 + m.val) ∈ motorNames b ↔ b.getLsbD m.val = true := by
  revert b m; decide +kernel

theorem motorNames_none (b : BitVec 8) : motorNames b = ascii "<none>" ↔ b = 0 := by
  revert b; decide +kernel

theorem motorNames_inj (b c : BitVec 8) (h : motorNames b = motorNames c) : b = c := by
  apply BitVec.eq_of_getLsbD_eq
  intro i hi
  have hb := motorNames_mem b ⟨i, hi⟩
  have hc := motorNames_mem c ⟨i, hi⟩
  rw [h] at hb
  exact Bool.eq_iff_iff.2 (hb.symm.trans hc)

/-- **C103** `DebugMotorString` names the motors that move with the axis and no others: a motor is named exactly if
`AssignMotorSteps` gives it the steps of the axis. -/
theorem C103_motors (h : Hw F) (a : Axis) (steps : Int) (out : Motor → Int) (m : Motor) :
    assignMotorSteps h a steps out m =
      if UInt8.ofNat (49 + m.val) ∈ debugMotorString h a then steps else out m := by
  unfold assignMotorSteps debugMotorString
  by_cases hb : (h.axisToDriver a).getLsbD m.val = true
  · rw [if_pos hb, if_pos ((motorNames_mem _ m).2 hb)]
  · rw [if_neg hb, if_neg (fun h => hb ((motorNames_mem _ m).1 h))]

/-- **C103** The form: `<none>` without a motor, otherwise the numbers from 1, ascending, separated by `, `. -/
theorem C103_form (h : Hw F) (a : Axis) :
    debugMotorString h a = if hasMotorFor h a = false then ascii "<none>"
      else List.intercalate (ascii ", ") (((List.finRange 8).filter fun m => (h.axisToDriver a).getLsbD m.val).map
        fun m => [UInt8.ofNat (49 + m.val)]) := by
  unfold debugMotorString
  rw [motorNames_eq]
  simp [hasMotorFor]

/-- Two and none. -/
example : motorNames 0b10001 = ascii "1, 5" := by decide +kernel
example : motorNames 0 = ascii "<none>" := by decide +kernel

/-! ### The loop -/

theorem addMotor_other (h : Hw F) (a b : Axis) (m : Int) (f : Bool) (hb : b ≠ a) :
    (addMotorMapping h a m f).1.axisToDriver b = h.axisToDriver b := by
  unfold addMotorMapping
  split
  · rfl
  · split
    · dsimp only
      split
      · rfl
      · exact if_neg hb
    · rfl

theorem addMotor_probe (h : Hw F) (a : Axis) (m : Int) (f : Bool) :
    (addMotorMapping h a m f).1.probeInput = h.probeInput := by
  unfold addMotorMapping
  split
  · rfl
  · split
    · dsimp only
      split <;> rfl
    · rfl

/-- The mapping after a round. -/
def mapped (A : Arith F) (c : Machine F) (h : Hw F) (a : Axis) : Hw F :=
  if A.lt (A.ofInt 0) (c.stepsPerMm a) && !hasMotorFor h a then
    (addMotorMapping h a (firstFreeMotor h) false).1
  else h

theorem initMotor_fst (A : Arith F) (c : Machine F) (s : Hw F × Nat) (a : Axis) :
    (initMotor A c s a).1 = mapped A c s.1 a := by
  unfold initMotor mapped
  by_cases h : (A.lt (A.ofInt 0) (c.stepsPerMm a) && !hasMotorFor s.1 a) = true
  · simp only [h, if_true]
    repeat' split
    all_goals rfl
  · simp only [h]
    repeat' split
    all_goals rfl

theorem summaryStep_eq (A : Arith F) (c : Machine F) (cl : Axis → Bool) (s : Hw F × List (AxisLine F)) (a : Axis) :
    summaryStep A c cl s a = (mapped A c s.1 a,
      if hasMotorFor (mapped A c s.1 a) a then s.2 ++ [axisLine A c cl (mapped A c s.1 a) a] else s.2) := by
  show (if !hasMotorFor (mapped A c s.1 a) a then _ else _) = _
  cases h : hasMotorFor (mapped A c s.1 a) a <;> simp [mapped]

theorem mapped_other (A : Arith F) (c : Machine F) (h : Hw F) {a b : Axis} (hb : b ≠ a) :
    (mapped A c h a).axisToDriver b = h.axisToDriver b := by
  unfold mapped
  split
  · exact addMotor_other _ _ _ _ _ hb
  · rfl

theorem mapped_probe (A : Arith F) (c : Machine F) (h : Hw F) (a : Axis) :
    (mapped A c h a).probeInput = h.probeInput := by
  unfold mapped
  split
  · exact addMotor_probe _ _ _ _
  · rfl

theorem fold_initMotor (A : Arith F) (c : Machine F) : ∀ (as : List Axis) (h : Hw F) (n : Nat),
    (as.foldl (initMotor A c) (h, n)).1 = as.foldl (mapped A c) h
  | [], _, _ => rfl
  | a :: as, h, n => by
    rw [List.foldl_cons, List.foldl_cons, ← initMotor_fst A c (h, n) a]
    exact fold_initMotor A c as _ _

theorem fold_other (A : Arith F) (c : Machine F) : ∀ (as : List Axis) (h : Hw F) (b : Axis), b ∉ as →
    (as.foldl (mapped A c) h).axisToDriver b = h.axisToDriver b
  | [], _, _, _ => rfl
  | a :: as, h, b, hb => by
    rw [List.foldl_cons, fold_other A c as _ b (fun h => hb (List.mem_cons_of_mem _ h)),
      mapped_other A c h (show b ≠ a from fun e => hb (by rw [e]; exact List.mem_cons_self))]

theorem fold_probe (A : Arith F) (c : Machine F) : ∀ (as : List Axis) (h : Hw F),
    (as.foldl (mapped A c) h).probeInput = h.probeInput
  | [], _ => rfl
  | a :: as, h => by rw [List.foldl_cons, fold_probe A c as, mapped_probe]

theorem axisLine_congr (A : Arith F) (c : Machine F) (cl : Axis → Bool) {h k : Hw F} {a : Axis}
    (h1 : h.axisToDriver a = k.axisToDriver a) (h2 : h.probeInput = k.probeInput) :
    axisLine A c cl h a = axisLine A c cl k a := by
  have hp : hasProbeSwitch h a = hasProbeSwitch k a := by simp only [hasProbeSwitch, h2]
  simp only [axisLine, debugMotorString, h1, hp]

theorem fold_summary (A : Arith F) (c : Machine F) (cl : Axis → Bool) : ∀ (as : List Axis) (h : Hw F)
    (l : List (AxisLine F)), as.Nodup →
    (as.foldl (summaryStep A c cl) (h, l)).2 = l ++
      (as.filter (hasMotorFor (as.foldl (mapped A c) h))).map (axisLine A c cl (as.foldl (mapped A c) h))
  | [], _, _, _ => by simp
  | a :: as, h, l, hn => by
    obtain ⟨ha, hn⟩ := List.nodup_cons.1 hn
    rw [List.foldl_cons, summaryStep_eq, fold_summary A c cl as _ _ hn, List.foldl_cons]
    have h1 : (as.foldl (mapped A c) (mapped A c h a)).axisToDriver a = (mapped A c h a).axisToDriver a :=
      fold_other A c as _ a ha
    have h2 := fold_probe A c as (mapped A c h a)
    have h3 : hasMotorFor (as.foldl (mapped A c) (mapped A c h a)) a = hasMotorFor (mapped A c h a) a := by
      simp only [hasMotorFor, h1]
    rw [List.filter_cons, h3]
    by_cases hm : hasMotorFor (mapped A c h a) a = true
    · rw [if_pos hm, if_pos hm, List.map_cons, axisLine_congr A c cl h1 h2]
      simp
    · rw [if_neg hm, if_neg hm]

/-- **C103** If the machine starts, the summary has a line for exactly the axes that have a motor when it runs, in the
order of the axes, and every line is what holds for the machine that runs, even where motors are assigned after the line
has been written. -/
theorem C103_summary (A : Arith F) (c : Machine F) (h : Hw F) (r : Ready F) (hi : init A c h = some r) :
    summary A c h = some ((axes.filter (hasMotorFor r.hw)).map (axisLine A r.config r.clamped r.hw)) := by
  unfold init at hi
  unfold summary
  cases hc : initAxes A h c axes with
  | none => rw [hc] at hi; exact absurd hi (by simp)
  | some c' =>
    rw [hc] at hi
    simp only at hi
    split at hi
    · exact absurd hi (by simp)
    · injection hi with hi
      subst hi
      simp only [Option.map_some, fold_initMotor]
      rw [fold_summary A c' _ axes h [] (List.nodup_finRange 10)]
      rfl

/-- **C103** No line of a machine that starts says `<none>`. -/
theorem C103_never_none (A : Arith F) (c : Machine F) (h : Hw F) (r : Ready F) (hi : init A c h = some r)
    (ls : List (AxisLine F)) (hs : summary A c h = some ls) (l : AxisLine F) (hl : l ∈ ls) :
    l.motors ≠ ascii "<none>" := by
  rw [C103_summary A c h r hi] at hs
  injection hs with hs
  subst hs
  obtain ⟨a, ha, rfl⟩ := List.mem_map.1 hl
  have := (List.mem_filter.1 ha).2
  intro e
  have := (motorNames_none (r.hw.axisToDriver a)).1 e
  simp_all [hasMotorFor]

/-- **C103** The other parts of a line are the values of the machine that runs, for the axis of the line: speeds, acceleration and steps of this axis,
the range if there is one, the speed of the probe if there is a probe, whether the axis is clamped, and whether limits are not checked. The unit
is degrees exactly for A, B and C. -/
theorem C103_line (A : Arith F) (c : Machine F) (h : Hw F) (r : Ready F) (hi : init A c h = some r)
    (ls : List (AxisLine F)) (hs : summary A c h = some ls) (l : AxisLine F) (hl : l ∈ ls) :
    l.feedrate = r.config.maxFeedrate l.axis ∧ l.acceleration = r.config.acceleration l.axis ∧
    l.steps = r.config.stepsPerMm l.axis ∧ (l.degrees = true ↔ 3 ≤ l.axis.val ∧ l.axis.val ≤ 5) ∧
    (∀ x, l.range = some x ↔ A.lt (A.ofInt 0) (r.config.moveRange l.axis) = true ∧ x = r.config.moveRange l.axis) ∧
    (∀ x, l.probe = some x ↔ hasProbeSwitch r.hw l.axis = true ∧ x = r.config.maxProbeFeedrate l.axis) ∧
    (l.clamped = true ↔ r.clamped l.axis = true) ∧ (l.unlimited = true ↔ r.config.rangeCheck = false) := by
  rw [C103_summary A c h r hi] at hs
  injection hs with hs
  subst hs
  obtain ⟨a, -, rfl⟩ := List.mem_map.1 hl
  refine ⟨rfl, rfl, rfl, ?_, fun x => ?_, fun x => ?_, Iff.rfl, ?_⟩
  · simp only [axisLine, Bool.or_eq_true, decide_eq_true_eq]
    omega
  · simp only [axisLine]
    split
    · rename_i hx; exact ⟨fun e => ⟨hx, (Option.some.inj e).symm⟩, fun e => by rw [e.2]⟩
    · rename_i hx; exact ⟨fun e => (nomatch e), fun e => absurd e.1 hx⟩
  · simp only [axisLine]
    split
    · rename_i hx; exact ⟨fun e => ⟨hx, (Option.some.inj e).symm⟩, fun e => by rw [e.2]⟩
    · rename_i hx; exact ⟨fun e => (nomatch e), fun e => absurd e.1 hx⟩
  · simp [axisLine]

/-- **C103** The line says at which end the axis is homed, and has the mark of the probe at the other end. -/
theorem C103_home (A : Arith F) (c : Machine F) (cl : Axis → Bool) (h : Hw F) (a : Axis)
    (ht : c.homingTrigger a ≠ .any) :
    (Mark.homeMin ∈ (axisLine A c cl h a).marks ↔ c.homingTrigger a = .min) ∧
    (Mark.homeMax ∈ (axisLine A c cl h a).marks ↔ c.homingTrigger a = .max) ∧
    (Mark.probeMax ∈ (axisLine A c cl h a).marks ↔ c.homingTrigger a = .min ∧ hasProbeSwitch h a = true) ∧
    (Mark.probeMin ∈ (axisLine A c cl h a).marks ↔ c.homingTrigger a = .max ∧ hasProbeSwitch h a = true) := by
  simp only [axisLine]
  cases ht' : c.homingTrigger a <;> cases hp : hasProbeSwitch h a <;> simp_all [marks]

/-- Non-vacuity: the X axis has the motors 2 and 3 from the file; Y has steps but no motor there and gets the first
free one, after the line of X has been written. -/
example : ((init Planner.intArith
      { (configureMachine exNum (Machine.default Planner.intArith) exFile).2 with
        stepsPerMm := fun a => if a.val < 2 then 16 else 0, maxFeedrate := fun _ => 200 }
      (configureHw cramps (Hw.blank Int) exHwFile).2).isSome,
    (summary Planner.intArith
      { (configureMachine exNum (Machine.default Planner.intArith) exFile).2 with
        stepsPerMm := fun a => if a.val < 2 then 16 else 0, maxFeedrate := fun _ => 200 }
      (configureHw cramps (Hw.blank Int) exHwFile).2).map fun l => l.map fun x => (x.axis, x.motors, x.marks))
    = (true, some [(0, ascii "2, 3", [.homeMin]), (1, ascii "1", [])]) := by decide +kernel

end BeagleG.Setup
