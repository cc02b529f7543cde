import Verif.Sim.Audio

/-!
# Model of `/repo/src/sim-firmware.cc`: the table

What `SimFirmwareQueue` prints for each loop (with `JERK_EXPERIMENT` 0; messages on `stderr` and the remarks in the last
column are in `Sim.Remarks`). Numbers are exact (in the source `double`), and not rounded for printing. The steps and delays
are the same as in `StepGen.simLoop`, here with the times and all rows.
-/
namespace BeagleG.Sim

open StepGen (Motor MotionSegment Regs simDelay)
open Idiv (reg)

/-! ## `Averager` -/

/-- `Averager`, lines 140-142. -/
structure Averager where
  ring : Fin 10 → ℚ
  sum : ℚ
  pos : Nat

/-- Initial values. sim-firmware.cc 140-142. -/
def Averager.init : Averager := { ring := fun _ => 0, sum := 0, pos := 0 }

/-- Index in the ring. sim-firmware.cc 121-123, 132. -/
def slot (n : Nat) : Fin 10 := ⟨n % 10, Nat.mod_lt _ (by decide)⟩

/-- `PushDeltaTime`, lines 131-137; `pos_` is an `int` (that it overflows after 2³¹ loops is left out). -/
def Averager.push (a : Averager) (t : ℚ) : Averager :=
  { ring := fun i => if i = slot (a.pos + 1) then t else a.ring i
    sum := a.sum - a.ring (slot (a.pos + 1)) + t
    pos := a.pos + 1 }

/-- `GetAcceleration`, lines 113-129. -/
def Averager.acceleration (a : Averager) : ℚ :=
  if a.pos < 2 then 0
  else
    let back := if 9 ≥ a.pos then a.pos - 1 else 9
    let dt0 := a.ring (slot (a.pos + 10 - back))
    let dt1 := a.ring (slot a.pos)
    if dt0 ≤ 0 ∨ dt1 ≤ 0 then 0
    else
      let v0 := 1 / dt0 / 2
      let v1 := 1 / dt1 / 2
      (v1 - v0) / (a.sum - dt1)

/-! ## `Enqueue` -/

/-- A row, lines 313-321. Speeds and accelerations of motors are the first two times `motor_speeds`; of `velocity` there
is none if the delay is zero (the source divides by zero and prints `inf`). -/
structure Row where
  time : ℚ
  loops : Nat
  velocity : Option ℚ
  acceleration : ℚ
  steps : Motor → Int

/-- `motor_speeds`, lines 172-176. -/
def motorSpeed (s : MotionSegment) (i : Motor) : ℚ := s.fractions i / 2147483647

/-- The columns of a motor, lines 317-320: steps, speed, acceleration. -/
def Row.columns (r : Row) (s : MotionSegment) (i : Motor) : Int × Option ℚ × ℚ :=
  (r.steps i, r.velocity.map (motorSpeed s i * ·), motorSpeed s i * r.acceleration)

/-- `velocity`, line 311. -/
def velocity (loops : Nat) : Option ℚ := if loops = 0 then none else some (1 / waitTime loops / 2)

/-- `hires_delay`, lines 256-257, 267 and 295-296: before and after `simDelay`. -/
def hiresDelay (r r' : Regs) : ℚ :=
  if r.loopsAccel > 0 then r'.cycles / 2 ^ 5
  else if r.loopsTravel > 0 then r.travelDelay
  else r'.cycles / 2 ^ 5

/-- `sim_steps` after an update, lines 189-197. -/
def count (fr : Motor → Nat) (dir : Motor → Bool) (m : Motor → Nat) (steps : Motor → Int) : Motor → Int := fun i =>
  if !(m i).testBit 31 && (reg (m i + fr i)).testBit 31 then steps i + (if dir i then -1 else 1) else steps i

/-- What lives longer than a segment: lines 150-151 and the averager. -/
structure Table where
  time : ℚ
  steps : Motor → Int
  averager : Averager

/-- Initial values. sim-firmware.cc 150-151. -/
def Table.init : Table := { time := 0, steps := fun _ => 0, averager := .init }

/-- The loop of `Enqueue`, lines 187-322. -/
def tableLoop (fr : Motor → Nat) (dir : Motor → Bool) :
    (fuel : Nat) → Regs → (Motor → Nat) → Table → Option (List Row × Table)
  | 0, _, _, _ => none
  | fuel + 1, r, m, t =>
    let m' := fun i => reg (m i + fr i)
    let steps' := count fr dir m t.steps
    match simDelay r with
    | none => some ([], { t with time := t.time + updateTime, steps := steps' })
    | some (r', d) =>
      let averager' := t.averager.push (hiresDelay r r' / 100000000)
      let time' := t.time + updateTime + waitTime d
      let row : Row := { time := time', loops := d, velocity := velocity d
                         acceleration := averager'.acceleration, steps := steps' }
      (tableLoop fr dir fuel r' m' { time := time', steps := steps', averager := averager' }).map fun p =>
        (row :: p.1, p.2)

/-- `Enqueue`, lines 165-324; `none` in place of a segment is the exit marker. -/
def Table.enqueue (t : Table) : Option MotionSegment → Option (List Row × Table)
  | none => some ([], t)
  | some s => tableLoop s.fractions s.dirPin (s.loops + 1) (Regs.simLoad s) (fun _ => 0) t

/-! ## The heading -/

/-- Where something is printed to. sim-firmware.cc 326-340: `printf` and `fprintf(out_, …)`. -/
inductive Stream where
  | stdout
  | out
  deriving DecidableEq

/-- The constructor, lines 326-340: the streams to which the heading goes, for `relevant_motors`. -/
def heading (relevant : Nat) : List Stream :=
  [.stdout] ++ List.replicate (min relevant 8) .out ++ [.out]

end BeagleG.Sim
