import Verif.Planner.Model
/-!
# Model of `/repo/src/pwm-timer.cc`

One of the four timers that generate the PWM outputs.

Simplifications:
* The memory mapped registers are fields of the timer; `mapped` is `regs != NULL`.
* Floating point is that of `Planner.Arith`; the conversion to `uint64_t` is `toInt`.
* Values of type `uint32_t` are `Nat`, operations on them are reduced modulo 2^32.
* Finding the timer of a pin and mapping the registers is in `Pwm.Timers`.
-/
namespace BeagleG.Pwm

open Planner (Arith)

variable {F : Type}

/-- `TIMER_OVERFLOW`, line 90. -/
def overflow : Nat := 0xffffffff

/-- `TIMER_BASE_CLOCK`, line 89. -/
def baseClock : Int := 24000000

/-- `struct pwm_timer_data`, lines 95-105, with its registers. -/
structure Timer (F : Type) where
  mapped : Bool
  freq : Int
  resolution : Nat
  duty : F
  pre : Nat
  ptv : Nat
  running : Bool
  tclr : Nat
  tcrr : Nat
  tldr : Nat
  tmar : Nat

section
variable (A : Arith F)

/-- `pwm_timer_start`, lines 127-146. -/
def start (t : Timer F) (on : Bool) : Timer F :=
  if !t.mapped then t
  else if !on || t.freq == 0 || A.eq t.duty A.zero then { t with tclr := 0, running := false }
  else
    { t with
      tclr := 1 ||| 2 ||| ((t.ptv &&& 7) <<< 2) ||| (if t.pre ≠ 0 then 1 <<< 5 else 0) ||| 1 <<< 6
        ||| 2 <<< 10 ||| 1 <<< 12
      running := true }

/-- `a - b` of `uint32_t`. pwm-timer.cc 148-208. -/
def sub32 (a b : Nat) : Nat := (a + 2 ^ 32 - b % 2 ^ 32) % 2 ^ 32

/-- The register values for a resolution and the truncated product `low`, lines 158-169: the load and the
match register. -/
def registers (resolution low : Nat) : Nat × Nat :=
  let start := sub32 overflow resolution
  let dc := sub32 overflow low
  let start := if sub32 overflow start ≤ 2 then overflow - 2 else start
  let dc := if sub32 overflow dc ≤ 2 then overflow - 2 else dc
  let start := if sub32 dc start ≤ 2 then sub32 dc 2 else start
  (start, dc)

/-- `pwm_timer_set_duty`, lines 148-173. -/
def setDuty (t : Timer F) (duty : F) : Timer F :=
  if !t.mapped then t
  else if t.freq == 0 || A.lt duty A.zero || A.lt (A.ofInt 1) duty then t
  else if A.eq duty A.zero then { start A t false with duty := duty }
  else
    let r := registers t.resolution (A.toU32 (A.mul (A.ofInt t.resolution) (A.sub (A.ofInt 1) duty)))
    { t with tcrr := r.1, tldr := r.1, tmar := r.2, duty := duty }

/-- The prescale ratios and their `pre` and `ptv` values, lines 184-203. -/
def ratios : List (Int × Nat × Nat) :=
  [(1, 0, 0), (2, 1, 0), (4, 1, 1), (8, 1, 2), (16, 1, 3), (32, 1, 4), (64, 1, 5), (128, 1, 6),
    (256, 1, 7)]

/-- The resolution for a ratio, lines 185-186. -/
def resolutionFor (freq ratio : Int) : Nat :=
  (A.toInt (A.div (A.toFloat (A.div (A.ofInt 1) (A.ofInt freq)))
    (A.toFloat (A.mul (A.div (A.ofInt 1) (A.ofInt baseClock)) (A.ofInt ratio))))).toNat

/-- The loop of `pwm_timer_calc_resolution`, lines 184-188: resolution, `pre` and `ptv`. When no ratio
fits, the last resolution and the `default` case of the `switch` are used. -/
def findRatio (freq : Int) : List (Int × Nat × Nat) → Nat → Nat × Nat × Nat
  | [], last => (last, 0, 0)
  | (ratio, pre, ptv) :: rest, _ =>
    let r := resolutionFor A freq ratio
    if r < overflow then (r, pre, ptv) else findRatio freq rest r

/-- `pwm_timer_set_freq` with `pwm_timer_calc_resolution`, lines 175-222. -/
def setFreq (t : Timer F) (freq : Int) : Timer F :=
  if !t.mapped then t
  else
    let freq := if freq = 0 then 16000 else freq
    if freq > baseClock / 2 then { t with freq := 0 }
    else
      let r := findRatio A freq ratios 0
      { t with freq := freq, pre := r.2.1, ptv := r.2.2, resolution := r.1 % 2 ^ 32 }

end
end BeagleG.Pwm
