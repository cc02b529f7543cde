import Verif.Pwm.Model
import Verif.Firmware.Capes
/-!
# The four PWM timers together

`/repo/src/pwm-timer.cc`: which timer belongs to which pin (lines 107-125), mapping the registers and switching on the clocks (lines
224-318); and what `/repo/src/hardware-mapping.cc` does with them: lines 151-171, 196-204, 262-275.

Simplifications: `/dev/mem` and `mmap` answer as given (`Sys`). The registers of a timer belong to the hardware, so
that they stay when the memory is unmapped; the counter does not run. The messages are left out.
-/
namespace BeagleG.Pwm

open Planner (Arith)
open Firmware (p8 notMapped Cape)

variable {F : Type}

/-- `switch (gpio_def)` of `pwm_timer_get_data`, lines 109-121. -/
def timerOf (gpio : Nat) : Option (Fin 4) :=
  if gpio = p8 7 then some 0
  else if gpio = p8 9 then some 1
  else if gpio = p8 10 then some 2
  else if gpio = p8 8 then some 3
  else none

/-- `timers`, line 107. -/
abbrev Timers (F : Type) := Fin 4 → Timer F

/-- A timer is replaced. Assignment through the pointer of pwm-timer.cc 109-125. -/
def put (ts : Timers F) (k : Fin 4) (t : Timer F) : Timers F := fun j => if j = k then t else ts j

/-- A call for a pin; the calls return at once if there is no timer (and also if it is not mapped, which is part of the single
timer, lines 122, 128-129, 150-151, 211-212). -/
def onPin (ts : Timers F) (gpio : Nat) (f : Timer F → Timer F) : Timers F :=
  match timerOf gpio with
  | none => ts
  | some k => put ts k (f (ts k))

/-! ### Mapping -/

/-- `regs`: NULL, `MAP_FAILED`, or the memory. pwm-timer.cc 95-107, 268-318. -/
inductive Ptr where
  | null | failed | mapped
deriving DecidableEq, Repr

/-- Answers of the system. Answers to pwm-timer.cc 238-241, 243-309. -/
structure Sys where
  /-- `open("/dev/mem")` -/
  mem : Bool
  /-- `mmap` of the clock module -/
  cm : Bool
  /-- `mmap` of the timers -/
  timer : Fin 4 → Bool
  /-- what the control register of each timer's clock says when it is read -/
  clock : Fin 4 → Nat → Nat

/-- What the system is asked for. pwm-timer.cc 238-318. -/
inductive Call where
  | mmap (k : Fin 4)
  | munmap (k : Fin 4) (p : Ptr)
  /-- a word written to the clock module -/
  | cm (reg val : Nat)
deriving DecidableEq, Repr

/-- `pwm_timers_ena_clk`, lines 224-236: written if `IDLEST` is not 0, then waiting until it is; `none`: forever (longer than
`fuel`). -/
def enableClock (reg : Nat) (clock : Nat → Nat) (fuel : Nat) : Option (List Call) :=
  if clock 0 &&& 0x30000 ≠ 0 then
    if (List.range fuel).any (fun n => clock (n + 1) &&& 0x30000 = 0) then some [.cm reg (clock 0 ||| 2)] else none
  else some []

/-- `CM_PER_TIMERn_CLKCTRL`, lines 38-41. -/
def clkctrl : Fin 4 → Nat
  | 0 => 0x88
  | 1 => 0xec
  | 2 => 0xf0
  | 3 => 0x7c

/-- `CLKSEL_TIMERn_CLK`, lines 47-50. -/
def clksel : Fin 4 → Nat
  | 0 => 0x510
  | 1 => 0x518
  | 2 => 0x51c
  | 3 => 0x504

/-- `pwm_timers_enable_clocks` with the clock module mapped, lines 243-266. -/
def enableClocks (S : Sys) (fuel : Nat) : Option (List Call) := do
  let a ← enableClock (clkctrl 0) (S.clock 0) fuel
  let b ← enableClock (clkctrl 1) (S.clock 1) fuel
  let c ← enableClock (clkctrl 2) (S.clock 2) fuel
  let d ← enableClock (clkctrl 3) (S.clock 3) fuel
  return a ++ b ++ c ++ d ++ [.cm (clksel 0) 1, .cm (clksel 1) 1, .cm (clksel 2) 1, .cm (clksel 3) 1]

/-- The pointers of the timers. pwm-timer.cc 95-107. -/
abbrev Ptrs := Fin 4 → Ptr

/-- The pointers between calls. pwm-timer.cc 95-107. -/
def ptrs (ts : Timers F) : Ptrs := fun k => if (ts k).mapped then .mapped else .null

/-- `pwm_timers_unmap`, lines 311-318: the calls; afterwards all pointers are NULL. -/
def unmapCalls (p : Ptrs) : List Call :=
  (List.finRange 4).filterMap fun k => if p k = .null then none else some (.munmap k (p k))

/-- All pointers NULL. pwm-timer.cc 311-318. -/
def unmapped (ts : Timers F) : Timers F := fun k => { ts k with mapped := false }

/-- Lines 285-304: the timers from `k` on; the pointers, the calls and whether all worked. -/
def mapLoop (S : Sys) : List (Fin 4) → Ptrs → Ptrs × List Call × Bool
  | [], p => (p, [], true)
  | k :: ks, p =>
    let p := fun j => if j = k then (if S.timer k then .mapped else .failed) else p j
    if S.timer k then
      let r := mapLoop S ks p
      (r.1, .mmap k :: r.2.1, r.2.2)
    else (p, [.mmap k], false)

/-- What `pwm_timers_map` does. pwm-timer.cc 268-309. -/
structure Mapping (F : Type) where
  ok : Bool
  timers : Timers F
  calls : List Call

section
variable (A : Arith F)

/-- `memset` of a `pwm_timer_data`: the registers are elsewhere. pwm-timer.cc 268-318. -/
def cleared (t : Timer F) : Timer F :=
  { t with mapped := false, freq := 0, resolution := 0, duty := A.zero, pre := 0, ptv := 0, running := false }

/-- `pwm_timers_map`, lines 268-309. `memset(timers, 0x00, sizeof(*timers))` clears the first timer only. Without `/dev/mem`
the timers are left as they are; with another error they are unmapped, also the one with `MAP_FAILED`. `none`: a clock does not come up. -/
def mapTimers (S : Sys) (fuel : Nat) (ts : Timers F) : Option (Mapping F) :=
  let ts := put ts 0 (cleared A (ts 0))
  if !S.mem then some ⟨false, ts, []⟩
  else if !S.cm then some ⟨false, unmapped ts, unmapCalls (ptrs ts)⟩
  else
    (enableClocks S fuel).map fun clocks =>
      let r := mapLoop S (List.finRange 4) (ptrs ts)
      if r.2.2 then ⟨true, fun k => { ts k with mapped := true }, clocks ++ r.2.1⟩
      else ⟨false, unmapped ts, clocks ++ r.2.1 ++ unmapCalls r.1⟩

/-! ### Use -/

/-- `InitializeHardware`, hardware-mapping.cc 164-171: stopped and with the default frequency. -/
def initTimers (c : Cape) (ts : Timers F) : Timers F :=
  let ts := (List.finRange 4).foldl (fun ts i => onPin ts (c.pwm i) (start A · false)) ts
  (List.finRange 4).foldl (fun ts i => onPin ts (c.pwm i) (setFreq A · 0)) ts

/-- `ResetHardware`, hardware-mapping.cc 196-204. -/
def resetTimers (c : Cape) (ts : Timers F) : Timers F :=
  (List.finRange 4).foldl (fun ts i => onPin ts (c.pwm i) (start A · false)) ts

/-- `SetPWMOutput` for the pin of the output, hardware-mapping.cc 266-273. -/
def output (ts : Timers F) (gpio : Nat) (value : F) : Timers F :=
  if A.le value A.zero then onPin ts gpio (start A · false)
  else onPin (onPin ts gpio (setDuty A · value)) gpio (start A · true)

/-- Calls of the interface, pwm-timer.h. pwm-timer.cc 127-222. -/
inductive Use (F : Type) where
  | start (gpio : Nat) (on : Bool)
  | duty (gpio : Nat) (v : F)
  | freq (gpio : Nat) (f : Int)

/-- The pin of a call. pwm-timer.cc 127-222. -/
def Use.pin : Use F → Nat
  | .start g _ => g
  | .duty g _ => g
  | .freq g _ => g

/-- Its effect. pwm-timer.cc 127-222. -/
def use (ts : Timers F) : Use F → Timers F
  | .start g on => onPin ts g (start A · on)
  | .duty g v => onPin ts g (setDuty A · v)
  | .freq g f => onPin ts g (setFreq A · f)

end
end BeagleG.Pwm
