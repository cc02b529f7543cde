/-!
# Model of the PRU integer division (`/repo/src/idiv.hp`)

Registers are 32 bit; every instruction is written out with its truncation to
32 bit and, where the next instruction uses it, its carry.
-/
namespace BeagleG.Idiv

/-- Truncation to a 32 bit register. Results in idiv.hp 92-97. -/
def reg (n : Nat) : Nat := n % 2 ^ 32

/-- Carry out of a 32 bit addition whose full result is `n`. Taken up at idiv.hp 93. -/
def carry (n : Nat) : Nat := n / 2 ^ 32

/-- `idiv.hp:90-99`, `_idiv_division_step`:
`add lo,lo,lo`; `adc hi,hi,hi`; `qblt SKIP_SUB, d, hi` (branch if `hi < d`);
`set lo,0`; `sub hi,hi,d`. -/
def divisionStep (d : Nat) (s : Nat × Nat) : Nat × Nat :=
  let lo := reg (s.2 + s.2)
  let c := carry (s.2 + s.2)
  let hi := reg (s.1 + s.1 + c)
  if hi < d then (hi, lo)
  else (reg (hi + (2 ^ 32 - d)), lo ||| 1)

/-- `k` unrolled division steps, first step first. idiv.hp 49-83. -/
def divisionSteps (d : Nat) : Nat → Nat × Nat → Nat × Nat
  | 0, s => s
  | k + 1, s => divisionStep d (divisionSteps d k s)

/-- `idiv.hp:42-84`, `idiv_macro`: clears the remainder, then performs the step
32 times. Result: (quotient, remainder). -/
def idiv (dividend divisor : Nat) : Nat × Nat :=
  let s := divisionSteps divisor 32 (0, dividend)
  (s.2, s.1)

end BeagleG.Idiv
