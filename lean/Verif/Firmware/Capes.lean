import Verif.Firmware.Step
/-!
# The capes

The pin assignments of the four directories below `/repo/hardware`.
-/
namespace BeagleG.Firmware

/-- `PIN_P9_n`, motor-interface-constants.h 61-83. -/
def p9 : Nat → Nat
  | 11 => pin 0 30
  | 12 => pin 1 28
  | 13 => pin 0 31
  | 14 => pin 1 18
  | 15 => pin 1 16
  | 16 => pin 1 19
  | 17 => pin 0 5
  | 18 => pin 0 4
  | 19 => pin 0 13
  | 20 => pin 0 12
  | 21 => pin 0 3
  | 22 => pin 0 2
  | 23 => pin 1 17
  | 24 => pin 0 15
  | 25 => pin 3 21
  | 26 => pin 0 14
  | 27 => pin 3 19
  | 28 => pin 3 17
  | 29 => pin 3 15
  | 30 => pin 3 16
  | 31 => pin 3 14
  | 41 => pin 0 20
  | 42 => pin 0 7
  | _ => notMapped

/-- `PIN_P8_n`, motor-interface-constants.h 85-98. -/
def p8 : Nat → Nat
  | 7 => pin 2 2
  | 8 => pin 2 3
  | 9 => pin 2 5
  | 10 => pin 2 4
  | 11 => pin 1 13
  | 12 => pin 1 12
  | 13 => pin 0 23
  | 14 => pin 0 26
  | 15 => pin 1 15
  | 16 => pin 1 14
  | 17 => pin 0 27
  | 18 => pin 2 1
  | 19 => pin 0 22
  | 26 => pin 1 29
  | _ => notMapped

/-- `PIN_P1_n`, motor-interface-constants.h 101-104. -/
def p1 : Nat → Nat
  | 29 => pin 3 21
  | 31 => pin 3 18
  | 33 => pin 3 15
  | 34 => pin 3 19
  | _ => notMapped

/-- `PIN_P2_n`, motor-interface-constants.h 106-114. -/
def p2 : Nat → Nat
  | 5 => pin 0 30
  | 7 => pin 0 31
  | 9 => pin 0 15
  | 10 => pin 1 20
  | 11 => pin 0 14
  | 18 => pin 1 15
  | 22 => pin 1 14
  | 24 => pin 1 12
  | 33 => pin 1 13
  | _ => notMapped

/-- `n` signals, those beyond the list are not mapped. motor-interface-constants.h 126-281. -/
def signals {n : Nat} (l : List Nat) (i : Fin n) : Nat := l.getD i.val notMapped

/-- hardware/BUMPS/beagleg-pin-mapping.h 1-55. -/
def bumps : Cape where
  step := signals [p9 18, p9 17, p9 21, p9 42, p9 22, p9 26, p9 24, p9 41]
  dir := signals [p8 16, p8 15, p8 11, p9 15, p8 12, p9 23, p9 14, p9 16]
  enable := p9 12
  aux := signals [p9 11, p9 13]
  pwm := signals [p8 9, p8 10, p8 7, p8 8]
  input := signals [p8 13, p8 14, p8 17]

/-- hardware/CRAMPS/beagleg-pin-mapping.h 1-64. -/
def cramps : Cape where
  step := signals [p8 13, p8 15, p8 19, p9 16, p9 17, p9 24, p9 42, p9 31]
  dir := signals [p8 12, p8 14, p8 18, p9 12, p9 18, p9 26, p8 16, p9 28]
  enable := p9 14
  aux := signals [p9 41, p9 22, p9 29, p9 30, notMapped, notMapped, notMapped, notMapped, notMapped, notMapped, notMapped, notMapped,
    notMapped, p8 26, p9 23, p9 25]
  pwm := signals [p8 11, p9 15, p9 27, p9 21]
  input := signals [p8 8, p8 10, p9 13, p8 7, p8 9, p9 11, p8 17]

/-- hardware/Pockegotion/beagleg-pin-mapping.h 1-39. -/
def pockegotion : Cape where
  step := signals [p1 29, p1 31, p1 33, p1 34]
  dir := signals [p2 24, p2 33, p2 22, p2 18]
  enable := p2 10
  input := signals [p2 5, p2 7, p2 9, p2 11]

/-- hardware/VGEN5/beagleg-pin-mapping.h 1-67, and its `CheckForEStop`, pru-io-routines.hp 17-32. -/
def vgen5 : Cape where
  step := signals [p9 41, p9 27, p9 11, p9 23, p9 13]
  dir := signals [p9 42, p9 30, p9 12, p9 25, p9 15]
  enable := p9 16
  enableHigh := true
  aux := signals [p8 7, p8 8, p8 9, p8 10, p9 14, p9 17, p9 18, p9 21, p9 22, p9 24, p9 26, p9 28, p9 29, p9 31, notMapped, p8 26]
  pwm := signals [p8 7, p8 8, p8 9, p8 10]
  input := signals [p8 15, p8 16, p8 11, p8 12, p8 13, p8 14, p8 17, p8 18, p8 19]
  checksEstop := true

/-- The capes of the repository. -/
def capes : List Cape := [bumps, cramps, pockegotion, vgen5]

theorem capes_ok : ∀ c ∈ capes, c.Ok := by
  intro c hc
  simp only [capes, List.mem_cons, List.not_mem_nil, or_false] at hc
  rcases hc with rfl | rfl | rfl | rfl <;> exact ⟨by decide, by decide, by decide, by decide⟩

end BeagleG.Firmware
