import Verif.Firmware.Capes
/-!
# Model of `/repo/src/generic-gpio.cc` and of its use in `/repo/src/hardware-mapping.cc`

The registers of the four GPIO banks, the pointers of the host to them and the functions that read and write pins.

Simplifications:
* A bank has the three registers the program uses: output enable (a one makes a pin an input), the output latch, and the levels
  at the pins. The registers `SETDATAOUT` and `CLEARDATAOUT` set and clear the bits of the latch that are one in the word
  written, as the manual of the processor says. Accesses are atomic.
* A pointer is `NULL`, `MAP_FAILED` or valid; the use of `MAP_FAILED` or `NULL` as an address is a fault (`none`).
* `mmap` and `open` succeed or fail as the parameters say. Messages are left out.
* The registers of the clock module appear in `enaGpioClk`; the whole of `enable_gpio_clocks` is the parameter `clocks` of
  `mapGpio`: `none` if a clock never comes up.
* `geteuid`, the PWM timers (C25) and the switches (C40) are left out of `initHardware`; they appear as results.
-/
namespace BeagleG.Gpio
open Firmware (Cape gpioBase pin notMapped gpioSet gpioClear)

/-- `uint32_t`. generic-gpio.cc 64. -/
abbrev Word := BitVec 32

/-- The registers of a bank: `GPIO_OE`, `GPIO_DATAOUT`, `GPIO_DATAIN`.
motor-interface-constants.h (`GPIO_OE`, …), used at generic-gpio.cc 68, 77, 83, 160-169. -/
structure Bank where
  oe : Word
  out : Word
  inp : Word

/-- `gpio_n`, lines 47-50. -/
inductive Ptr where
  | null | failed | mapped
  deriving DecidableEq

/-- `gpio_0` … `gpio_3` (generic-gpio.cc 47-50) and the registers behind them. -/
structure St where
  ptr : Fin 4 → Ptr
  bank : Fin 4 → Bank

/-- A pin of the processor: bank and bit. generic-gpio.cc 52-64. -/
abbrev Pin := Fin 4 × Fin 32

/-- `switch (gpio_def & 0xfffff000)`, lines 53-59 and 88-93. -/
def bankOf (d : Nat) : Option (Fin 4) :=
  let b := d &&& 0xfffff000
  if b = gpioBase 0 then some 0
  else if b = gpioBase 1 then some 1
  else if b = gpioBase 2 then some 2
  else if b = gpioBase 3 then some 3
  else none

/-- `gpio_def & 0x1f`. generic-gpio.cc 64, 76, 82, 87. -/
def bitOf (d : Nat) : Fin 32 := ⟨d &&& 0x1f, Nat.lt_of_le_of_lt Nat.and_le_right (by decide)⟩

/-- `1 << (gpio_def & 0x1f)`. generic-gpio.cc 64, 76, 82, 87. -/
def bitmask (d : Nat) : Word := 1#32 <<< (bitOf d).val

/-- The pin that a definition names, if any. generic-gpio.cc 52-64. -/
def pinOf (d : Nat) : Option Pin := (bankOf d).map fun k => (k, bitOf d)

/-- Level of the output latch. `GPIO_DATAOUT`, written at generic-gpio.cc 77, 83. -/
def St.level (s : St) (q : Pin) : Bool := (s.bank q.1).out.getLsbD q.2

/-- Level at the pin. `GPIO_DATAIN`, read at generic-gpio.cc 68-69. -/
def St.sensed (s : St) (q : Pin) : Bool := (s.bank q.1).inp.getLsbD q.2

/-- Is the output driver off? `GPIO_OE`, generic-gpio.cc 158-169. -/
def St.isInput (s : St) (q : Pin) : Bool := (s.bank q.1).oe.getLsbD q.2

/-- What `get_gpio_base` returns, lines 52-60. -/
inductive Port where
  | null | failed
  | at (k : Fin 4)

/-- `get_gpio_base`, generic-gpio.cc 52-60. -/
def St.port (s : St) (d : Nat) : Port :=
  match bankOf d with
  | none => .null
  | some k => match s.ptr k with
    | .null => .null
    | .failed => .failed
    | .mapped => .at k

/-- A word is written to `GPIO_SETDATAOUT` or to `GPIO_CLEARDATAOUT`. generic-gpio.cc 77, 83. -/
def Bank.write (b : Bank) (m : Word) (v : Bool) : Bank := { b with out := if v then b.out ||| m else b.out &&& ~~~m }

/-- A bank is replaced. Assignment to a register, generic-gpio.cc 77, 83, 160-169. -/
def setBank (f : Fin 4 → Bank) (k : Fin 4) (b : Bank) : Fin 4 → Bank := fun j => if j = k then b else f j

/-- `set_gpio` (`v`) and `clr_gpio` (`!v`), lines 74-84. -/
def St.write (s : St) (d : Nat) (v : Bool) : Option St :=
  match s.port d with
  | .null => some s
  | .failed => none
  | .at k => some { s with bank := setBank s.bank k ((s.bank k).write (bitmask d) v) }

/-- `get_gpio`, lines 62-72. -/
def St.get (s : St) (d : Nat) : Option Int :=
  match s.port d with
  | .null => some (-1)
  | .failed => none
  | .at k => some (if (s.bank k).inp &&& bitmask d ≠ 0 then 1 else 0)

/-! ### Directions -/

/-- `set_gpio_mask`, lines 86-94. -/
def setMask (mask : Fin 4 → Word) (d : Nat) : Fin 4 → Word :=
  match bankOf d with
  | none => mask
  | some k => fun j => if j = k then mask j ||| bitmask d else mask j

/-- The pins in `output_mask`, lines 99-142. -/
def outputs (c : Cape) : List Nat :=
  [c.step 0, c.step 1, c.step 2, c.step 3, c.step 4, c.step 5, c.step 6, c.step 7,
    c.dir 0, c.dir 1, c.dir 2, c.dir 3, c.dir 4, c.dir 5, c.dir 6, c.dir 7,
    c.enable,
    c.aux 0, c.aux 1, c.aux 2, c.aux 3, c.aux 4, c.aux 5, c.aux 6, c.aux 7,
    c.aux 8, c.aux 9, c.aux 10, c.aux 11, c.aux 12, c.aux 13, c.aux 14, c.aux 15,
    c.pwm 0, c.pwm 1, c.pwm 2, c.pwm 3]

/-- The pins in `input_mask`, lines 144-153. -/
def inputs (c : Cape) : List Nat :=
  [c.input 0, c.input 1, c.input 2, c.input 3, c.input 4, c.input 5, c.input 6, c.input 7, c.input 8]

/-- `gpio_k[GPIO_OE / 4] = f gpio_k[GPIO_OE / 4]`. generic-gpio.cc 160-169. -/
def St.updateOe (s : St) (k : Fin 4) (f : Word → Word) : Option St :=
  match s.ptr k with
  | .mapped => some { s with bank := setBank s.bank k { s.bank k with oe := f (s.bank k).oe } }
  | _ => none

/-- `cfg_gpio_io`, lines 96-170. -/
def cfgGpioIo (c : Cape) (s : St) : Option St :=
  let out := (outputs c).foldl setMask fun _ => 0
  let inp := (inputs c).foldl setMask fun _ => 0
  ([0, 1, 2, 3].foldlM (fun (s : St) k => s.updateOe k (· &&& ~~~(out k))) s).bind
    ([0, 1, 2, 3].foldlM fun (s : St) k => s.updateOe k (· ||| inp k))

/-! ### Mapping -/

/-- System calls. generic-gpio.cc 172-175, 191-270. -/
inductive Call where
  | openMem
  | mmap (k : Fin 4)
  | munmap (k : Fin 4)
  /-- `munmap(MAP_FAILED)` -/
  | munmapFailed
  | close
  deriving DecidableEq

/-- `ena_gpio_clk`, lines 177-189. `reads` are the values of the register at the successive reads; the result is the list of
words written, `none` if `fuel` reads in the loop are not enough. -/
def enaGpioClk (reads : Nat → Word) (fuel : Nat) : Option (List Word) :=
  let idle : Word := 0x30000
  if reads 0 &&& idle = 0 then some []
  else if ∃ j < fuel, reads (j + 1) &&& idle = 0 then some [reads 0 ||| 2] else none

/-- The part of `unmap_gpio` for one bank, lines 254-257. -/
def unmapBank (s : St) (k : Fin 4) : St × List Call :=
  match s.ptr k with
  | .null => (s, [])
  | .failed => ({ s with ptr := fun j => if j = k then .null else s.ptr j }, [.munmapFailed])
  | .mapped => ({ s with ptr := fun j => if j = k then .null else s.ptr j }, [.munmap k])

/-- `unmap_gpio`, lines 253-270. -/
def unmapGpio (s : St) : St × List Call :=
  [0, 1, 2, 3].foldl (fun x k => ((unmapBank x.1 k).1, x.2 ++ (unmapBank x.1 k).2)) (s, [])

/-- The calls of `map_port` in `map_gpio`, lines 221-240: banks in turn, until one fails. -/
def mapBanks (ok : Fin 4 → Bool) (s : St) : List (Fin 4) → St × Bool × List Call
  | [] => (s, true, [])
  | k :: l =>
    if ok k then
      let r := mapBanks ok { s with ptr := fun j => if j = k then .mapped else s.ptr j } l
      (r.1, r.2.1, .mmap k :: r.2.2)
    else ({ s with ptr := fun j => if j = k then .failed else s.ptr j }, false, [])

/-- `map_gpio`, lines 209-251. `openOk`: `/dev/mem` can be opened; `clocks`: result of `enable_gpio_clocks`; `ok`: does `mmap` of
a bank succeed. -/
def mapGpio (c : Cape) (openOk : Bool) (clocks : Option Bool) (ok : Fin 4 → Bool) (s : St) : Option (Bool × St × List Call) :=
  if openOk then
    clocks.bind fun en =>
      if en then
        let r := mapBanks ok s [0, 1, 2, 3]
        if r.2.1 then (cfgGpioIo c r.1).map fun s => (true, s, .openMem :: r.2.2 ++ [.close])
        else
          let u := unmapGpio r.1
          some (false, u.1, .openMem :: r.2.2 ++ [.close] ++ u.2)
      else
        let u := unmapGpio s
        some (false, u.1, [.openMem, .close] ++ u.2)
  else some (false, s, [])

/-! ### Use in `HardwareMapping` -/

/-- The pin operations of `EnableMotors`, hardware-mapping.cc 215-218. -/
def enableMotors (c : Cape) (on : Bool) (s : St) : Option St := s.write c.enable (!(on ^^ c.enableHigh))

/-- `SetAuxOutputs`, hardware-mapping.cc 243-251, initialized. -/
def setAux (c : Cape) (bits : BitVec 16) (s : St) : Option St :=
  (List.finRange 16).foldlM (fun s i => s.write (c.aux i) (bits.getLsbD i)) s

/-- The pin operations of `ResetHardware`, hardware-mapping.cc 196-204, initialized. -/
def reset (c : Cape) (s : St) : Option St := (setAux c 0 s).bind (enableMotors c false)

/-- `InitializeHardware`, hardware-mapping.cc 136-194, as far as GPIO is concerned, as root. The first flag of the result is
`is_hardware_initialized_`. -/
def initHardware (c : Cape) (openOk : Bool) (clocks : Option Bool) (ok : Fin 4 → Bool) (pwmOk : Bool) (s : St) : Option (Bool × St) :=
  (mapGpio c openOk clocks ok s).bind fun r =>
    if r.1 then
      if pwmOk then (reset c r.2.1).map fun s => (true, s) else some (false, r.2.1)
    else some (false, r.2.1)

/-- The destructor, hardware-mapping.cc 48-54, with the flag `is_hardware_initialized_`. -/
def destroy (c : Cape) (initialized : Bool) (s : St) : Option St :=
  if initialized then (reset c s).map fun s => (unmapGpio s).1 else some s

end BeagleG.Gpio
