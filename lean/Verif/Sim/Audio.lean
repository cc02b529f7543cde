import Mathlib.Data.Rat.Floor
import Mathlib.Algebra.Ring.Rat
import Verif.StepGen.Model
import Verif.Text.Model

/-!
# Model of `/repo/src/sim-audio-out.cc`

The simulation that writes the steps of two motors as sound. Times are exact (in the source `double`). The file is a
list of bytes; writing does not fail. `seekable` tells whether `fseek` works (a file, and not a pipe).
-/
namespace BeagleG.Sim

open StepGen (Motor MotionSegment Regs simDelay)
open Idiv (reg)
open Text (Byte)

/-! ## `AudioWriter` -/

/-- `kWavHeader`, lines 33-38. -/
def wavHeader : List Byte := [
  0x52, 0x49, 0x46, 0x46, 0xff, 0xff, 0xff, 0xff, 0x57, 0x41, 0x56,
  0x45, 0x66, 0x6D, 0x74, 0x20, 0x10, 0x00, 0x00, 0x00, 0x01, 0x00,
  0x02, 0x00, 0x44, 0xAC, 0x00, 0x00, 0x10, 0xB1, 0x02, 0x00, 0x04,
  0x00, 0x10, 0x00, 0x64, 0x61, 0x74, 0x61, 0xff, 0xff, 0xff, 0xff]

/-- `uint32_t` in memory, least significant byte first. sim-audio-out.cc 49-54. -/
def le32 (n : Nat) : List Byte :=
  [UInt8.ofNat n, UInt8.ofNat (n / 2 ^ 8), UInt8.ofNat (n / 2 ^ 16), UInt8.ofNat (n / 2 ^ 24)]

/-- The file written so far and `current_sample_`, lines 75-76. -/
structure Writer where
  bytes : List Byte
  current : Nat
  deriving DecidableEq

/-- The constructor, lines 42-44. -/
def Writer.init : Writer := { bytes := wavHeader, current := 0 }

/-- The two bytes of 16000 and -16000, lines 65-66. -/
def level (high : Bool) : List Byte := if high then [0x80, 0x3e] else [0x80, 0xc1]

/-- `sample`, lines 62-66; `pins` are the bits of `channel_values`. -/
def sample (pins : Motor → Bool) : List Byte := level (pins 0) ++ level (pins 1)

/-- The loop in lines 68-70, so many times. -/
def fill (pins : Motor → Bool) : Nat → Writer → Writer
  | 0, w => w
  | n + 1, w => fill pins n { bytes := w.bytes ++ sample pins, current := w.current + 1 }

/-- `kSampleRate`, line 74. -/
def sampleRate : ℚ := 44100

/-- `Update`, lines 61-71. `none`: the number of the sample does not fit in 32 bits, the conversion is undefined. -/
def Writer.update (w : Writer) (pins : Motor → Bool) (until_ : ℚ) : Option Writer :=
  let target := (until_ * sampleRate).floor.toNat
  if target < 2 ^ 32 then some (fill pins (target - w.current) w) else none

/-- `fseek` and `fwrite` of four bytes. sim-audio-out.cc 48-54. -/
def patch (seekable : Bool) (at_ : Nat) (four bytes : List Byte) : List Byte :=
  if seekable then bytes.take at_ ++ four ++ bytes.drop (at_ + 4) else bytes ++ four

/-- The destructor, lines 46-59: the file as it is left. -/
def Writer.close (w : Writer) (seekable : Bool) : List Byte :=
  let size := reg (4 * w.current)
  patch seekable 4 (le32 (reg (size + 36))) (patch seekable 40 (le32 size) w.bytes)

/-! ## `Enqueue` -/

/-- What is heard: levels of the motors, and until when. sim-audio-out.cc 61, 140. -/
structure Event where
  pins : Motor → Bool
  until_ : ℚ

/-- Lines 101-106: `state` and the bits of `channel_value`. -/
def pinsOf (m : Motor → Nat) : Motor → Bool := fun i => (m i).testBit 31

/-- The time in seconds an update of the motors takes, line 108. -/
def updateTime : ℚ := 160 / 10 ^ 9

/-- `wait_time`, line 138, with `TIMER_FREQUENCY` (motor-interface-constants.h 28). -/
def waitTime (loops : Nat) : ℚ := loops / 100000000

/-- The loop of `Enqueue`, lines 100-141: the calls of `Update`, and `sim_time` at the end. The computation of
`delay_loops`, lines 110-136, is that of `sim-firmware.cc`, character by character. `none`: more loops than `fuel`
(does not happen). -/
def audioLoop (fr : Motor → Nat) : (fuel : Nat) → Regs → (Motor → Nat) → ℚ → Option (List Event × ℚ)
  | 0, _, _, _ => none
  | fuel + 1, r, m, time =>
    let m' := fun i => reg (m i + fr i)
    match simDelay r with
    | none => some ([], time + updateTime)
    | some (r', d) =>
      let time' := time + updateTime + waitTime d
      (audioLoop fr fuel r' m' time').map fun p => (⟨pinsOf m', time'⟩ :: p.1, p.2)

/-- All calls of `Update`. sim-audio-out.cc 61-71, called at 140. -/
def updates : List Event → Writer → Option Writer
  | [], w => some w
  | e :: es, w => (w.update e.pins e.until_).bind (updates es)

/-- The simulation: `sim_time` (line 84) and the writer. -/
structure Audio where
  time : ℚ
  writer : Writer

/-- Before the first segment. sim-audio-out.cc 42-44, 84. -/
def Audio.init : Audio := { time := 0, writer := .init }

/-- `Enqueue`, lines 92-143. `none` in place of a segment is the exit marker. -/
def Audio.enqueue (a : Audio) : Option MotionSegment → Option Audio
  | none => some a
  | some s =>
    (audioLoop s.fractions (s.loops + 1) (Regs.simLoad s) (fun _ => 0) a.time).bind fun p =>
      (updates p.1 a.writer).map fun w => { time := p.2, writer := w }

/-- All segments of a run. sim-audio-out.cc 92-143, called in turn. -/
def Audio.record : List (Option MotionSegment) → Audio → Option Audio
  | [], a => some a
  | s :: ss, a => (a.enqueue s).bind (Audio.record ss)

end BeagleG.Sim
