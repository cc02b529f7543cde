import Verif.Text.Number
import Verif.Setup.Model
/-!
# Model of `/repo/src/adc.cc` and of M105

M105 is in `/repo/src/gcode-machine-control.cc`, lines 487-495 (printing: `mprintf`, lines 343-348).

Simplifications: the files of the kernel are given by their content when they are opened; reading does not fail otherwise than by
having nothing. `long` has 32 bits, as on the machine; messages in the log are left out.
-/
namespace BeagleG.Adc

open Text (Byte isSpace skipWhite)
open Text.Number (strtoll)
open Setup (ascii)

/-- `fgets` with a buffer of 32 bytes, line 49: up to the first newline, and not more than 31 bytes; `none`: nothing there. -/
def fgets (room : Nat) (s : List Byte) : Option (List Byte) :=
  if s = [] then none
  else
    let l := s.takeWhile (· ≠ 10) ++ (if 10 ∈ s then [10] else [])
    some (l.take room)

/-- `strtol` with 32 bits: 0 if there is no number. By way of `atoi`, adc.cc 55. -/
def strtol (s : List Byte) : Int :=
  match strtoll (skipWhite s) with
  | none => 0
  | some r => max (-2 ^ 31) (min r.1 (2 ^ 31 - 1))

/-- `atoi`, line 55, of the string in the buffer, which ends with the first zero. -/
def atoi (buf : List Byte) : Int := strtol (buf.takeWhile (· ≠ 0))

/-- The name of the file of a channel, lines 32 and 41. -/
def node (chan : Nat) : List Byte := ascii s!"/sys/bus/iio/devices/iio:device0/in_voltage{chan}_raw"

/-- `arc_read_raw`, lines 34-56; `file`: what is in the file of a name, if it can be opened. -/
def readRaw (file : List Byte → Option (List Byte)) (chan : Int) : Int :=
  if chan < 0 ∨ 7 < chan then -1
  else
    match file (node chan.toNat) with
    | none => -1
    | some s => atoi ((fgets 31 s).getD (ascii "-1"))

/-- Decimal digits. `%d`, adc.cc 41. -/
def digits (n : Nat) : List Byte :=
  if n < 10 then [UInt8.ofNat (48 + n)] else digits (n / 10) ++ [UInt8.ofNat (48 + n % 10)]

/-- `%d`. adc.cc 36, 41. -/
def showInt (v : Int) : List Byte := if v < 0 then 45 :: digits v.natAbs else digits v.natAbs

/-- What is printed for a channel, lines 490-491. -/
def channelText (file : List Byte → Option (List Byte)) (chan : Nat) : List Byte :=
  ascii "RAW" ++ showInt chan ++ [58] ++ showInt (readRaw file chan) ++ [32]

/-- `handle_M105`, lines 487-495, with the test of `mprintf`: `stream` is whether there is one for messages. -/
def m105 (file : List Byte → Option (List Byte)) (stream : Bool) : List Byte :=
  if stream then ascii "// " ++ (List.range 8).flatMap (channelText file) ++ [10] ++ ascii "T-300\n" else []

end BeagleG.Adc
