import Verif.Life.Options
/-!
# Model of `/repo/src/common/logging.cc`

Simplifications: the message is what `vasprintf` made of the format (`none` if it had no memory); the local time is given by its
numbers (years with four digits); a write takes all bytes or is an error, which is ignored (line 84); `perror` is an event.
-/
namespace BeagleG.Log

open Text (Byte)
open Setup (ascii)

/-- The three functions `Log_debug`, `Log_info`, `Log_error`. common/logging.cc 90-118. -/
inductive Level where
  | debug | info | error
deriving DecidableEq, Repr

/-- The static variables: `log_fd` and whether the markups are those for a terminal, lines 32-42. -/
structure Log where
  fd : Int
  colour : Bool
deriving DecidableEq

/-- Before `Log_init`, lines 32 and 39-42. -/
def Log.start : Log := ⟨2, false⟩

/-- What becomes visible. common/logging.cc 46-52, 82, 102, 113. -/
inductive Event where
  /-- `writev` -/
  | write (fd : Int) (bytes : List Byte)
  /-- `vsyslog`; the level is `LOG_INFO` or `LOG_ERR` -/
  | syslog (level : Level) (msg : List Byte)
  /-- `openlog` -/
  | openlog
  /-- `perror` -/
  | complaint
deriving DecidableEq

/-- `Log_init`, lines 44-63; `opened` is what `open` returns for the name. -/
def init (opened : List Byte → Int) (isatty : Int → Bool) (name : Option (List Byte)) (l : Log) : Log × List Event :=
  match name with
  | none | some [] => ({ l with fd := -1 }, [.openlog])
  | some n =>
    let fd := opened n
    if fd < 0 then ({ l with fd := fd }, [.complaint, .openlog])
    else if isatty fd then (⟨fd, true⟩, [])
    else ({ l with fd := fd }, [])

/-- The escape character and what follows it. common/logging.cc 34-37. -/
def esc (s : String) : List Byte := 27 :: ascii s

/-- The markups in front, lines 34-36 and 39-41. -/
def Level.markup (colour : Bool) : Level → List Byte
  | .debug => if colour then esc "[1m" ++ esc "[34mDEBUG " else ascii "DEBUG "
  | .info => if colour then esc "[1mINFO  " else ascii "INFO  "
  | .error => if colour then esc "[1m" ++ esc "[31mERROR " else ascii "ERROR "

/-- `markup_end_`, lines 37 and 42. -/
def markupEnd (colour : Bool) : List Byte := if colour then esc "[0m" else []

/-- The time: `struct tm` and the microseconds. common/logging.cc 67-72. -/
structure Time where
  year : Nat
  month : Nat
  day : Nat
  hour : Nat
  minute : Nat
  second : Nat
  micros : Nat
deriving DecidableEq

/-- A number with leading zeros: the last `w` digits. `%F %T` and `%06ld`, common/logging.cc 72-75. -/
def pad : (w : Nat) → Nat → List Byte
  | 0, _ => []
  | w + 1, n => pad w (n / 10) ++ [UInt8.ofNat (48 + n % 10)]

/-- `%F %T` (line 73) and `.%06ld` (line 75). -/
def Time.text (t : Time) : List Byte :=
  pad 4 t.year ++ [45] ++ pad 2 t.month ++ [45] ++ pad 2 t.day ++ [32] ++ pad 2 t.hour ++ [58] ++ pad 2 t.minute ++ [58] ++
    pad 2 t.second ++ [46] ++ pad 6 t.micros

/-- `parts[0]`, lines 75-76. -/
def header (colour : Bool) (level : Level) (t : Time) : List Byte :=
  level.markup colour ++ [91] ++ t.text ++ [93] ++ markupEnd colour ++ [32]

/-- `already_newline`, lines 80-82. -/
def alreadyNewline (msg : List Byte) : Bool := msg.getLast? = some 10

/-- `Log_internal`, lines 65-88. `none`: without memory `iov_len` is -1 and the byte before the end of the address space
is read, line 82. -/
def internal (l : Log) (level : Level) (t : Time) (msg : Option (List Byte)) : Option (List Event) :=
  msg.map fun m => [.write l.fd (header l.colour level t ++ m ++ if alreadyNewline m then [] else [10])]

/-- `Log_debug`, `Log_info`, `Log_error`, lines 90-118. `vsyslog` formats the message by itself. -/
def log (l : Log) (level : Level) (t : Time) (msg : Option (List Byte)) : Option (List Event) :=
  if l.fd < 0 then
    if level = .debug then some [] else some [.syslog level (msg.getD [])]
  else internal l level t msg

/-- A message with its level and time. common/logging.cc 90-118. -/
structure Entry where
  level : Level
  time : Time
  msg : List Byte

/-- Several messages. common/logging.cc 90-118, called in turn. -/
def logAll (l : Log) : List Entry → Option (List Event)
  | [] => some []
  | e :: es => do
    let a ← log l e.level e.time (some e.msg)
    let b ← logAll l es
    return a ++ b

/-- The bytes a file receives. common/logging.cc 82. -/
def received (fd : Int) (es : List Event) : List Byte :=
  es.flatMap fun
    | .write f bs => if f = fd then bs else []
    | _ => []

end BeagleG.Log
