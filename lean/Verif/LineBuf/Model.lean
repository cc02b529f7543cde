/-!
# Model of `/repo/src/common/linebuf-reader.{h,cc}` and `/repo/src/gcode-parser/gcode-streamer.cc`

The buffer is a list of bytes of fixed length; the three pointers are indices into it. Every access to
memory is checked: `none` is an access outside the buffer.
-/
namespace BeagleG.LineBuf

/-- `char`, as unsigned byte. linebuf-reader.h 51. -/
abbrev Byte := UInt8

/-- `'\n'`. linebuf-reader.cc 51, 58, 63. -/
def LF : Byte := 10
/-- `'\r'`. linebuf-reader.cc 63-64. -/
def CR : Byte := 13

/-- `LinebufReader`, linebuf-reader.h 98-105. `mem.length` is `len_`. -/
structure Buf where
  mem : List Byte
  start : Nat
  stop : Nat
  cr : Bool
  deriving DecidableEq, Repr

/-- The constructor, linebuf-reader.cc 26-32; the contents of new memory do not matter. -/
def Buf.init (mem : List Byte) : Buf := ⟨mem, 0, 0, false⟩

/-- The bytes between `content_start_` and `content_end_`. linebuf-reader.h 90-108 (`size`), linebuf-reader.cc 57. -/
def Buf.content (b : Buf) : List Byte := (b.mem.drop b.start).take (b.stop - b.start)

/-- Store bytes at an address. linebuf-reader.cc 38, 42, 51, 65. -/
def writeAt (mem : List Byte) (i : Nat) (bytes : List Byte) : Option (List Byte) :=
  if i + bytes.length ≤ mem.length then some (mem.take i ++ bytes ++ mem.drop (i + bytes.length))
  else none

/-- Load bytes from an address. linebuf-reader.cc 38, 57-63. -/
def readAt (mem : List Byte) (i n : Nat) : Option (List Byte) :=
  if i + n ≤ mem.length then some ((mem.drop i).take n) else none

/-- The first half of `Update`, lines 36-41: move the content to the front. -/
def compact (b : Buf) : Option Buf :=
  if b.start > b.mem.length / 2 then do
    let bytes ← readAt b.mem b.start (b.stop - b.start)
    let mem ← writeAt b.mem 0 bytes
    return { b with mem := mem, start := 0, stop := b.stop - b.start }
  else some b

/-- The number of bytes `Update` offers to the reader, line 42. -/
def offered (b : Buf) : Nat := b.mem.length - b.stop

/-- `Update`, lines 35-48. `result` is what the callback does: bytes it stored, or `none` for a negative
return value. -/
def update (b : Buf) (result : Option (List Byte)) : Option Buf := do
  let b ← compact b
  match result with
  | none => return b
  | some bytes =>
    let mem ← writeAt b.mem b.stop bytes
    return { b with mem := mem, stop := b.stop + bytes.length }

/-- The loop of `ReadAndConsumeLine`, lines 57-71; the last argument counts the bytes up to
`content_end_`. The result includes the returned pointer (`none` inside = `nullptr`). -/
def scan (mem : List Byte) (stop : Nat) (cr : Bool) (start i : Nat) : Nat → Option (Buf × Option Nat)
  | 0 => some (⟨mem, start, stop, cr⟩, none)
  | n + 1 =>
    match mem[i]? with
    | none => none
    | some c =>
      if cr && c = LF then scan mem stop false (i + 1) (i + 1) n
      else if c = CR ∨ c = LF then some (⟨mem.set i 0, i + 1, stop, c = CR⟩, some start)
      else scan mem stop cr start (i + 1) n

/-- `ReadAndConsumeLine`, lines 56-72. -/
def readLine (b : Buf) : Option (Buf × Option Nat) := scan b.mem b.stop b.cr b.start b.start (b.stop - b.start)

/-- `IncompleteLine`, lines 50-54. -/
def incompleteLine (b : Buf) : Option (Buf × Option Nat) := do
  let mem ← writeAt b.mem b.stop [LF]
  readLine { b with mem := mem, stop := b.stop + 1 }

/-- `Flush`, linebuf-reader.h 90-93. -/
def flush (b : Buf) : Buf := { b with start := 0, stop := 0 }

/-- The C string at an address. The result of linebuf-reader.cc 66-68 as used at gcode-streamer.cc 86, 102. -/
def cString (mem : List Byte) (p : Nat) : List Byte := (mem.drop p).takeWhile (· ≠ 0)

/-- `while ((line = ReadAndConsumeLine()))`: all lines available, as C strings. The number of
iterations is at most the number of bytes plus one. -/
def drain : Nat → Buf → Option (Buf × List (List Byte))
  | 0, b => some (b, [])
  | n + 1, b =>
    match readLine b with
    | none => none
    | some (b, none) => some (b, [])
    | some (b, some p) =>
      match drain n b with
      | none => none
      | some (b', ls) => some (b', cString b.mem p :: ls)

/-! ### gcode-streamer.cc -/

/-- What can be observed. gcode-streamer.cc 62-115. -/
inductive Out where
  | parse (line : List Byte)
  | finished
  | close
  | idle (wasProcessing : Bool)
  | connect (ok : Bool)
  deriving DecidableEq, Repr

/-- Members of `GCodeStreamer`. `connected`: `connection_fd_ >= 0`; the counter and the message stream
are left out. gcode-streamer.h 28-59. -/
structure Streamer where
  buf : Buf
  connected : Bool
  processing : Bool
  deriving DecidableEq, Repr

/-- What happens: `ConnectStream`, the descriptor is readable and `read` returns this, `Timeout`.
gcode-streamer.cc 45, 72, 111. -/
inductive Event where
  | connect
  | readable (result : Option (List Byte))
  | timeout
  deriving DecidableEq, Repr

/-- `ConnectStream` (45-60; a second stream is refused and nothing changes), `ReadData` (72-108), `Timeout` (111-115). The multiplexer calls `ReadData`
only while the stream is connected. -/
def Streamer.step (s : Streamer) : Event → Option (Streamer × List Out)
  | .connect => some ({ s with connected := true }, [.connect (!s.connected)])
  | .timeout => some ({ s with processing := false }, [.idle s.processing])
  | .readable result =>
    if !s.connected then some (s, [])
    else do
      let b ← update s.buf result
      if (result.getD []).length = 0 then
        let (b, line) ← incompleteLine b
        let last := match line with
          | some p => [Out.parse (cString b.mem p)]
          | none => []
        return ({ buf := b, connected := false, processing := false }, last ++ [.finished, .close])
      else
        let (b, lines) ← drain (b.stop - b.start + 1) b
        return ({ s with buf := b, processing := true }, lines.map .parse)

/-- Events in turn, as the multiplexer delivers them (gcode-streamer.cc 40-105). -/
def Streamer.run : Streamer → List Event → Option (Streamer × List Out)
  | s, [] => some (s, [])
  | s, e :: es => do
    let (s, o) ← s.step e
    let (s, o') ← s.run es
    return (s, o ++ o')

end BeagleG.LineBuf
