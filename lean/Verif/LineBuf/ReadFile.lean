import Verif.LineBuf.StreamerProps
/-!
# Reading a program from a file

`GCodeParser::ReadFile` (gcode-parser.cc 1991-2006) is how the tools that only look at a program - `gcode-print-stats`
(determine-print-stats.cc 151) and `gcode2ps` (gcode2ps.cc 1160) - get at its lines. It does not use the line buffer
of the machine (linebuf-reader.cc) but `fgets`.
-/
namespace BeagleG.LineBuf

/-- `fgets` with room for `n` bytes and the terminating NUL: what it stores and what is left of the stream. It stops
behind a line feed, when there is no room, and at the end. (C library; not part of the repository.) -/
def fgets : Nat → List Byte → List Byte × List Byte
  | 0, s => ([], s)
  | _ + 1, [] => ([], [])
  | n + 1, c :: s => if c = LF then ([c], s) else (c :: (fgets n s).1, (fgets n s).2)

theorem fgets_append (n : Nat) (s : List Byte) : (fgets n s).1 ++ (fgets n s).2 = s := by
  induction n, s using fgets.induct with
  | case1 s => rfl
  | case2 n => rfl
  | case3 n s => simp [fgets]
  | case4 n c s h ih => simp [fgets, h, ih]

/-- A stream: its bytes, and whether an error comes behind them instead of the end.
`input_gcode_stream`, gcode-parser.cc 1991-2005. -/
structure Stream where
  bytes : List Byte
  fails : Bool
  deriving DecidableEq, Repr

/-- `fgets` looks behind the last byte: it has stored all there is and wanted more. gcode-parser.cc 1991-2005. -/
def wantsMore (n : Nat) (r : List Byte × List Byte) : Bool :=
  r.2.isEmpty && decide (r.1.length < n) && decide (r.1.getLast? ≠ some LF)

/-- The loop, lines 1994-1996: the blocks for the parser. `n` is one less than the size of the buffer. `fgets` returns
NULL if it has got nothing, and if it meets an error. The fuel is the number of bytes. -/
def blockList (n : Nat) (fails : Bool) : Nat → List Byte → List (List Byte)
  | 0, _ => []
  | fuel + 1, s =>
    let r := fgets n s
    if r.1 = [] then []
    else if fails && wantsMore n r then []
    else r.1 :: blockList n fails fuel r.2

/-- The blocks of a stream. gcode-parser.cc 1991-2005. -/
def blocks (n : Nat) (s : Stream) : List (List Byte) := blockList n s.fails s.bytes.length s.bytes

/-- `sizeof(buffer) - 1`, line 1993. -/
def fileRoom : Nat := 8191

/-- `ReadFile`, lines 1991-2005: result and what happens; `none`: no stream. The parser takes a block as a C string,
so that it ends at its first NUL. The message stream is left out. -/
def readFile : Option Stream → Bool × List Out
  | none => (false, [])
  | some s => (true, (blocks fileRoom s).map (fun b => .parse (cut b)) ++ [.close, .finished])

end BeagleG.LineBuf
