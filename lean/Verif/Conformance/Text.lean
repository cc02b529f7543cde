import Verif.Text.Model
import Verif.LineBuf.Model
import Verif.RingDeque.Model
import Verif.Conformance.Parser
/-!
# Text, lines, lexer and ring buffer do what the tests of the project expect

The tests of string-util_test.cc, simple-lexer_test.cc, linebuf-reader_test.cc, container_test.cc and
gcode-streamer_test.cc, run on the models. As all conformance checks these are tests, not proofs of properties. Not
included: `ParseFloat`, `ParseDouble` (`strtof` and `strtod` are parameters of the models), the reverse mapping of
the lexer, and `FixedArray`.
-/
namespace BeagleG.Conformance.Text
open BeagleG.Text
open BeagleG.Parser (text parseInt64)

/-! ### string-util_test.cc -/

/-- `TrimWhitespace` -/
example : trimWhitespace (text " \t  hello \n\r  ") = text "hello" ∧ trimWhitespace (text " \t ") = [] := by
  decide +kernel

/-- `ASCIIToLower` -/
example : toLowerString (text "Hello WORLD") = text "hello world" := by decide +kernel

/-- `HasPrefix` -/
example : hasPrefix (text "hello world") (text "hello") = some true ∧
    hasPrefix (text "hello world") (text "hellO") = some false := by decide +kernel

/-- `SplitString` -/
example : splitString (text "foo") (text ",") = [text "foo"] ∧
    splitString (text ",hello, world") (text ",") = [[], text "hello", text " world"] ∧
    splitString (text ",hello, world,") (text ",") = [[], text "hello", text " world", []] := by decide +kernel

/-- `ParseDecimalInt` -/
example : parseInt64 (text "hello") (-1) = -1 ∧ parseInt64 (text "123") (-1) = 123 ∧
    parseInt64 (text "+456") (-1) = 456 ∧ parseInt64 (text "-789") (-1) = -789 ∧ parseInt64 (text " 123 ") (-1) = 123 ∧
    parseInt64 (text "12345678901234") (-1) = 12345678901234 ∧ parseInt64 ((text "4255").take 2) (-1) = 42 ∧
    parseInt64 (text " +314cm") (-1) = 314 := by decide +kernel

/-! ### simple-lexer_test.cc -/

/-- The keywords of `SimpleKeywordMatching`. -/
def lexer : Trie := (build [(text "if", 1), (text "else", 2), (text "elseif", 3), (text "<", 4), (text "<=", 5)]
  Trie.empty).getD Trie.empty

/-- `SimpleKeywordMatching` -/
example : (["nothing", "elsx", "else", "elsefoo", "elseifbar", "<", "<=", "<hello"].map fun s => lexer.matchNext (text s)) =
    [some (0, text "nothing"), some (0, text "elsx"), some (2, []), some (2, text "foo"), some (3, text "bar"),
     some (4, []), some (5, []), some (4, text "hello")] := by decide +kernel

/-- `ParserEatsWhitespaceAround` -/
example : lexer.matchNext (text "  \n\rif  nextthing") = some (1, text "nextthing") := by decide +kernel

/-! ### linebuf-reader_test.cc -/

open LineBuf hiding Byte

/-- `kSampleLines` -/
def sampleLines : List (List Byte) := [text "This is a short line", text "This is another, longer line", [], []]

/-- `InputStreamSimulator::buffer_` -/
def stream (endline : List Byte) : List Byte := sampleLines.flatMap (· ++ endline)

/-- The loop of `SmallChunkReading`: the lines read while `chunks` arrive, one attempt after each chunk. -/
def readChunks : Buf → List (List Byte) → Option (Buf × List (List Byte))
  | b, [] => some (b, [])
  | b, c :: cs => do
    let b ← update b (some c)
    let (b, p) ← readLine b
    let (b', ls) ← readChunks b cs
    return (b', match p with | some p => cString b.mem p :: ls | none => ls)

/-- A buffer of a given size. -/
def buffer (n : Nat) : Buf := Buf.init (List.replicate n 0)

/-- `LargeChunkReading`: one read, then four lines, and then none (the buffer has 1024 bytes in the test). -/
def large (endline : List Byte) : Option (List (List Byte)) := do
  let b ← update (buffer 100) (some (stream endline))
  let (_, ls) ← drain 10 b
  return ls

/-- `SmallChunkReading`: byte by byte. -/
def small (endline : List Byte) : Option (List (List Byte)) :=
  (readChunks (buffer 100) ((stream endline).map fun c => [c])).map Prod.snd

/-- `TightBufferReading`: the buffer has room for the longest line and its end. -/
def tight (endline : List Byte) : Option (List (List Byte)) :=
  (readChunks (buffer (28 + endline.length)) ((stream endline).map fun c => [c])).map Prod.snd

example : ([text "\n", text "\r", text "\r\n"].all fun e =>
    large e = some sampleLines && small e = some sampleLines && tight e = some sampleLines) = true := by
  decide +kernel

/-! ### gcode-streamer_test.cc

Here together with the parser: what the machine is told, in order. `input_idle` and the end of the stream are told by the
streamer. -/

/-- What the test expects calls of. -/
inductive Call where
  | start
  | move (feed : Rat)
  | finished
  | idle (first : Bool)
  deriving DecidableEq

open BeagleG.Parser (State Event parseBlock finishProgram)

/-- The calls of the parser. -/
def callsOf (l : List (Event Rat)) : List Call := l.reverse.filterMap fun
  | .start => some .start
  | .coordinatedMove f _ => some (.move f)
  | .finished _ => some .finished
  | _ => none

/-- The streamer and the parser behind it. The parser notes what it has said in its log; the calls of the streamer
itself are put between. -/
def feed (st : State Rat) : List LineBuf.Out → Option (State Rat × List Call)
  | [] => some (st, [])
  | .parse l :: o =>
    match parseBlock Parser.num Parser.receiver 10 { st with log := [] } l with
    | .ok st => (feed st o).map fun r => (r.1, callsOf st.log ++ r.2)
    | _ => none
  | .finished :: o => (feed st o).map fun r => (r.1, Call.finished :: r.2)
  | .idle b :: o => (feed st o).map fun r => (r.1, Call.idle b :: r.2)
  | _ :: o => feed st o

/-- Runs what happens, starting with a streamer that has not seen anything. -/
def streamed (es : List LineBuf.Event) : Option (List Call) := do
  let (_, o) ← Streamer.run { buf := buffer 100, connected := false, processing := false } es
  let (_, c) ← feed Parser.start o
  return c

/-- Feed rate of the moves. -/
def rate : Rat := 1000 / 60

/-- `two_consecutive_connections`, the first connection: a line that is not complete is parsed at the end. -/
example : streamed [.connect, .readable (some (text "G1X200F1000")), .readable (some [])] =
    some [.start, .move rate, .finished] := by decide +kernel

/-- `basic_stream` -/
example : streamed [.connect, .readable (some (text "G1X200F1000\nG1X200F1000\n")),
      .readable (some (text "G1X200F1000\n")), .readable (some (text "G1X200F1000")), .timeout, .timeout,
      .readable (some [])] =
    some [.start, .move rate, .move rate, .move rate, .idle true, .idle false, .move rate, .finished] := by
  decide +kernel

/-! ### container_test.cc -/

open RingDeque

/-- `BasicOp`: size, emptiness and last element after each step. -/
example : (do
    let r0 := Ring.init Nat
    let r1 ← r0.append 4 42
    let r2 ← r1.append 4 1
    let r3 ← r2.popBack 4
    let r4 ← r3.popFront 4
    return ([r0, r1, r2, r3, r4].map fun r => (r.empty, r.size 4, r.back 4))) =
    some [(true, 0, none), (false, 1, some (some 42)), (false, 2, some (some 1)), (false, 1, some (some 42)),
      (true, 0, none)] := by decide +kernel

/-- `Wrapping` -/
example : ((Ring.init Nat).run 4 [.append 42, .append 42, .popFront, .popFront, .append 1, .append 2, .append 3]).map
    (fun r => (r.size 4, r.get 4 0, r.get 4 1, r.get 4 2)) =
    some (capacity 4, some (some 1), some (some 2), some (some 3)) ∧ capacity 4 = 3 := by decide +kernel

end BeagleG.Conformance.Text
