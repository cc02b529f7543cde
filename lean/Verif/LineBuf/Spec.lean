import Verif.LineBuf.Model
/-!
# Specification of line reading

A text is a list of lines, each with its own terminator.
-/
namespace BeagleG.LineBuf

/-- How a line ends. -/
inductive Term where
  | lf | crlf | cr
  deriving DecidableEq, Repr

/-- The characters at the end of a line. -/
def Term.bytes : Term → List Byte
  | .lf => [LF]
  | .crlf => [CR, LF]
  | .cr => [CR]

/-- No terminator character inside. -/
def Plain (l : List Byte) : Prop := ∀ c ∈ l, c ≠ CR ∧ c ≠ LF

instance (l : List Byte) : Decidable (Plain l) := by unfold Plain; infer_instance

/-- The bytes of a text. -/
def encode (ps : List (List Byte × Term)) : List Byte := ps.flatMap fun p => p.1 ++ p.2.bytes

/-- What a user of a C string sees of a line. -/
def cut (l : List Byte) : List Byte := l.takeWhile (· ≠ 0)

/-- Positions in order and inside the buffer. -/
def Buf.Wf (b : Buf) : Prop := b.start ≤ b.stop ∧ b.stop ≤ b.mem.length

/-- The usual way to use the reader: after each read take all lines. -/
def feed (b : Buf) : List (List Byte) → Option (Buf × List (List Byte))
  | [] => some (b, [])
  | chunk :: chunks => do
    let b ← update b (some chunk)
    let (b, ls) ← drain (b.stop - b.start + 1) b
    let (b, ls') ← feed b chunks
    return (b, ls ++ ls')

/-- The read callback keeps its contract along `feed`: it stores at most what it was offered. -/
def FeedOk (b : Buf) : List (List Byte) → Prop
  | [] => True
  | chunk :: chunks =>
    ∀ b1, compact b = some b1 → chunk.length ≤ offered b1 ∧
      ∀ b2 b3 ls, update b (some chunk) = some b2 → drain (b2.stop - b2.start + 1) b2 = some (b3, ls) →
        FeedOk b3 chunks

/-- Some line with a bare LF follows directly a line with a bare CR. -/
def CrThenLf (ps : List (List Byte × Term)) : Prop :=
  ∃ before l l' after, ps = before ++ (l, .cr) :: (l', .lf) :: after

/-- Reads and taking lines in any order: the lines that come out. -/
inductive Use where
  | read (bytes : List Byte)
  | take
  deriving DecidableEq, Repr

/-- Reads and taking lines, in turn. -/
def uses (b : Buf) : List Use → Option (Buf × List (List Byte))
  | [] => some (b, [])
  | .read bytes :: us => do uses (← update b (some bytes)) us
  | .take :: us => do
    let (b, r) ← readLine b
    let line := (r.map (cString b.mem)).toList
    let (b, ls) ← uses b us
    return (b, line ++ ls)

/-- The bytes of the reads. -/
def Use.bytes : Use → List Byte
  | .read bytes => bytes
  | .take => []

/-- Calls of the reader. -/
inductive Call where
  | update (result : Option (List Byte))
  | readLine
  | incompleteLine
  | flush
  deriving DecidableEq, Repr

/-- The effect of a call on the buffer. -/
def call (b : Buf) : Call → Option Buf
  | .update r => update b r
  | .readLine => (readLine b).map (·.1)
  | .incompleteLine => (incompleteLine b).map (·.1)
  | .flush => some (flush b)

/-- Calls in turn. -/
def calls (b : Buf) : List Call → Option Buf
  | [] => some b
  | c :: cs => do calls (← call b c) cs

/-- The contract of the read callback: at most as many bytes as offered. -/
def Contract (b : Buf) : Call → Prop
  | .update (some bytes) => ∀ b1, compact b = some b1 → bytes.length ≤ offered b1
  | _ => True

/-- Contract kept in a whole sequence of calls. -/
def Contracts (b : Buf) : List Call → Prop
  | [] => True
  | c :: cs => Contract b c ∧ ∀ b', call b c = some b' → Contracts b' cs

/-- No `IncompleteLine` on a buffer filled to its end. -/
def NotFull (b : Buf) : List Call → Prop
  | [] => True
  | c :: cs => (c = .incompleteLine → b.stop < b.mem.length) ∧ ∀ b', call b c = some b' → NotFull b' cs

/-! ### The streamer -/

/-- The chunks read in a sequence of events. -/
def chunksOf (es : List Event) : List (List Byte) :=
  es.filterMap fun
    | .readable (some c) => some c
    | _ => none

/-- Reads that end the stream: nothing read, or an error. -/
def EndsStream : Event → Prop
  | .readable r => r.getD [] = []
  | _ => False

/-- Leave out idle notifications and results of connecting. -/
def dataOuts (o : List Out) : List Out :=
  o.filter fun
    | .idle _ => false
    | .connect _ => false
    | _ => true

/-- One connection: idle time, connecting, events that do not end the stream, the end. -/
structure Session where
  idle : Nat
  body : List Event
  last : Event

/-- What happens during a connection. -/
def Session.events (c : Session) : List Event :=
  List.replicate c.idle .timeout ++ .connect :: (c.body ++ [c.last])

/-- Only the last event ends the stream. -/
def Session.Ok (c : Session) : Prop := (∀ e ∈ c.body, ¬ EndsStream e) ∧ EndsStream c.last

/-- Nobody connected, nothing left in the buffer. -/
structure Fresh (s : Streamer) : Prop where
  connected : s.connected = false
  empty : s.buf.content = []
  cr : s.buf.cr = false
  wf : s.buf.Wf

end BeagleG.LineBuf
