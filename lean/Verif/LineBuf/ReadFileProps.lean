import Verif.LineBuf.ReadFile
import Verif.Parser.FlowProps
/-!
# Reading a program from a file (C91)
-/
namespace BeagleG.LineBuf

/-- What can be one block: something, no more than there is room for, a line feed only at its end. -/
def Block (n : Nat) (b : List Byte) : Prop := b ≠ [] ∧ b.length ≤ n ∧ LF ∉ b.dropLast

/-- A block that does not need the end of the stream to end. -/
def Ended (n : Nat) (b : List Byte) : Prop := b.length = n ∨ b.getLast? = some LF

/-- A text cut into lines with their line feed, and lines that are too long cut into full blocks and the rest. -/
def IsBlocks (n : Nat) : List (List Byte) → Prop
  | [] => True
  | b :: bs => Block n b ∧ (bs ≠ [] → Ended n b) ∧ IsBlocks n bs

theorem fgets_nil {n : Nat} {s : List Byte} (hn : 0 < n) : (fgets n s).1 = [] ↔ s = [] := by
  obtain ⟨n, rfl⟩ : ∃ m, n = m + 1 := ⟨n - 1, by omega⟩
  cases s with
  | nil => simp [fgets]
  | cons c s => by_cases h : c = LF <;> simp [fgets, h]

theorem fgets_block (n : Nat) (s : List Byte) : (fgets n s).1.length ≤ n ∧ LF ∉ (fgets n s).1.dropLast ∧
    ((fgets n s).2 ≠ [] → Ended n (fgets n s).1) := by
  induction n, s using fgets.induct with
  | case1 s => simp [fgets, Ended]
  | case2 n => simp [fgets]
  | case3 n s => simp [fgets, Ended]
  | case4 n c s h ih =>
    obtain ⟨h1, h2, h3⟩ := ih
    simp only [fgets, h, if_false]
    refine ⟨by simp; omega, ?_, ?_⟩
    · cases hr : (fgets n s).1 with
      | nil => simp
      | cons a l =>
        rw [hr] at h2
        simp only [List.dropLast_cons_cons, List.mem_cons, not_or]
        exact ⟨fun e => h e.symm, h2⟩
    · intro hne
      rcases h3 hne with h | h
      · exact .inl (by simp [h])
      · refine .inr ?_
        cases hr : (fgets n s).1 with
        | nil => rw [hr] at h; simp at h
        | cons a l => rw [hr] at h; simpa using h

theorem blockList_spec {n : Nat} (hn : 0 < n) : ∀ (fuel : Nat) (s : List Byte), s.length ≤ fuel →
    (blockList n false fuel s).flatten = s ∧ IsBlocks n (blockList n false fuel s)
  | 0, s, h => by
    have : s = [] := List.length_eq_zero_iff.1 (by omega)
    subst this
    exact ⟨rfl, trivial⟩
  | fuel + 1, s, h => by
    have ha := fgets_append n s
    obtain ⟨b1, b2, b3⟩ := fgets_block n s
    by_cases he : (fgets n s).1 = []
    · have := (fgets_nil hn).1 he
      subst this
      simp [blockList, he, IsBlocks]
    · have hl : (fgets n s).2.length ≤ fuel := by
        have := congrArg List.length ha
        have := List.length_pos_iff.2 he
        simp at *
        omega
      obtain ⟨i1, i2⟩ := blockList_spec hn fuel (fgets n s).2 hl
      simp only [blockList, he, if_false, Bool.false_and, Bool.false_eq_true]
      refine ⟨by simp [i1, ha], ⟨he, b1, b2⟩, fun hne => b3 ?_, i2⟩
      intro h0
      apply hne
      rw [h0] at i1 ⊢
      cases fuel with
      | zero => rfl
      | succ m => simp [blockList, (fgets_nil (s := []) hn).2 rfl]

/-- **C91, all of the file.** Whatever is in a file: the blocks put together are the file, and they are its lines with
their line feeds, where only a line that is longer than 8191 bytes is cut. -/
theorem C91_blocks (bytes : List Byte) :
    (blocks fileRoom ⟨bytes, false⟩).flatten = bytes ∧ IsBlocks fileRoom (blocks fileRoom ⟨bytes, false⟩) :=
  blockList_spec (by decide) _ _ (Nat.le_refl _)

theorem fgets_ended {n : Nat} : ∀ (b rest : List Byte), b.length ≤ n → LF ∉ b.dropLast → (rest = [] ∨ Ended n b) →
    (0 < n) → fgets n (b ++ rest) = (b, rest) := by
  induction n with
  | zero => intro b rest _ _ _ h; omega
  | succ n ih =>
    intro b rest h1 h2 h3 _
    cases b with
    | nil =>
      rcases h3 with rfl | h | h
      · rfl
      · simp at h
      · simp at h
    | cons c b =>
      simp only [List.cons_append, fgets]
      cases b with
      | nil =>
        by_cases hc : c = LF
        · simp [hc]
        · simp only [hc, if_false, List.nil_append]
          rcases h3 with rfl | h | h
          · cases n <;> rfl
          · obtain rfl : n = 0 := by simp at h; omega
            rfl
          · simp at h; exact absurd h hc
      | cons d b =>
        simp only [List.dropLast_cons_cons, List.mem_cons, not_or] at h2
        rw [if_neg (fun e => h2.1 e.symm)]
        have hn : 0 < n := by simp at h1; omega
        rw [ih (d :: b) rest (by simpa using h1) h2.2 ?_ hn]
        rcases h3 with h | h | h
        · exact .inl h
        · exact .inr (.inl (by simpa using h))
        · exact .inr (.inr (by simpa using h))

theorem blockList_unique {n : Nat} (hn : 0 < n) : ∀ (bs : List (List Byte)) (fuel : Nat), IsBlocks n bs →
    bs.flatten.length ≤ fuel → blockList n false fuel bs.flatten = bs
  | [], fuel, _, _ => by
    cases fuel with
    | zero => rfl
    | succ m => simp [blockList, (fgets_nil (s := []) hn).2 rfl]
  | b :: bs, fuel, ⟨⟨h1, h2, h3⟩, h4, h5⟩, hl => by
    have hp := List.length_pos_iff.2 h1
    obtain ⟨fuel, rfl⟩ : ∃ m, fuel = m + 1 := ⟨fuel - 1, by simp at hl; omega⟩
    have hf : fgets n (b ++ bs.flatten) = (b, bs.flatten) := by
      refine fgets_ended b _ h2 h3 ?_ hn
      by_cases he : bs = []
      · exact .inl (by simp [he])
      · exact .inr (h4 he)
    simp only [List.flatten_cons, blockList, hf, h1, if_false, Bool.false_and, Bool.false_eq_true]
    rw [blockList_unique hn bs fuel h5 (by simp at hl ⊢; omega)]

/-- **C91, in one way.** There is only one way to cut a file like that. -/
theorem C91_unique (bs : List (List Byte)) (h : IsBlocks fileRoom bs) :
    blocks fileRoom ⟨bs.flatten, false⟩ = bs :=
  blockList_unique (by decide) bs _ h (Nat.le_refl _)

/-- The blocks of a text. -/
def textBlocks (ps : List (List Byte × Term)) (rest : List Byte) : List (List Byte) :=
  ps.map (fun p => p.1 ++ p.2.bytes) ++ if rest = [] then [] else [rest]

theorem textBlocks_flatten (ps : List (List Byte × Term)) (rest : List Byte) :
    (textBlocks ps rest).flatten = encode ps ++ rest := by
  unfold textBlocks encode
  rw [List.flatten_append, List.flatMap_def]
  by_cases h : rest = [] <;> simp [h]

theorem textBlocks_ok {n : Nat} (ps : List (List Byte × Term)) (rest : List Byte)
    (hps : ∀ p ∈ ps, Plain p.1 ∧ p.2 ≠ .cr ∧ (p.1 ++ p.2.bytes).length ≤ n) (hr : Plain rest) (hrl : rest.length ≤ n) :
    IsBlocks n (textBlocks ps rest) := by
  induction ps with
  | nil =>
    by_cases h : rest = []
    · simp [textBlocks, h, IsBlocks]
    · simp only [textBlocks, h, if_false, List.map_nil, List.nil_append, IsBlocks, and_true]
      refine ⟨⟨h, hrl, fun hm => (hr _ (List.dropLast_subset _ hm)).2 rfl⟩, fun h => absurd rfl h⟩
  | cons p ps ih =>
    obtain ⟨l, t⟩ := p
    obtain ⟨h1, h2, h3⟩ := hps (l, t) (by simp)
    have hpl : LF ∉ l := fun hm => (h1 _ hm).2 rfl
    refine ⟨⟨?_, h3, ?_⟩, fun _ => .inr ?_, ih fun p hp => hps p (by simp [hp])⟩
    · cases t <;> simp [Term.bytes]
    · cases t
      · simpa [Term.bytes] using hpl
      · have : l ++ Term.crlf.bytes = (l ++ [CR]) ++ [LF] := by simp [Term.bytes]
        show LF ∉ (l ++ Term.crlf.bytes).dropLast
        rw [this, List.dropLast_concat]
        simp only [List.mem_append, List.mem_singleton, not_or]
        exact ⟨hpl, by decide⟩
      · exact absurd rfl h2
    · cases t
      · simp [Term.bytes]
      · simp [Term.bytes]
      · exact absurd rfl h2

/-- **C91, lines.** A file of lines of at most 8191 bytes (with terminators), each ended by LF or CR LF, and possibly
more behind the last: the parser gets each line together with its terminator, in order, then the rest if there is one;
then the file is closed and the end announced; the result is true. -/
theorem C91_lines_partial (ps : List (List Byte × Term)) (rest : List Byte)
    (hps : ∀ p ∈ ps, Plain p.1 ∧ p.2 ≠ .cr ∧ (p.1 ++ p.2.bytes).length ≤ fileRoom) (hr : Plain rest)
    (hrl : rest.length ≤ fileRoom) :
    readFile (some ⟨encode ps ++ rest, false⟩) =
      (true, (textBlocks ps rest).map (fun b => .parse (cut b)) ++ [.close, .finished]) := by
  have := C91_unique _ (textBlocks_ok ps rest hps hr hrl)
  rw [textBlocks_flatten] at this
  simp only [readFile, this]

/-- The terminator taken off. -/
def strip (l : List Byte) : List Byte := l.takeWhile fun c => c ≠ CR ∧ c ≠ LF

theorem strip_plain {l t : List Byte} (h : Plain l) (ht : t.head? = some CR ∨ t.head? = some LF ∨ t = []) :
    strip (l ++ t) = l := by
  induction l with
  | nil =>
    cases t with
    | nil => rfl
    | cons c t =>
      rcases ht with h | h | h
      · simp at h; subst h; simp [strip]
      · simp at h; subst h; simp [strip]
      · cases h
  | cons c l ih =>
    have hc := h c (by simp)
    have := ih fun x hx => h x (by simp [hx])
    simp only [strip] at this ⊢
    rw [List.cons_append, List.takeWhile_cons_of_pos (by simpa using hc), this]

theorem cut_noNul {l : List Byte} (h : ∀ c ∈ l, c ≠ 0) : cut l = l := by
  unfold cut
  induction l with
  | nil => rfl
  | cons c l ih =>
    rw [List.takeWhile_cons_of_pos (by simpa using h c (by simp)), ih fun x hx => h x (by simp [hx])]

/-- The lines the parser gets to see, without their terminators. -/
def linesOf (outs : List Out) : List (List Byte) := outs.filterMap fun
  | .parse l => some (strip l)
  | _ => none

/-- **C91, the same program.** For a text without NUL of lines of at most 8189 bytes with one kind of terminator, LF
or CR LF: the lines the parser gets from a file are those it gets from a connection over which the text comes in
pieces - up to their terminators, and up to an empty line at the end if there is nothing behind the last
terminator. -/
theorem C91_same_partial (t : Term) (ht : t ≠ .cr) (ls : List (List Byte)) (rest : List Byte)
    (hls : ∀ l ∈ ls, Plain l ∧ (∀ c ∈ l, c ≠ 0) ∧ l.length ≤ 8189) (hrest : Plain rest) (hrn : ∀ c ∈ rest, c ≠ 0)
    (hrl : rest.length ≤ 8191)
    (c : Session) (hc : c.Ok) (s : Streamer) (hs : Fresh s)
    (hstream : (chunksOf c.body).flatten = encode (ls.map (·, t)) ++ rest)
    (hfeed : FeedOk s.buf (chunksOf c.body)) (hlen : rest.length < s.buf.mem.length - s.buf.mem.length / 2) :
    ∃ s' outs, s.run c.events = some (s', outs) ∧
      linesOf (dataOuts outs) = ls ++ [rest] ∧
      linesOf (readFile (some ⟨(chunksOf c.body).flatten, false⟩)).2 = ls ++ if rest = [] then [] else [rest] := by
  obtain ⟨s', outs, h1, -, -, h4, -⟩ :=
    C17_session_partial t ht ls rest (fun l hl => (hls l hl).1) hrest c hc s hs hstream hfeed hlen
  have hpl : ∀ l ∈ ls ++ [rest], strip (cut l) = l := by
    intro l hl
    have : Plain l ∧ ∀ c ∈ l, c ≠ 0 := by
      rcases List.mem_append.1 hl with h | h
      · exact ⟨(hls l h).1, (hls l h).2.1⟩
      · simp at h; subst h; exact ⟨hrest, hrn⟩
    rw [cut_noNul this.2]
    simpa using strip_plain (t := []) this.1 (by simp)
  have hmap : ∀ (f : List Byte → List Byte) (xs : List (List Byte)) (e : List Out), linesOf e = [] →
      linesOf (xs.map (fun l => .parse (f l)) ++ e) = xs.map fun l => strip (f l) := by
    intro f xs e he
    simp only [linesOf] at he ⊢
    rw [List.filterMap_append, he, List.append_nil]
    induction xs with
    | nil => rfl
    | cons x xs ih => simp [ih]
  refine ⟨s', outs, h1, ?_, ?_⟩
  · rw [h4, hmap cut _ _ rfl]
    rw [List.map_congr_left hpl, List.map_id']
  · rw [hstream, C91_lines_partial (ls.map (·, t)) rest ?_ hrest hrl, hmap cut _ _ rfl]
    · have : ∀ l ∈ ls, strip (cut (l ++ t.bytes)) = l := by
        intro l hl
        rw [cut_noNul]
        · exact strip_plain (hls l hl).1 (by cases t <;> simp [Term.bytes])
        · intro c hc
          rcases List.mem_append.1 hc with h | h
          · exact (hls l hl).2.1 c h
          · cases t <;> simp [Term.bytes] at h
            · subst h; decide
            · rcases h with rfl | rfl <;> decide
            · subst h; decide
      simp only [textBlocks, List.map_append, List.map_map]
      congr 1
      · conv => rhs; rw [← List.map_id' ls]
        exact List.map_congr_left this
      · by_cases he : rest = []
        · simp [he]
        · simp [he, hpl rest (by simp)]
    · intro p hp
      obtain ⟨l, hl, rfl⟩ := List.mem_map.1 hp
      refine ⟨(hls l hl).1, ht, ?_⟩
      have := (hls l hl).2.2
      cases t <;> simp [Term.bytes, fileRoom] <;> omega

/-- **C91, no file**: nothing happens, and the result is false. -/
theorem C91_none (f : Option Stream) : (readFile f).1 = false ↔ f = none := by
  cases f <;> simp [readFile]

/-- **C91, the end is always announced**, as the last thing and once, after the file has been closed. -/
theorem C91_finished (s : Stream) : ∃ ls : List (List Byte),
    readFile (some s) = (true, ls.map .parse ++ [.close, .finished]) :=
  ⟨(blocks fileRoom s).map cut, by simp [readFile, Function.comp_def]⟩

theorem blockList_error {n : Nat} (hn : 0 < n) : ∀ (bs : List (List Byte)) (rest : List Byte) (fuel : Nat),
    IsBlocks n bs → (∀ b ∈ bs, Ended n b) → LF ∉ rest → rest.length < n →
    (bs.flatten ++ rest).length ≤ fuel → blockList n true fuel (bs.flatten ++ rest) = bs
  | [], rest, fuel, _, _, h1, h2, h3 => by
    cases fuel with
    | zero => rfl
    | succ m =>
      have hf : fgets n (rest ++ []) = (rest, []) :=
        fgets_ended rest [] (by omega) (fun h => h1 (List.dropLast_subset _ h)) (.inl rfl) hn
      rw [List.append_nil] at hf
      simp only [List.flatten_nil, List.nil_append, blockList, hf]
      by_cases he : rest = []
      · simp [he]
      · have : wantsMore n (rest, []) = true := by
          simp only [wantsMore, List.isEmpty_nil, Bool.true_and, Bool.and_eq_true, decide_eq_true_eq]
          exact ⟨h2, fun h => h1 (List.mem_of_getLast? h)⟩
        simp [he, this]
  | b :: bs, rest, fuel, ⟨⟨h1, h2, h3⟩, h4, h5⟩, hend, hr, hrl, hl => by
    have hp := List.length_pos_iff.2 h1
    obtain ⟨fuel, rfl⟩ : ∃ m, fuel = m + 1 := ⟨fuel - 1, by simp at hl; omega⟩
    have hb := hend b (by simp)
    have hf : fgets n (b ++ (bs.flatten ++ rest)) = (b, bs.flatten ++ rest) := fgets_ended b _ h2 h3 (.inr hb) hn
    have hw : wantsMore n (b, bs.flatten ++ rest) = false := by
      simp only [wantsMore, Bool.and_eq_false_iff, decide_eq_false_iff_not]
      rcases hb with h | h
      · exact .inl (.inr (by omega))
      · exact .inr (by simpa using h)
    simp only [List.flatten_cons, List.append_assoc, blockList, hf, h1, if_false, hw, Bool.and_false,
      Bool.false_eq_true]
    rw [blockList_error hn bs rest fuel h5 (fun x hx => hend x (by simp [hx])) hr hrl
      (by simp at hl ⊢; omega)]

/-- **C91, a failing disk.** If reading fails after some blocks, what has been read of the next one is dropped; the end
is announced and the result is true as if the file ended there. -/
theorem C91_error (bs : List (List Byte)) (rest : List Byte) (h : IsBlocks fileRoom bs)
    (he : ∀ b ∈ bs, Ended fileRoom b) (hr : LF ∉ rest) (hl : rest.length < fileRoom) :
    readFile (some ⟨bs.flatten ++ rest, true⟩) = (true, bs.map (fun b => .parse (cut b)) ++ [.close, .finished]) := by
  simp only [readFile, blocks]
  rw [blockList_error (by decide) bs rest _ h he hr hl (Nat.le_refl _)]

/-- **C91 fails for a line that is too long**: what is behind the first 8191 bytes of a comment is a block of its own,
while the streamer passes the line as one. -/
theorem C91_long_line (x : List Byte) (hx : ∀ c ∈ x, c ≠ LF) (hlen : x.length = fileRoom) (y : List Byte)
    (hy : ∀ c ∈ y, c ≠ LF) (hly : y.length < fileRoom) :
    blocks fileRoom ⟨x ++ y ++ [LF], false⟩ = [x, y ++ [LF]] := by
  have hlf : ∀ l : List Byte, (∀ c ∈ l, c ≠ LF) → LF ∉ l := fun l h hm => h _ hm rfl
  have := C91_unique [x, y ++ [LF]] ⟨⟨?_, by omega, fun h => hlf x hx (List.dropLast_subset _ h)⟩, fun _ => .inl hlen,
    ⟨by simp, by simp; omega, by simpa using hlf y hy⟩, fun h => absurd rfl h, trivial⟩
  · simpa using this
  · rintro rfl
    simp [fileRoom] at hlen

/-- **C91 fails for CR as terminator**: lines ended by CR are one block, as long as there is room. -/
theorem C91_cr (ls : List (List Byte)) (hls : ∀ l ∈ ls, Plain l) (hne : ls ≠ [])
    (hlen : (encode (ls.map (·, .cr))).length ≤ fileRoom) :
    blocks fileRoom ⟨encode (ls.map (·, .cr)), false⟩ = [encode (ls.map (·, .cr))] := by
  have hlf : LF ∉ encode (ls.map (·, .cr)) := by
    intro h
    obtain ⟨p, hp, h⟩ := List.mem_flatMap.1 h
    obtain ⟨l, hl, rfl⟩ := List.mem_map.1 hp
    rcases List.mem_append.1 h with h | h
    · exact (hls l hl _ h).2 rfl
    · simp [Term.bytes] at h; exact absurd h (by decide)
  have := C91_unique [encode (ls.map (·, .cr))] ⟨⟨?_, hlen, fun h => hlf (List.dropLast_subset _ h)⟩,
    fun h => absurd rfl h, trivial⟩
  · simpa using this
  · cases ls with
    | nil => exact absurd rfl hne
    | cons l ls => simp [encode, Term.bytes]

/-! ### The same lines, another program -/

open BeagleG.Parser (runLines exNum exReceiver exState text lookup)

/-- A loop whose first line ends in a comment. -/
def loopProgram : List (List Byte) :=
  ["#1=0", "WHILE [#1<2] DO", "#1++ ; count", "#2=5", "END"].map text

/-- The texts of the blocks. -/
def parsedText (outs : List Out) : List (List Byte) := outs.filterMap fun
  | .parse l => some l
  | _ => none

/-- **C91 fails for loops**: the parser puts the lines of the body of a loop together as they are. From a file they
come with their line feed; from a connection they come without, so that a comment at the end of one line is also
before the next line. The same text sets parameter 2 if it is read from a file, and does not if it comes over a
connection: what the tools show of a program is not what the machine does. -/
theorem C91_loop : (∃ st, runLines exNum (exReceiver true) 50 exState
      (parsedText (readFile (some ⟨encode (loopProgram.map (·, .lf)), false⟩)).2) = .ok st ∧
      lookup exNum st (text "1") = 2 ∧ lookup exNum st (text "2") = 5) ∧
    ∃ st, runLines exNum (exReceiver true) 50 exState (loopProgram ++ [[]]) = .ok st ∧
      lookup exNum st (text "1") = 2 ∧ lookup exNum st (text "2") = 0 :=
  ⟨⟨_, rfl, by decide +kernel, by decide +kernel⟩, ⟨_, rfl, by decide +kernel, by decide +kernel⟩⟩

/-- The second list of lines in `C91_loop` is the one a connection yields. -/
example : parsedOf (encode (loopProgram.map (·, .lf))) = loopProgram ++ [[]] := by decide +kernel

/-- Non-vacuity of `C91_lines_partial`, with mixed terminators. -/
example : readFile (some ⟨text "G1" ++ [CR, LF] ++ text "X" ++ [LF] ++ text "M2", false⟩) =
    (true, [.parse (text "G1" ++ [CR, LF]), .parse (text "X" ++ [LF]), .parse (text "M2"), .close, .finished]) := by
  decide +kernel

/-- A file that ends in a line feed has no empty line at its end. -/
example : readFile (some ⟨text "G1" ++ [LF], false⟩) = (true, [.parse (text "G1" ++ [LF]), .close, .finished]) := by
  decide +kernel

/-- Non-vacuity of `C91_error`. -/
example : readFile (some ⟨text "G1" ++ [LF] ++ text "X", true⟩) =
    (true, [.parse (text "G1" ++ [LF]), .close, .finished]) := by decide +kernel

end BeagleG.LineBuf
