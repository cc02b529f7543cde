import Verif.LineBuf.Lemmas
import Mathlib.Tactic.Tauto
/-!
# C02, C03, C04: the line reader
-/
namespace BeagleG.LineBuf

/-! ### What `split` makes of a text -/

/-- The lines that come out: a line ended by LF after a line ended by CR is lost. -/
def kept : Bool → List (List Byte × Term) → List (List Byte)
  | _, [] => []
  | cr, (l, t) :: ps => if cr ∧ t = .lf then kept false ps else l :: kept (t = .cr) ps

/-- Was the last line ended by CR? -/
def lastCr : Bool → List (List Byte × Term) → Bool
  | cr, [] => cr
  | _, (_, t) :: ps => lastCr (t = .cr) ps

theorem split_encode : ∀ (ps : List (List Byte × Term)) (cr : Bool), (∀ p ∈ ps, Plain p.1) →
    split cr [] (encode ps) = (kept cr ps, lastCr cr ps, [])
  | [], cr, _ => by simp [encode, split, kept, lastCr]
  | (l, t) :: ps, cr, h => by
    have ih := fun cr => split_encode ps cr fun p hp => h p (by simp [hp])
    have hl : Plain l := h (l, t) (by simp)
    have e : encode ((l, t) :: ps) = l ++ (t.bytes ++ encode ps) := by simp [encode]
    rw [e, split_acc _ _ _ hl]
    cases t <;> cases cr <;> simp [Term.bytes, split, kept, lastCr, LF, CR, ih]

theorem kept_length : ∀ (ps : List (List Byte × Term)) (cr : Bool), (kept cr ps).length ≤ ps.length
  | [], _ => by simp [kept]
  | (l, t) :: ps, cr => by
    simp only [kept]
    split
    · have := kept_length ps false; simp; omega
    · have := kept_length ps (decide (t = .cr)); simp; omega

theorem kept_all : ∀ (ps : List (List Byte × Term)) (cr : Bool),
    kept cr ps = ps.map (·.1) ↔
      ¬ (CrThenLf ps ∨ (cr = true ∧ ∃ l after, ps = (l, .lf) :: after))
  | [], cr => by simp [kept, CrThenLf]
  | (l, t) :: ps, cr => by
    have hcons : CrThenLf ((l, t) :: ps) ↔ CrThenLf ps ∨ (t = .cr ∧ ∃ l' after, ps = (l', .lf) :: after) := by
      constructor
      · rintro ⟨before, a, b, after, h⟩
        cases before with
        | nil =>
          simp at h
          exact Or.inr ⟨h.1.2, b, after, h.2⟩
        | cons x before =>
          simp at h
          exact Or.inl ⟨before, a, b, after, h.2⟩
      · rintro (⟨before, a, b, after, rfl⟩ | ⟨rfl, b, after, rfl⟩)
        · exact ⟨(l, t) :: before, a, b, after, rfl⟩
        · exact ⟨[], l, b, after, rfl⟩
    simp only [kept]
    by_cases hc : cr = true ∧ t = .lf
    · rw [if_pos hc]
      constructor
      · intro h
        have h1 := kept_length ps false
        have h2 := congrArg List.length h
        simp at h2; omega
      · intro h
        exact absurd (Or.inr ⟨hc.1, l, ps, by rw [hc.2]⟩) h
    · rw [if_neg hc, hcons]
      have ih := kept_all ps (decide (t = .cr))
      simp only [List.map_cons, List.cons.injEq, true_and, ih]
      constructor
      · rintro h ((h' | ⟨ht, h'⟩) | ⟨h1, l', after, h2⟩)
        · exact h (Or.inl h')
        · exact h (Or.inr ⟨by simp [ht], h'⟩)
        · simp at h2; exact hc ⟨h1, h2.1.2⟩
      · rintro h (h' | ⟨ht, h'⟩)
        · exact h (Or.inl (Or.inl h'))
        · exact h (Or.inl (Or.inr ⟨by simpa using ht, h'⟩))

theorem kept_eq_of_length : ∀ (ps : List (List Byte × Term)) (cr : Bool),
    ps.length ≤ (kept cr ps).length → kept cr ps = ps.map (·.1)
  | [], _, _ => by simp [kept]
  | (l, t) :: ps, cr, h => by
    simp only [kept] at h ⊢
    by_cases hc : cr = true ∧ t = .lf
    · rw [if_pos hc] at h
      have := kept_length ps false
      simp at h; omega
    · rw [if_neg hc] at h ⊢
      simp at h
      simp [kept_eq_of_length ps _ h]

theorem kept_uniform (ls : List (List Byte)) (t : Term) : kept false (ls.map (·, t)) = ls := by
  have : kept false (ls.map (·, t)) = (ls.map (·, t)).map (·.1) := by
    rw [kept_all]
    rintro (⟨before, a, b, after, h⟩ | h)
    · have h1 : (a, Term.cr) ∈ ls.map (·, t) := by rw [h]; simp
      have h2 : (b, Term.lf) ∈ ls.map (·, t) := by rw [h]; simp
      simp only [List.mem_map, Prod.mk.injEq] at h1 h2
      obtain ⟨-, -, -, h1⟩ := h1
      obtain ⟨-, -, -, h2⟩ := h2
      rw [h1] at h2; exact absurd h2 (by decide)
    · simp at h
  rw [this, List.map_map]
  exact List.map_id' ls

theorem split_text (ps : List (List Byte × Term)) (rest : List Byte) (hp : ∀ p ∈ ps, Plain p.1)
    (hr : Plain rest) : split false [] (encode ps ++ rest) = (kept false ps, lastCr false ps, rest) := by
  rw [split_append, split_encode ps false hp]
  simp [split_plain rest _ _ hr]

/-! ### C02 -/

/-- C02. Whatever the reads: the lines of the stream come out, once each and in order, the
unterminated rest stays. The buffer may have any size, position and unread content. -/
theorem C02_lines (t : Term) (ls : List (List Byte)) (rest : List Byte) (hls : ∀ l ∈ ls, Plain l)
    (hrest : Plain rest) (b : Buf) (hwf : b.Wf) (hcr : b.cr = false) (hb : Plain b.content)
    (chunks : List (List Byte)) (hstream : b.content ++ chunks.flatten = encode (ls.map (·, t)) ++ rest)
    (hok : FeedOk b chunks) :
    ∃ b', feed b chunks = some (b', ls.map cut) ∧ b'.content = rest ∧ b'.Wf := by
  obtain ⟨⟨b', out⟩, hf⟩ := feed_total chunks b hwf hok
  obtain ⟨h1, h2, -, h4, -⟩ := feed_spec chunks b b' out hwf hb hf
  rw [hcr, ← split_acc _ _ _ hb, hstream, split_text _ _ (by simpa using hls) hrest, kept_uniform] at h1 h2
  exact ⟨b', by rw [hf, h1], h2, h4⟩

/-- C02. Only the bytes matter, not where the reads were cut nor how large the buffer is, for streams
with any mixture of bytes. -/
theorem C02_chunking (b1 b2 : Buf) (h1 : b1.Wf) (h2 : b2.Wf) (hp : Plain b1.content)
    (hc : b1.content = b2.content) (hcr : b1.cr = b2.cr) (chunks1 chunks2 : List (List Byte))
    (hsame : chunks1.flatten = chunks2.flatten) (ok1 : FeedOk b1 chunks1) (ok2 : FeedOk b2 chunks2) :
    ∃ b1' b2' out, feed b1 chunks1 = some (b1', out) ∧ feed b2 chunks2 = some (b2', out) ∧
      b1'.content = b2'.content ∧ b1'.cr = b2'.cr := by
  obtain ⟨⟨b1', o1⟩, hf1⟩ := feed_total chunks1 b1 h1 ok1
  obtain ⟨⟨b2', o2⟩, hf2⟩ := feed_total chunks2 b2 h2 ok2
  obtain ⟨a1, a2, a3, -⟩ := feed_spec chunks1 b1 b1' o1 h1 hp hf1
  obtain ⟨c1, c2, c3, -⟩ := feed_spec chunks2 b2 b2' o2 h2 (hc ▸ hp) hf2
  rw [← hc, ← hcr, ← hsame] at c1 c2 c3
  exact ⟨b1', b2', o1, hf1, by rw [hf2, c1, a1], by rw [a2, c2], by rw [a3, c3]⟩

/-- C02. Reading and taking lines may even be mixed in any order: at any time what was delivered,
followed by what can still be taken, is what the bytes read so far contain. -/
theorem C02_any_order : ∀ (us : List Use) (b b' : Buf) (out : List (List Byte)), b.Wf →
    uses b us = some (b', out) →
    b'.Wf ∧ (split b.cr [] (b.content ++ us.flatMap Use.bytes)).1.map cut
        = out ++ (split b'.cr [] b'.content).1.map cut ∧
      (split b.cr [] (b.content ++ us.flatMap Use.bytes)).2 = (split b'.cr [] b'.content).2
  | [], b, b', out, hwf, h => by
    simp only [uses, Option.some.injEq, Prod.mk.injEq] at h
    obtain ⟨rfl, rfl⟩ := h
    simp [hwf]
  | .read bytes :: us, b, b', out, hwf, h => by
    have hcon : ∀ b1, compact b = some b1 → bytes.length ≤ offered b1 := by
      intro b1 hb1
      rcases hu : update b (some bytes) with _ | b2
      · simp [uses, hu] at h
      · have := update_some_iff hb1 hu
        unfold offered; omega
    obtain ⟨b2, hu, hc2, hw2, hl2, hcr2⟩ := update_spec hwf bytes hcon
    simp only [uses, hu, Option.bind_eq_bind, Option.bind_some] at h
    have ih := C02_any_order us b2 b' out hw2 h
    rw [hc2, hcr2] at ih
    simpa [Use.bytes, List.append_assoc] using ih
  | .take :: us, b, b', out, hwf, h => by
    obtain ⟨b2, r, hr, hw2, -, -, hc2, hcr2, hl⟩ := readLine_safe hwf
    rcases hu : uses b2 us with _ | ⟨b3, ls⟩
    · simp [uses, hr, hu] at h
    · simp only [uses, hr, hu, Option.bind_eq_bind, Option.bind_some, Option.pure_def, Option.some.injEq,
        Prod.mk.injEq] at h
      obtain ⟨rfl, rfl⟩ := h
      obtain ⟨i1, i2, i3⟩ := C02_any_order us b2 b3 ls hw2 hu
      have e : split b.cr [] (b.content ++ us.flatMap Use.bytes)
          = ((nextLine b.cr [] b.content).1.toList ++ (split b2.cr [] (b2.content ++ us.flatMap Use.bytes)).1,
             (split b2.cr [] (b2.content ++ us.flatMap Use.bytes)).2) := by
        rw [split_append, nextLine_split b.content]
        revert hc2 hcr2 hl
        have hp := nextLine_plain b.content b.cr [] (by simp [Plain])
        revert hp
        rcases nextLine b.cr [] b.content with ⟨_ | l, cr', rest⟩
        · intro hp hc2 hcr2 hl
          simp only at hc2 hcr2 hp
          rw [hc2, hcr2, split_acc _ _ _ (hp trivial)]
          simp
        · intro hp hc2 hcr2 hl
          simp only at hc2 hcr2
          rw [hc2, hcr2, split_append rest]
          simp
      have ho : (r.map (cString b2.mem)).toList = (nextLine b.cr [] b.content).1.toList.map cut := by
        rw [hl]; cases (nextLine b.cr [] b.content).1 <;> rfl
      refine ⟨i1, ?_, ?_⟩
      · simp only [List.flatMap_cons, Use.bytes, List.nil_append]
        rw [e, ho, List.append_assoc, ← i2]; simp
      · simp only [List.flatMap_cons, Use.bytes, List.nil_append]
        rw [e]; exact i3

/-- C02. A reader that has been drained always offers room for more as long as the unterminated line is
shorter than half the buffer. -/
theorem C02_progress (b : Buf) (hwf : b.Wf) (hlen : b.content.length < b.mem.length - b.mem.length / 2) :
    ∃ b1, compact b = some b1 ∧ 0 < offered b1 := by
  obtain ⟨b1, h1, h2, h3, h4, -, -, h6⟩ := compact_spec hwf
  refine ⟨b1, h1, ?_⟩
  have := h3.2
  unfold offered
  by_contra hc
  have := h6 (by omega)
  omega

/-! ### C03 -/

/-- C03, as far as it holds: with any terminators, the lines come out unchanged exactly if no line ended
by LF follows directly a line ended by CR. (In that case lines are lost, see below.) -/
theorem C03_terminators_partial (ps : List (List Byte × Term)) (hps : ∀ p ∈ ps, Plain p.1)
    (hok : ¬ CrThenLf ps) (b : Buf) (hwf : b.Wf) (hcr : b.cr = false) (hb : b.content = [])
    (chunks : List (List Byte)) (hstream : chunks.flatten = encode ps) (hfeed : FeedOk b chunks) :
    ∃ b', feed b chunks = some (b', (ps.map (·.1)).map cut) ∧ b'.content = [] := by
  obtain ⟨⟨b', out⟩, hf⟩ := feed_total chunks b hwf hfeed
  obtain ⟨h1, h2, -, h4, -⟩ := feed_spec chunks b b' out hwf (by simp [hb, Plain]) hf
  rw [hcr, hb, hstream, split_encode _ _ hps, (kept_all ps false).2 (by simpa using hok)] at h1 h2
  exact ⟨b', by rw [hf, h1], h2⟩

/-- C03 fails: whenever some line ended by LF follows directly a line ended by CR, however the stream is
cut, fewer lines come out than the text has. -/
theorem C03_mixed_loses_lines (ps : List (List Byte × Term)) (hps : ∀ p ∈ ps, Plain p.1)
    (hbad : CrThenLf ps) (b b' : Buf) (hwf : b.Wf) (hcr : b.cr = false) (hb : b.content = [])
    (chunks : List (List Byte)) (hstream : chunks.flatten = encode ps) (out : List (List Byte))
    (hf : feed b chunks = some (b', out)) : out.length < ps.length := by
  obtain ⟨h1, -⟩ := feed_spec chunks b b' out hwf (by simp [hb, Plain]) hf
  rw [hcr, hb, hstream, split_encode _ _ hps] at h1
  subst h1
  have := kept_length ps false
  simp only [List.length_map]
  by_contra hc
  have hk : kept false ps ≠ ps.map (·.1) := by
    rw [Ne, kept_all]; simp [hbad]
  exact hk (kept_eq_of_length ps false (by omega))

/-- A text that is not ambiguous and whose line "b" disappears: "a" CR "b" LF "c" LF. -/
example : feed (Buf.init (List.replicate 16 0)) [encode [([97], .cr), ([98], .lf), ([99], .lf)]]
    = some (⟨[97, 0, 98, 10, 99, 0, 0, 0, 0, 0, 0, 0, 0, 0, 0, 0], 6, 6, false⟩, [[97], [99]]) := by
  decide +kernel

/-- Non-vacuity: CR LF cut between the two characters, and CR. -/
example : (feed (Buf.init (List.replicate 8 0)) [[97, 13], [10, 98, 98, 13], [99, 13], [10]]).map (·.2)
    = some [[97], [98, 98], [99]] := by decide +kernel

/-! ### C04 -/

/-- C04, as far as it holds: no call touches memory outside the buffer and the positions stay ordered,
if `IncompleteLine` is not called on a buffer that is filled to its last byte. -/
theorem C04_memory_safe_partial : ∀ (cs : List Call) (b : Buf), b.Wf → Contracts b cs → NotFull b cs →
    ∃ b', calls b cs = some b' ∧ b'.Wf ∧ b'.mem.length = b.mem.length
  | [], b, hwf, _, _ => ⟨b, rfl, hwf, rfl⟩
  | c :: cs, b, hwf, hcon, hnf => by
    have hstep : ∃ b1, call b c = some b1 ∧ b1.Wf ∧ b1.mem.length = b.mem.length := by
      cases c with
      | update r =>
        cases r with
        | none =>
          obtain ⟨b1, h1, -, h2, h3, -⟩ := update_none hwf
          exact ⟨b1, h1, h2, h3⟩
        | some bytes =>
          obtain ⟨b1, h1, -, h2, h3, -⟩ := update_spec hwf bytes hcon.1
          exact ⟨b1, h1, h2, h3⟩
      | readLine =>
        obtain ⟨b1, r, h1, h2, -, h3, -⟩ := readLine_safe hwf
        exact ⟨b1, by simp [call, h1], h2, h3⟩
      | incompleteLine =>
        obtain ⟨b1, r, h1, h2, h3, -⟩ := incompleteLine_safe hwf (hnf.1 rfl)
        exact ⟨b1, by simp [call, h1], h2, h3⟩
      | flush =>
        refine ⟨flush b, rfl, ⟨by simp [flush], ?_⟩, rfl⟩
        simp [flush]
    obtain ⟨b1, h1, h2, h3⟩ := hstep
    obtain ⟨b', i1, i2, i3⟩ := C04_memory_safe_partial cs b1 h2 (hcon.2 b1 h1) (hnf.2 b1 h1)
    exact ⟨b', by simp [calls, h1, i1], i2, by omega⟩

/-- C04. `IncompleteLine` writes outside the buffer exactly if the buffer is filled to its end. -/
theorem C04_incompleteLine_iff (b : Buf) (hwf : b.Wf) :
    incompleteLine b = none ↔ b.stop = b.mem.length := by
  constructor
  · intro h
    by_contra hc
    obtain ⟨b1, r, h1, -⟩ := incompleteLine_safe hwf (by have := hwf.2; omega)
    simp [h] at h1
  · intro h
    simp [incompleteLine, writeAt, h]
    omega

/-- C04 fails for every buffer size: a callback that keeps its contract and fills the buffer, followed by
`IncompleteLine`, makes the reader write behind the end of the buffer. -/
theorem C04_fails (mem : List Byte) :
    ∃ cs, Contracts (Buf.init mem) cs ∧ calls (Buf.init mem) cs = none := by
  refine ⟨[.update (some mem), .incompleteLine], ?_, ?_⟩
  · refine ⟨?_, fun b' _ => ⟨trivial, fun _ _ => trivial⟩⟩
    intro b1 h1
    simp [compact, Buf.init] at h1
    simp [← h1, offered]
  · simp [calls, call, update, compact, Buf.init, writeAt, incompleteLine]
    omega

/-- Non-vacuity of the partial theorem. -/
example : calls (Buf.init (List.replicate 4 0)) [.update (some [97, 10, 98]), .readLine, .incompleteLine, .flush]
    = some ⟨[97, 0, 98, 0], 0, 0, false⟩ := by decide +kernel

end BeagleG.LineBuf
