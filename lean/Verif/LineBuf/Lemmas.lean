import Verif.LineBuf.Spec
import Mathlib.Tactic.ByContra
import Mathlib.Tactic.Tauto
/-!
# The buffer refines a splitter that sees one byte at a time
-/
namespace BeagleG.LineBuf

/-- The next line of a byte sequence: line, state of `cr_seen_`, what is left. -/
def nextLine : Bool → List Byte → List Byte → Option (List Byte) × Bool × List Byte
  | cr, acc, [] => (none, cr, acc)
  | cr, acc, c :: cs =>
    if cr && c = LF then nextLine false [] cs
    else if c = CR ∨ c = LF then (some acc, c = CR, cs)
    else nextLine cr (acc ++ [c]) cs

/-- All lines. -/
def split : Bool → List Byte → List Byte → List (List Byte) × Bool × List Byte
  | cr, acc, [] => ([], cr, acc)
  | cr, acc, c :: cs =>
    if cr && c = LF then split false [] cs
    else if c = CR ∨ c = LF then
      (acc :: (split (c = CR) [] cs).1, (split (c = CR) [] cs).2)
    else split cr (acc ++ [c]) cs

/-- Where the content is. -/
structure Rep (b : Buf) (pre c post : List Byte) : Prop where
  mem : b.mem = pre ++ c ++ post
  start : b.start = pre.length
  stop : b.stop = pre.length + c.length

theorem Rep.content {b : Buf} {pre c post} (h : Rep b pre c post) : b.content = c := by
  simp [Buf.content, h.mem, h.start, h.stop]

theorem Buf.Wf.rep {b : Buf} (h : b.Wf) :
    Rep b (b.mem.take b.start) b.content (b.mem.drop b.stop) := by
  obtain ⟨h1, h2⟩ := h
  refine ⟨?_, by simp; omega, ?_⟩
  · have e : b.mem.drop b.stop = (b.mem.drop b.start).drop (b.stop - b.start) := by
      rw [List.drop_drop]; congr 1; omega
    rw [Buf.content, e, List.append_assoc, List.take_append_drop, List.take_append_drop]
  · simp [Buf.content]; omega

theorem Rep.wf {b : Buf} {pre c post} (h : Rep b pre c post) : b.Wf := by
  constructor
  · rw [h.start, h.stop]; omega
  · rw [h.stop, h.mem]; simp

theorem content_length {b : Buf} (h : b.Wf) : b.content.length = b.stop - b.start := by
  have := h.rep.stop
  have h3 := h.rep.start
  omega

theorem takeWhile_cut (line rest : List Byte) :
    (line ++ 0 :: rest).takeWhile (· ≠ 0) = cut line := by
  induction line with
  | nil => simp [cut]
  | cons a l ih =>
    by_cases h : a = 0
    · simp [cut, h]
    · have := ih
      simp only [cut] at this ⊢
      simp [h] at this ⊢
      exact this

theorem scan_spec (stop : Nat) (post : List Byte) : ∀ (bytes : List Byte) (cr : Bool) (pre acc : List Byte),
    stop = pre.length + acc.length + bytes.length →
    ∃ b r, scan (pre ++ acc ++ bytes ++ post) stop cr pre.length (pre.length + acc.length) bytes.length
        = some (b, r) ∧
      (∃ pre', Rep b pre' (nextLine cr acc bytes).2.2 post) ∧ b.stop = stop ∧
      b.cr = (nextLine cr acc bytes).2.1 ∧
      r.map (cString b.mem) = (nextLine cr acc bytes).1.map cut
  | [], cr, pre, acc, hs => by
    refine ⟨_, _, rfl, ⟨pre, ?_⟩, rfl, rfl, rfl⟩
    simp only [nextLine]
    constructor
    · simp
    · rfl
    · simpa using hs
  | c :: cs, cr, pre, acc, hs => by
    have hget : (pre ++ acc ++ c :: cs ++ post)[pre.length + acc.length]? = some c := by
      rw [List.append_assoc, List.getElem?_append_right (by simp)]
      simp
    simp only [List.length_cons, scan, hget, nextLine]
    by_cases h1 : (cr && decide (c = LF)) = true
    · rw [if_pos h1, if_pos h1]
      have := scan_spec stop post cs false (pre ++ acc ++ [c]) [] (by simp at hs ⊢; omega)
      simpa [Nat.add_assoc] using this
    · rw [if_neg h1, if_neg h1]
      by_cases h2 : c = CR ∨ c = LF
      · rw [if_pos h2, if_pos h2]
        have e : (pre ++ acc ++ c :: cs ++ post).set (pre.length + acc.length) 0
            = (pre ++ acc ++ [0]) ++ cs ++ post := by
          rw [List.append_assoc, List.set_append_right _ _ (by simp)]
          simp
        refine ⟨_, _, rfl, ⟨pre ++ acc ++ [0], ⟨e, ?_, ?_⟩⟩, rfl, rfl, ?_⟩
        · simp; omega
        · simp at hs ⊢; omega
        · simp only [Option.map_some, e, cString]
          congr 1
          have : (pre ++ acc ++ [0] ++ cs ++ post).drop pre.length = acc ++ 0 :: (cs ++ post) := by
            simp
          rw [this, takeWhile_cut]
      · rw [if_neg h2, if_neg h2]
        have := scan_spec stop post cs cr pre (acc ++ [c]) (by simp at hs ⊢; omega)
        simpa [Nat.add_assoc] using this

theorem readLine_spec {b : Buf} {pre c post : List Byte} (h : Rep b pre c post) :
    ∃ b' r, readLine b = some (b', r) ∧ (∃ pre', Rep b' pre' (nextLine b.cr [] c).2.2 post) ∧
      b'.stop = b.stop ∧ b'.cr = (nextLine b.cr [] c).2.1 ∧
      r.map (cString b'.mem) = (nextLine b.cr [] c).1.map cut := by
  have := scan_spec b.stop post c b.cr pre [] (by simpa using h.stop)
  have e : b.stop - b.start = c.length := by rw [h.stop, h.start]; omega
  rw [readLine, e, h.mem, h.start]
  simpa using this

theorem nextLine_split : ∀ (bytes : List Byte) (cr : Bool) (acc : List Byte),
    split cr acc bytes = match nextLine cr acc bytes with
      | (none, cr', rest) => ([], cr', rest)
      | (some l, cr', rest) => (l :: (split cr' [] rest).1, (split cr' [] rest).2)
  | [], cr, acc => by simp [split, nextLine]
  | c :: cs, cr, acc => by
    simp only [split, nextLine]
    by_cases h1 : (cr && decide (c = LF)) = true
    · rw [if_pos h1, if_pos h1]; exact nextLine_split cs false []
    · rw [if_neg h1, if_neg h1]
      by_cases h2 : c = CR ∨ c = LF
      · rw [if_pos h2, if_pos h2]
      · rw [if_neg h2, if_neg h2]; exact nextLine_split cs cr (acc ++ [c])

theorem nextLine_length : ∀ (bytes : List Byte) (cr : Bool) (acc : List Byte) (l : List Byte),
    (nextLine cr acc bytes).1 = some l → (nextLine cr acc bytes).2.2.length < bytes.length
  | [], cr, acc, l, h => by simp [nextLine] at h
  | c :: cs, cr, acc, l, h => by
    simp only [nextLine] at h ⊢
    by_cases h1 : (cr && decide (c = LF)) = true
    · rw [if_pos h1] at h ⊢
      have := nextLine_length cs false [] l h
      simp; omega
    · rw [if_neg h1] at h ⊢
      by_cases h2 : c = CR ∨ c = LF
      · rw [if_pos h2]; simp
      · rw [if_neg h2] at h ⊢
        have := nextLine_length cs cr (acc ++ [c]) l h
        simp; omega

theorem drain_spec (post : List Byte) : ∀ (n : Nat) (b : Buf) (pre c : List Byte), Rep b pre c post → c.length < n →
    ∃ b', drain n b = some (b', (split b.cr [] c).1.map cut) ∧
      (∃ pre', Rep b' pre' (split b.cr [] c).2.2 post) ∧ b'.stop = b.stop ∧
      b'.cr = (split b.cr [] c).2.1
  | 0, _, _, _, _, h => absurd h (by omega)
  | n + 1, b, pre, c, h, hn => by
    obtain ⟨b1, r, hr, ⟨pre1, h1⟩, hst, hcr, hl⟩ := readLine_spec h
    rw [nextLine_split]
    have hlen := nextLine_length c b.cr []
    revert h1 hcr hl hlen
    rcases nextLine b.cr [] c with ⟨_ | l, cr', rest⟩
    · intro h1 hcr hl hlen
      cases r with
      | some p => simp at hl
      | none => exact ⟨b1, by simp [drain, hr], ⟨pre1, h1⟩, hst, hcr⟩
    · intro h1 hcr hl hlen
      cases r with
      | none => simp at hl
      | some p =>
        simp only [Option.map_some, Option.some.injEq] at hl
        simp only at h1 hcr hlen
        obtain ⟨b', hd, hrep, hst', hcr'⟩ := drain_spec post n b1 pre1 rest h1 (by have := hlen l rfl; omega)
        refine ⟨b', ?_, ?_, by omega, ?_⟩
        · simp only [drain, hr, hd, hl, hcr, List.map_cons]
        · simpa [hcr] using hrep
        · simpa [hcr] using hcr'

/-! ### `split` as a function of the stream -/

theorem split_append : ∀ (x y : List Byte) (cr : Bool) (acc : List Byte),
    split cr acc (x ++ y) = ((split cr acc x).1 ++ (split (split cr acc x).2.1 (split cr acc x).2.2 y).1,
      (split (split cr acc x).2.1 (split cr acc x).2.2 y).2)
  | [], y, cr, acc => by simp [split]
  | c :: cs, y, cr, acc => by
    simp only [List.cons_append, split]
    by_cases h1 : (cr && decide (c = LF)) = true
    · rw [if_pos h1, if_pos h1]; exact split_append cs y false []
    · rw [if_neg h1, if_neg h1]
      by_cases h2 : c = CR ∨ c = LF
      · rw [if_pos h2, if_pos h2, split_append cs y]; simp
      · rw [if_neg h2, if_neg h2]; exact split_append cs y cr (acc ++ [c])

theorem split_plain : ∀ (l : List Byte) (cr : Bool) (acc : List Byte), Plain l →
    split cr acc l = ([], cr, acc ++ l)
  | [], cr, acc, _ => by simp [split]
  | c :: cs, cr, acc, h => by
    have hc := h c (by simp)
    have : ¬ (cr && decide (c = LF)) = true := by simp [hc.2]
    rw [split, if_neg this, if_neg (by tauto), split_plain cs _ _ fun x hx => h x (by simp [hx])]
    simp

theorem split_rest_plain : ∀ (x : List Byte) (cr : Bool) (acc : List Byte), Plain acc →
    Plain (split cr acc x).2.2
  | [], cr, acc, h => by simpa [split] using h
  | c :: cs, cr, acc, h => by
    simp only [split]
    by_cases h1 : (cr && decide (c = LF)) = true
    · rw [if_pos h1]; exact split_rest_plain cs false [] (by simp [Plain])
    · rw [if_neg h1]
      by_cases h2 : c = CR ∨ c = LF
      · rw [if_pos h2]; exact split_rest_plain cs _ [] (by simp [Plain])
      · rw [if_neg h2]
        refine split_rest_plain cs cr _ ?_
        intro x hx
        rcases List.mem_append.1 hx with hx | hx
        · exact h x hx
        · simp at hx; subst hx; tauto

/-- With a plain rest the accumulator can be put back in front of the bytes. -/
theorem split_acc (acc x : List Byte) (cr : Bool) (h : Plain acc) :
    split cr [] (acc ++ x) = split cr acc x := by
  rw [split_append, split_plain acc cr [] h]; simp

theorem nextLine_plain : ∀ (x : List Byte) (cr : Bool) (acc : List Byte), Plain acc →
    (nextLine cr acc x).1 = none → Plain (nextLine cr acc x).2.2
  | [], cr, acc, h, _ => by simpa [nextLine] using h
  | c :: cs, cr, acc, h, hn => by
    simp only [nextLine] at hn ⊢
    by_cases h1 : (cr && decide (c = LF)) = true
    · rw [if_pos h1] at hn ⊢; exact nextLine_plain cs false [] (by simp [Plain]) hn
    · rw [if_neg h1] at hn ⊢
      by_cases h2 : c = CR ∨ c = LF
      · rw [if_pos h2] at hn; simp at hn
      · rw [if_neg h2] at hn ⊢
        refine nextLine_plain cs cr _ ?_ hn
        intro x hx
        rcases List.mem_append.1 hx with hx | hx
        · exact h x hx
        · simp at hx; subst hx; tauto

theorem nextLine_end : ∀ (x acc : List Byte) (cr : Bool), Plain x →
    nextLine cr acc (x ++ [LF]) = if cr then (none, false, []) else (some (acc ++ x), false, [])
  | [], acc, cr, _ => by cases cr <;> simp [nextLine, LF, CR]
  | c :: cs, acc, cr, h => by
    have hc := h c (by simp)
    have : ¬ (cr && decide (c = LF)) = true := by simp [hc.2]
    rw [List.cons_append, nextLine, if_neg this, if_neg (by tauto),
      nextLine_end cs _ _ fun x hx => h x (by simp [hx])]
    simp

/-! ### Updating -/

theorem compact_spec {b : Buf} (h : b.Wf) :
    ∃ b1, compact b = some b1 ∧ b1.content = b.content ∧ b1.Wf ∧ b1.mem.length = b.mem.length ∧
      b1.cr = b.cr ∧ b1.start ≤ b.mem.length / 2 ∧ (b1.stop = b.mem.length → b.mem.length - b.mem.length / 2 ≤ b.content.length) := by
  obtain ⟨h1, h2⟩ := h
  have hl := content_length ⟨h1, h2⟩
  unfold compact
  by_cases hc : b.start > b.mem.length / 2
  · rw [if_pos hc]
    have e1 : readAt b.mem b.start (b.stop - b.start) = some b.content := by
      rw [readAt, if_pos (by omega)]; rfl
    have e2 : writeAt b.mem 0 b.content = some (b.content ++ b.mem.drop b.content.length) := by
      rw [writeAt, if_pos (by omega)]; simp
    refine ⟨{ b with mem := b.content ++ b.mem.drop b.content.length, start := 0, stop := b.stop - b.start }, ?_, ?_, ?_, ?_, rfl, ?_, ?_⟩
    · simp [e1, e2]
    · rw [Buf.content]
      simp only [List.drop_zero, Nat.sub_zero, ← hl]
      simp
    · constructor
      · simp
      · simp; omega
    · simp; omega
    · simp
    · simp; omega
  · rw [if_neg hc]
    refine ⟨b, rfl, rfl, ⟨h1, h2⟩, rfl, rfl, by omega, ?_⟩
    omega

theorem update_spec {b : Buf} (h : b.Wf) (bytes : List Byte)
    (hc : ∀ b1, compact b = some b1 → bytes.length ≤ offered b1) :
    ∃ b', update b (some bytes) = some b' ∧ b'.content = b.content ++ bytes ∧ b'.Wf ∧
      b'.mem.length = b.mem.length ∧ b'.cr = b.cr := by
  obtain ⟨b1, hb1, hcon, hwf, hlen, hcr, -, -⟩ := compact_spec h
  have hle := hc b1 hb1
  unfold offered at hle
  have hr := hwf.rep
  have h2 := hwf.2
  have e : writeAt b1.mem b1.stop bytes
      = some (b1.mem.take b1.stop ++ bytes ++ b1.mem.drop (b1.stop + bytes.length)) := by
    rw [writeAt, if_pos (by omega)]
  refine ⟨{ b1 with mem := b1.mem.take b1.stop ++ bytes ++ b1.mem.drop (b1.stop + bytes.length), stop := b1.stop + bytes.length }, ?_, ?_, ?_, ?_, hcr⟩
  · simp [update, hb1, e]
  · have e3 : b1.mem.take b1.stop = b1.mem.take b1.start ++ b1.content := by
      have := congrArg (List.take b1.stop) hr.mem
      rw [this]
      have hst := hr.stop
      rw [List.take_append_of_le_length (by simp at hst ⊢; omega), List.take_of_length_le (by simp at hst ⊢; omega)]
    have hrep : Rep { b1 with mem := b1.mem.take b1.stop ++ bytes ++ b1.mem.drop (b1.stop + bytes.length), stop := b1.stop + bytes.length } (b1.mem.take b1.start) (b1.content ++ bytes)
                    (b1.mem.drop (b1.stop + bytes.length)) := by
      refine ⟨?_, hr.start, ?_⟩
      · simp only [e3, List.append_assoc]
      · have hst := hr.stop
        simp only [List.length_append]; omega
    rw [hrep.content, hcon]
  · constructor
    · simp; have := hwf.1; omega
    · simp; omega
  · simp; omega

theorem update_none {b : Buf} (h : b.Wf) :
    ∃ b', update b none = some b' ∧ b'.content = b.content ∧ b'.Wf ∧
      b'.mem.length = b.mem.length ∧ b'.cr = b.cr ∧
      (b'.stop = b.mem.length → b.mem.length - b.mem.length / 2 ≤ b.content.length) := by
  obtain ⟨b1, hb1, hcon, hwf, hlen, hcr, -, hf⟩ := compact_spec h
  exact ⟨b1, by simp [update, hb1], hcon, hwf, hlen, hcr, hf⟩

theorem rep_length {b b' : Buf} {pre c pre' c' post : List Byte} (h : Rep b pre c post) (h' : Rep b' pre' c' post)
    (hs : b'.stop = b.stop) : b'.mem.length = b.mem.length := by
  have h1 := h.stop
  have h2 := h'.stop
  rw [h.mem, h'.mem]
  simp; omega

theorem readLine_safe {b : Buf} (h : b.Wf) :
    ∃ b' r, readLine b = some (b', r) ∧ b'.Wf ∧ b'.stop = b.stop ∧ b'.mem.length = b.mem.length ∧
      b'.content = (nextLine b.cr [] b.content).2.2 ∧ b'.cr = (nextLine b.cr [] b.content).2.1 ∧
      r.map (cString b'.mem) = (nextLine b.cr [] b.content).1.map cut := by
  obtain ⟨b', r, hr, ⟨pre', hrep⟩, hst, hcr, hl⟩ := readLine_spec h.rep
  exact ⟨b', r, hr, hrep.wf, hst, rep_length h.rep hrep hst, hrep.content, hcr, hl⟩

theorem drain_safe {b : Buf} (h : b.Wf) :
    ∃ b', drain (b.stop - b.start + 1) b = some (b', (split b.cr [] b.content).1.map cut) ∧ b'.Wf ∧
      b'.stop = b.stop ∧ b'.mem.length = b.mem.length ∧
      b'.content = (split b.cr [] b.content).2.2 ∧ b'.cr = (split b.cr [] b.content).2.1 := by
  obtain ⟨b', hr, ⟨pre', hrep⟩, hst, hcr⟩ := drain_spec _ (b.stop - b.start + 1) b _ _ h.rep
    (by have := content_length h; omega)
  exact ⟨b', hr, hrep.wf, hst, rep_length h.rep hrep hst, hrep.content, hcr⟩

/-- Appending bytes that fit. -/
theorem append_spec {b : Buf} (h : b.Wf) (bytes : List Byte) (hc : b.stop + bytes.length ≤ b.mem.length) :
    ∃ mem, writeAt b.mem b.stop bytes = some mem ∧ mem.length = b.mem.length ∧
      ({ b with mem := mem, stop := b.stop + bytes.length } : Buf).Wf ∧
      ({ b with mem := mem, stop := b.stop + bytes.length } : Buf).content = b.content ++ bytes := by
  refine ⟨_, by rw [writeAt, if_pos hc], ?_, ?_, ?_⟩
  · simp; omega
  · constructor
    · simp; have := h.1; omega
    · simp; omega
  · have hr := h.rep
    have e3 : b.mem.take b.stop = b.mem.take b.start ++ b.content := by
      have := congrArg (List.take b.stop) hr.mem
      rw [this]
      have hst := hr.stop
      rw [List.take_append_of_le_length (by simp at hst ⊢; omega), List.take_of_length_le (by simp at hst ⊢; omega)]
    have hrep : Rep { b with mem := b.mem.take b.stop ++ bytes ++ b.mem.drop (b.stop + bytes.length), stop := b.stop + bytes.length } (b.mem.take b.start) (b.content ++ bytes)
                    (b.mem.drop (b.stop + bytes.length)) := by
      refine ⟨?_, hr.start, ?_⟩
      · simp only [e3, List.append_assoc]
      · have hst := hr.stop
        simp only [List.length_append]; omega
    rw [hrep.content]

theorem incompleteLine_safe {b : Buf} (h : b.Wf) (hs : b.stop < b.mem.length) :
    ∃ b' r, incompleteLine b = some (b', r) ∧ b'.Wf ∧ b'.mem.length = b.mem.length ∧
      (Plain b.content → b'.content = [] ∧ b'.cr = false ∧
        r.map (cString b'.mem) = if b.cr then none else some (cut b.content)) := by
  obtain ⟨mem, h1, h2, h3, h4⟩ := append_spec h [LF] (by simp; omega)
  obtain ⟨b', r, hr, hw, -, hl, hc, hcr, hline⟩ := readLine_safe h3
  refine ⟨b', r, ?_, hw, by simpa [h2] using hl, ?_⟩
  · simp only [incompleteLine, h1, Option.bind_eq_bind, Option.bind_some]
    exact hr
  · intro hp
    rw [h4] at hc hcr hline
    simp only at hc hcr hline
    rw [nextLine_end _ _ _ hp] at hc hcr hline
    cases hb : b.cr
    · simp [hb] at hc hcr hline ⊢; exact ⟨hc, hcr, hline⟩
    · simp [hb] at hc hcr hline ⊢; exact ⟨hc, hcr, hline⟩

theorem update_some_iff {b b1 b' : Buf} {bytes : List Byte} (h1 : compact b = some b1)
    (h : update b (some bytes) = some b') : b1.stop + bytes.length ≤ b1.mem.length := by
  by_contra hc
  simp [update, h1, writeAt, hc] at h

/-- Any successful feeding delivers exactly the lines of the concatenated bytes. -/
theorem feed_spec : ∀ (chunks : List (List Byte)) (b b' : Buf) (out : List (List Byte)), b.Wf →
    Plain b.content → feed b chunks = some (b', out) →
    out = (split b.cr b.content chunks.flatten).1.map cut ∧ b'.content = (split b.cr b.content chunks.flatten).2.2 ∧
      b'.cr = (split b.cr b.content chunks.flatten).2.1 ∧ b'.Wf ∧ b'.mem.length = b.mem.length
  | [], b, b', out, hwf, hp, h => by
    simp only [feed, Option.some.injEq, Prod.mk.injEq] at h
    obtain ⟨rfl, rfl⟩ := h
    simp [split, hwf]
  | chunk :: chunks, b, b', out, hwf, hp, h => by
    have hcon : ∀ b1, compact b = some b1 → chunk.length ≤ offered b1 := by
      intro b1 hb1
      rcases hu : update b (some chunk) with _ | b2
      · simp [feed, hu] at h
      · have := update_some_iff hb1 hu
        unfold offered; omega
    obtain ⟨b2, hu, hc2, hw2, hl2, hcr2⟩ := update_spec hwf chunk hcon
    obtain ⟨b3, hd, hw3, -, hl3, hc3, hcr3⟩ := drain_safe hw2
    rcases hf : feed b3 chunks with _ | ⟨b4, ls⟩
    · simp [feed, hu, hd, hf] at h
    · simp only [feed, hu, hd, hf, Option.bind_eq_bind, Option.bind_some, Option.pure_def,
        Option.some.injEq, Prod.mk.injEq] at h
      obtain ⟨rfl, rfl⟩ := h
      rw [hcr2, hc2, split_acc _ _ _ hp] at hc3 hcr3
      have hp3 : Plain b3.content := by rw [hc3]; exact split_rest_plain _ _ _ hp
      obtain ⟨i1, i2, i3, i4, i5⟩ := feed_spec chunks b3 b4 ls hw3 hp3 hf
      rw [List.flatten_cons, split_append, ← hc3, ← hcr3]
      refine ⟨?_, i2, i3, i4, by omega⟩
      rw [i1, hcr2, hc2, split_acc _ _ _ hp]
      simp

theorem feed_total : ∀ (chunks : List (List Byte)) (b : Buf), b.Wf → FeedOk b chunks →
    ∃ r, feed b chunks = some r
  | [], b, _, _ => ⟨_, rfl⟩
  | chunk :: chunks, b, hwf, hok => by
    obtain ⟨b1, hb1, -⟩ := compact_spec hwf
    obtain ⟨b2, hu, hc2, hw2, hl2, hcr2⟩ := update_spec hwf chunk fun b1 h => (hok b1 h).1
    obtain ⟨b3, hd, hw3, -, hl3, hc3, hcr3⟩ := drain_safe hw2
    obtain ⟨r, hr⟩ := feed_total chunks b3 hw3 ((hok b1 hb1).2 b2 b3 _ hu hd)
    exact ⟨(r.1, (split b2.cr [] b2.content).1.map cut ++ r.2), by simp [feed, hu, hd, hr]⟩

end BeagleG.LineBuf
