import Verif.LineBuf.Props
/-!
# C17: what the parser receives of a connection
-/
namespace BeagleG.LineBuf

theorem dataOuts_append (a b : List Out) : dataOuts (a ++ b) = dataOuts a ++ dataOuts b := by
  simp [dataOuts]

theorem dataOuts_parse (ls : List (List Byte)) : dataOuts (ls.map .parse) = ls.map .parse := by
  simp [dataOuts]

/-- While connected the buffer is fed the chunks that are read. -/
theorem run_body : ∀ (es : List Event) (s : Streamer) (b' : Buf) (ls : List (List Byte)),
    s.connected = true → (∀ e ∈ es, ¬ EndsStream e) → feed s.buf (chunksOf es) = some (b', ls) →
    ∃ p outs, s.run es = some (⟨b', true, p⟩, outs) ∧ dataOuts outs = ls.map .parse ∧
      ∀ ok, Out.connect ok ∈ outs → ok = false
  | [], ⟨b, c, p⟩, b', ls, hc, _, hf => by
    simp [chunksOf, feed] at hf
    obtain ⟨rfl, rfl⟩ := hf
    simp only at hc; subst hc
    exact ⟨p, [], rfl, by simp [dataOuts], by simp⟩
  | .connect :: es, ⟨b, c, p⟩, b', ls, hc, hne, hf => by
    simp only at hc; subst hc
    obtain ⟨p', outs, h1, h2, h3⟩ := run_body es ⟨b, true, p⟩ b' ls rfl (fun e he => hne e (by simp [he])) hf
    refine ⟨p', .connect false :: outs, ?_, ?_, ?_⟩
    · simp [Streamer.run, Streamer.step, h1]
    · simpa [dataOuts] using h2
    · intro ok hok
      rcases List.mem_cons.1 hok with h | h
      · injection h
      · exact h3 ok h
  | .timeout :: es, ⟨b, c, p⟩, b', ls, hc, hne, hf => by
    simp only at hc; subst hc
    obtain ⟨p', outs, h1, h2, h3⟩ := run_body es ⟨b, true, false⟩ b' ls rfl (fun e he => hne e (by simp [he])) hf
    refine ⟨p', .idle p :: outs, ?_, ?_, ?_⟩
    · simp [Streamer.run, Streamer.step, h1]
    · simpa [dataOuts] using h2
    · intro ok hok
      exact h3 ok (by simpa using hok)
  | .readable none :: es, s, b', ls, hc, hne, hf => by
    exact absurd (hne _ List.mem_cons_self) (by simp [EndsStream])
  | .readable (some chunk) :: es, ⟨b, c, p⟩, b', ls, hc, hne, hf => by
    simp only at hc; subst hc
    have hch : chunk ≠ [] := by
      have := hne _ List.mem_cons_self
      simpa [EndsStream] using this
    have e : chunksOf (.readable (some chunk) :: es) = chunk :: chunksOf es := by simp [chunksOf]
    rw [e] at hf
    simp only [feed] at hf
    rcases hu : update b (some chunk) with _ | b2
    · simp [hu] at hf
    rcases hd : drain (b2.stop - b2.start + 1) b2 with _ | ⟨b3, l1⟩
    · simp [hu, hd] at hf
    rcases hf2 : feed b3 (chunksOf es) with _ | ⟨b4, l2⟩
    · simp [hu, hd, hf2] at hf
    simp [hu, hd, hf2] at hf
    obtain ⟨rfl, rfl⟩ := hf
    obtain ⟨p', outs, h1, h2, h3⟩ := run_body es ⟨b3, true, true⟩ b4 l2 rfl (fun e he => hne e (by simp [he])) hf2
    refine ⟨p', l1.map .parse ++ outs, ?_, ?_, ?_⟩
    · simp [Streamer.run, Streamer.step, hu, hd, hch, h1]
    · rw [dataOuts_append, dataOuts_parse, h2]; simp
    · intro ok hok
      rcases List.mem_append.1 hok with h | h
      · simp at h
      · exact h3 ok h

theorem run_append : ∀ (es es' : List Event) (s s1 s2 : Streamer) (o1 o2 : List Out),
    s.run es = some (s1, o1) → s1.run es' = some (s2, o2) → s.run (es ++ es') = some (s2, o1 ++ o2)
  | [], es', s, s1, s2, o1, o2, h1, h2 => by
    simp [Streamer.run] at h1
    obtain ⟨rfl, rfl⟩ := h1
    simpa using h2
  | e :: es, es', s, s1, s2, o1, o2, h1, h2 => by
    rcases hs : s.step e with _ | ⟨s3, o3⟩
    · simp [Streamer.run, hs] at h1
    rcases hr : s3.run es with _ | ⟨s4, o4⟩
    · simp [Streamer.run, hs, hr] at h1
    simp [Streamer.run, hs, hr] at h1
    obtain ⟨rfl, rfl⟩ := h1
    have := run_append es es' s3 s4 s2 o4 o2 hr h2
    simp [Streamer.run, hs, this]

theorem run_timeouts (s : Streamer) (h : s.connected = false) : ∀ n,
    ∃ p outs, s.run (List.replicate n .timeout) = some ({ s with processing := p }, outs) ∧
      dataOuts outs = [] ∧ ∀ ok, Out.connect ok ∉ outs
  | 0 => ⟨s.processing, [], by simp [Streamer.run], by simp [dataOuts], by simp⟩
  | n + 1 => by
    obtain ⟨p, outs, h1, h2, h3⟩ := run_timeouts s h n
    refine ⟨false, outs ++ [.idle p], ?_, ?_, ?_⟩
    · rw [List.replicate_succ']
      exact run_append _ _ _ _ _ _ _ h1 (by simp [Streamer.run, Streamer.step])
    · rw [dataOuts_append, h2]; simp [dataOuts]
    · simpa using h3

/-- The end of a stream. -/
theorem step_end {s : Streamer} (e : Event) (he : EndsStream e) (hc : s.connected = true) (hwf : s.buf.Wf)
    (hp : Plain s.buf.content)
    (hlen : s.buf.content.length < s.buf.mem.length - s.buf.mem.length / 2) :
    ∃ s', s.step e = some (s', (if s.buf.cr then [] else [.parse (cut s.buf.content)]) ++ [.finished, .close]) ∧
      Fresh s' ∧ s'.buf.mem.length = s.buf.mem.length := by
  obtain ⟨r, rfl⟩ : ∃ r, e = .readable r := by
    cases e <;> simp_all [EndsStream]
  simp only [EndsStream] at he
  have hu : ∃ b', update s.buf r = some b' ∧ b'.content = s.buf.content ∧ b'.Wf ∧
      b'.mem.length = s.buf.mem.length ∧ b'.cr = s.buf.cr ∧ b'.stop < b'.mem.length := by
    obtain ⟨b1, h1, h2, h3, h4, h5, h6⟩ := update_none hwf
    have h7 : b1.stop < b1.mem.length := by
      have := h3.2
      by_contra hcon
      have := h6 (by omega)
      omega
    cases r with
    | none => exact ⟨b1, h1, h2, h3, h4, h5, h7⟩
    | some x =>
      simp at he; subst he
      refine ⟨b1, ?_, h2, h3, h4, h5, h7⟩
      have := h3.2
      simp [update] at h1 ⊢
      simp [h1, writeAt, this]
  obtain ⟨b1, h1, h2, h3, h4, h5, h6⟩ := hu
  obtain ⟨b2, l, i1, i2, i3, i4⟩ := incompleteLine_safe h3 h6
  obtain ⟨j1, j2, j3⟩ := i4 (by rw [h2]; exact hp)
  refine ⟨⟨b2, false, false⟩, ?_, ⟨rfl, j1, j2, i2⟩, by simp only; omega⟩
  rw [h2, h5] at j3
  have hlast : (match l with
          | some p => [Out.parse (cString b2.mem p)]
          | none => []) = if s.buf.cr then [] else [.parse (cut s.buf.content)] := by
    cases l <;> cases hcr : s.buf.cr <;> simp [hcr] at j3 ⊢
    exact j3
  rw [← hlast]
  simp only [Streamer.step, hc, h1, he, Bool.not_true, Bool.false_eq_true, if_false, List.length_nil, if_true,
    Option.bind_eq_bind, Option.bind_some, i1]
  rfl

/-- What `split` says a connection yields. -/
def parsedOf (bytes : List Byte) : List (List Byte) :=
  let r := split false [] bytes
  r.1 ++ if r.2.1 then [] else [r.2.2]

theorem session_raw (c : Session) (hc : c.Ok) (s : Streamer) (hs : Fresh s)
    (hfeed : FeedOk s.buf (chunksOf c.body))
    (hlen : (split false [] (chunksOf c.body).flatten).2.2.length < s.buf.mem.length - s.buf.mem.length / 2) :
    ∃ s' outs, s.run c.events = some (s', outs) ∧ Fresh s' ∧ s'.buf.mem.length = s.buf.mem.length ∧
      dataOuts outs = (parsedOf (chunksOf c.body).flatten).map (fun l => .parse (cut l)) ++ [.finished, .close] ∧
      (outs.filter (· = .connect true)).length = 1 := by
  obtain ⟨p1, o1, h1, h2, h3⟩ := run_timeouts s hs.connected c.idle
  obtain ⟨⟨b', ls⟩, hf⟩ := feed_total _ s.buf hs.wf hfeed
  have hpl : Plain s.buf.content := by simp [hs.empty, Plain]
  obtain ⟨f1, f2, f3, f4, f5⟩ := feed_spec _ _ _ _ hs.wf hpl hf
  rw [hs.cr, hs.empty] at f1 f2 f3
  obtain ⟨p2, o2, k1, k2, k3⟩ := run_body c.body ⟨s.buf, true, p1⟩ b' ls rfl hc.1 hf
  obtain ⟨s', e1, e2, e3⟩ := step_end (s := ⟨b', true, p2⟩) c.last hc.2 rfl f4
    (by rw [f2]; exact split_rest_plain _ _ _ (by simp [Plain]))
    (by simp only [f2, f5]; exact hlen)
  have hconn : Streamer.run { s with processing := p1 } (.connect :: (c.body ++ [c.last]))
      = some (s', .connect true :: (o2 ++ ((if b'.cr then [] else [.parse (cut b'.content)]) ++ [.finished, .close]))) := by
    have := run_append c.body [c.last] _ _ s' _ ((if b'.cr then [] else [.parse (cut b'.content)]) ++ [.finished, .close])
      k1 (by simp [Streamer.run, e1])
    simp only [Streamer.run, Streamer.step, hs.connected, Option.bind_eq_bind, Option.bind_some, this]
    simp
  have hcount : (o2.filter (· = .connect true)) = [] := by
    rw [List.filter_eq_nil_iff]
    intro o ho
    simp only [decide_eq_true_eq]
    rintro rfl
    exact absurd (k3 true ho) (by simp)
  have hcount1 : (o1.filter (· = .connect true)) = [] := by
    rw [List.filter_eq_nil_iff]
    intro o ho
    simp only [decide_eq_true_eq]
    rintro rfl
    exact h3 true ho
  refine ⟨s', _, run_append _ _ _ _ _ _ _ h1 hconn, e2, by simpa [f5] using e3, ?_, ?_⟩
  · rw [dataOuts_append, h2]
    have : ∀ l, dataOuts (.connect true :: l) = dataOuts l := by intro l; simp [dataOuts]
    rw [this, dataOuts_append, k2, f3, f1, f2, parsedOf]
    cases (split false [] (chunksOf c.body).flatten).2.1 <;> simp [dataOuts]
  · rw [List.filter_append, hcount1]
    simp only [List.nil_append]
    rw [List.filter_cons_of_pos (by simp), List.filter_append, hcount]
    cases b'.cr <;> simp

theorem lastCr_uniform (t : Term) (ht : t ≠ .cr) (ls : List (List Byte)) : lastCr false (ls.map (·, t)) = false := by
  induction ls with
  | nil => rfl
  | cons l ls ih =>
    simp only [List.map_cons, lastCr]
    simpa [ht] using ih

/-- C17, as far as it holds. A connection, with reads, time-outs and attempts to connect again in any
order and ended by end of file or an error: the parser receives all lines in order, then the unterminated
rest (an empty line if there is none), then the end is announced once and the descriptor closed once;
exactly one attempt to connect succeeds; afterwards the streamer is ready for the next connection.
The stream must use LF or CR LF, and the unterminated last line must be shorter than half the buffer. -/
theorem C17_session_partial (t : Term) (ht : t ≠ .cr) (ls : List (List Byte)) (rest : List Byte)
    (hls : ∀ l ∈ ls, Plain l) (hrest : Plain rest) (c : Session) (hc : c.Ok) (s : Streamer) (hs : Fresh s)
    (hstream : (chunksOf c.body).flatten = encode (ls.map (·, t)) ++ rest)
    (hfeed : FeedOk s.buf (chunksOf c.body)) (hlen : rest.length < s.buf.mem.length - s.buf.mem.length / 2) :
    ∃ s' outs, s.run c.events = some (s', outs) ∧ Fresh s' ∧ s'.buf.mem.length = s.buf.mem.length ∧
      dataOuts outs = (ls ++ [rest]).map (fun l => .parse (cut l)) ++ [.finished, .close] ∧
      (outs.filter (· = .connect true)).length = 1 := by
  have hsp := split_text (ls.map (·, t)) rest (by simpa using hls) hrest
  have := session_raw c hc s hs hfeed (by rw [hstream, hsp]; exact hlen)
  rw [hstream] at this
  rw [parsedOf, hsp, kept_uniform, lastCr_uniform t ht] at this
  simpa using this

/-- C17 with CR as terminator: all terminated lines, but the unterminated rest of a non-empty text never
reaches the parser. -/
theorem C17_cr_loses_last_line (ls : List (List Byte)) (hne : ls ≠ []) (rest : List Byte)
    (hls : ∀ l ∈ ls, Plain l) (hrest : Plain rest) (c : Session) (hc : c.Ok) (s : Streamer) (hs : Fresh s)
    (hstream : (chunksOf c.body).flatten = encode (ls.map (·, .cr)) ++ rest)
    (hfeed : FeedOk s.buf (chunksOf c.body)) (hlen : rest.length < s.buf.mem.length - s.buf.mem.length / 2) :
    ∃ s' outs, s.run c.events = some (s', outs) ∧ Fresh s' ∧
      dataOuts outs = ls.map (fun l => .parse (cut l)) ++ [.finished, .close] := by
  have hsp := split_text (ls.map (·, Term.cr)) rest (by simpa using hls) hrest
  obtain ⟨s', outs, h1, h2, -, h3, -⟩ := session_raw c hc s hs hfeed (by rw [hstream, hsp]; exact hlen)
  have hl : ∀ (ls : List (List Byte)) cr, ls ≠ [] → lastCr cr (ls.map (·, Term.cr)) = true := by
    intro ls
    induction ls with
    | nil => intro cr h; exact absurd rfl h
    | cons l ls ih =>
      intro cr _
      simp only [List.map_cons, lastCr]
      cases ls with
      | nil => simp [lastCr]
      | cons l' ls => simpa using ih true (by simp)
  rw [hstream, parsedOf, hsp, kept_uniform, hl ls false hne] at h3
  exact ⟨s', outs, h1, h2, by simpa using h3⟩

/-- C17 fails for a long line: if as many bytes as the buffer holds arrive without a terminator, the next
time the descriptor is readable `read` is offered no room, returns 0, and the streamer writes behind the
buffer. Here for every buffer size, including the 16384 of the program. -/
theorem C17_long_line_overflows (mem line : List Byte) (h : line.length = mem.length) (hne : mem ≠ [])
    (hp : Plain line) :
    Streamer.run ⟨Buf.init mem, false, false⟩ [.connect, .readable (some line), .readable (some [])] = none := by
  have hw : Buf.Wf (Buf.init mem) := ⟨by simp [Buf.init], by simp [Buf.init]⟩
  have hpos : 0 < mem.length := List.length_pos_iff.2 hne
  have hl : line ≠ [] := by rintro rfl; simp at h; omega
  have hu : update (Buf.init mem) (some line) = some ⟨line, 0, mem.length, false⟩ := by
    simp [update, compact, Buf.init, writeAt, h]
  have hw2 : Buf.Wf ⟨line, 0, mem.length, false⟩ := ⟨by simp, by simp [h]⟩
  have hcont : Buf.content ⟨line, 0, mem.length, false⟩ = line := by simp [Buf.content, ← h]
  obtain ⟨b', hd, hwb, hst, hlen, hc, hcr⟩ := drain_safe hw2
  simp only [hcont, split_plain line _ _ hp] at hd hc hcr hst hlen
  have hb := hwb.rep
  have hstart : b'.start = 0 := by
    have := content_length hwb
    rw [hc] at this
    have := hwb.1
    simp at *; omega
  have hcomp : compact b' = some b' := by
    simp [compact, hstart]
  have hupd : update b' (some []) = some b' := by
    have : b'.stop ≤ b'.mem.length := hwb.2
    simp [update, hcomp, writeAt, this]
  have hinc : incompleteLine b' = none := by
    rw [C04_incompleteLine_iff b' hwb]; omega
  simp only [Nat.sub_zero] at hd
  simp [Streamer.run, Streamer.step, hu, hl, hd, hupd, hinc]

/-- C17 for any number of connections one after the other, with any streams. -/
def sessionsOk (n : Nat) : Streamer → List Session → Prop
  | _, [] => True
  | s, c :: cs => c.Ok ∧ FeedOk s.buf (chunksOf c.body) ∧
      (split false [] (chunksOf c.body).flatten).2.2.length < n - n / 2 ∧
      ∀ s' outs, s.run c.events = some (s', outs) → sessionsOk n s' cs

theorem C17_connections : ∀ (cs : List Session) (s : Streamer), Fresh s → sessionsOk s.buf.mem.length s cs →
    ∃ s' outs, s.run (cs.flatMap Session.events) = some (s', outs) ∧ Fresh s' ∧
      dataOuts outs = cs.flatMap fun c =>
        (parsedOf (chunksOf c.body).flatten).map (fun l => .parse (cut l)) ++ [.finished, .close]
  | [], s, hs, _ => ⟨s, [], rfl, hs, rfl⟩
  | c :: cs, s, hs, hok => by
    obtain ⟨h1, h2, h3, h4⟩ := hok
    obtain ⟨s1, o1, r1, r2, r3, r4, -⟩ := session_raw c h1 s hs h2 h3
    obtain ⟨s2, o2, k1, k2, k3⟩ := C17_connections cs s1 r2 (by rw [r3]; exact h4 s1 o1 r1)
    refine ⟨s2, o1 ++ o2, ?_, k2, ?_⟩
    · exact run_append _ _ _ _ _ _ _ r1 k1
    · rw [dataOuts_append, r4, k3]; simp

/-- Non-vacuity: "a\n", "b" in two reads with a time-out and a second `ConnectStream` between. -/
example : Streamer.run ⟨Buf.init (List.replicate 16 0), false, false⟩
      [.connect, .readable (some [97]), .timeout, .connect, .readable (some [10, 98]), .readable (some [])]
    = some (⟨⟨[97, 0, 98, 0, 0, 0, 0, 0, 0, 0, 0, 0, 0, 0, 0, 0], 4, 4, false⟩, false, false⟩,
        [.connect true, .idle true, .connect false, .parse [97], .parse [98], .finished, .close]) := by
  decide +kernel

/-- "a\r", "b" then end of file: "b" is not parsed. -/
example : (Streamer.run ⟨Buf.init (List.replicate 16 0), false, false⟩
      [.connect, .readable (some [97, 13, 98]), .readable (some [])]).map (·.2)
    = some [.connect true, .parse [97], .finished, .close] := by
  decide +kernel

end BeagleG.LineBuf
