import Verif.LineBuf.StreamerProps
/-!
# C17: connections that are processed without undefined behaviour
-/
namespace BeagleG.LineBuf

theorem run_cons {s s' : Streamer} {e : Event} {es : List Event} {o : List Out} (h : s.run (e :: es) = some (s', o)) :
    ∃ s1 o1 o2, s.step e = some (s1, o1) ∧ s1.run es = some (s', o2) ∧ o = o1 ++ o2 := by
  rcases hs : s.step e with _ | ⟨s1, o1⟩
  · simp [Streamer.run, hs] at h
  rcases hr : s1.run es with _ | ⟨s2, o2⟩
  · simp [Streamer.run, hs, hr] at h
  simp [Streamer.run, hs, hr] at h
  exact ⟨s1, o1, o2, rfl, by rw [hr, h.1], h.2.symm⟩

theorem run_split : ∀ (es es' : List Event) {s s' : Streamer} {o : List Out}, s.run (es ++ es') = some (s', o) →
    ∃ s1 o1 o2, s.run es = some (s1, o1) ∧ s1.run es' = some (s', o2) ∧ o = o1 ++ o2
  | [], es', s, s', o, h => ⟨s, [], o, rfl, h, rfl⟩
  | e :: es, es', s, s', o, h => by
    obtain ⟨s1, o1, o2, h1, h2, rfl⟩ := run_cons h
    obtain ⟨s2, o3, o4, h3, h4, rfl⟩ := run_split es es' h2
    exact ⟨s2, o1 ++ o3, o4, by simp [Streamer.run, h1, h3], h4, by simp⟩

/-- Reads that succeed are a successful feed of the buffer. -/
theorem run_feed : ∀ (es : List Event) (s s' : Streamer) (o : List Out), s.connected = true →
    (∀ e ∈ es, ¬ EndsStream e) → s.run es = some (s', o) → ∃ r, feed s.buf (chunksOf es) = some r
  | [], s, s', o, _, _, _ => ⟨_, rfl⟩
  | .connect :: es, s, s', o, hc, hne, h => by
    obtain ⟨s1, o1, o2, h1, h2, -⟩ := run_cons h
    simp [Streamer.step] at h1
    have := run_feed es s1 s' o2 (by rw [← h1.1]) (fun e he => hne e (by simp [he])) h2
    rw [← h1.1] at this
    exact this
  | .timeout :: es, s, s', o, hc, hne, h => by
    obtain ⟨s1, o1, o2, h1, h2, -⟩ := run_cons h
    simp [Streamer.step] at h1
    have := run_feed es s1 s' o2 (by rw [← h1.1]; exact hc) (fun e he => hne e (by simp [he])) h2
    rw [← h1.1] at this
    exact this
  | .readable none :: es, s, s', o, hc, hne, h =>
    absurd (hne _ List.mem_cons_self) (by simp [EndsStream])
  | .readable (some chunk) :: es, s, s', o, hc, hne, h => by
    obtain ⟨s1, o1, o2, h1, h2, -⟩ := run_cons h
    have hch : chunk ≠ [] := by
      have := hne _ List.mem_cons_self
      simpa [EndsStream] using this
    have e : chunksOf (.readable (some chunk) :: es) = chunk :: chunksOf es := by simp [chunksOf]
    rw [e]
    simp only [Streamer.step, hc, Bool.not_true, Bool.false_eq_true, if_false] at h1
    rcases hu : update s.buf (some chunk) with _ | b
    · simp [hu] at h1
    simp only [hu, Option.bind_eq_bind, Option.bind_some] at h1
    rw [if_neg (by simpa using hch)] at h1
    rcases hd : drain (b.stop - b.start + 1) b with _ | ⟨b2, ls⟩
    · simp [hd] at h1
    simp [hd] at h1
    obtain ⟨h1, -⟩ := h1
    obtain ⟨⟨b3, l3⟩, hr⟩ := run_feed es s1 s' o2 (by rw [← h1]) (fun e he => hne e (by simp [he])) h2
    rw [← h1] at hr
    simp only at hr
    refine ⟨(b3, ls ++ l3), ?_⟩
    simp [feed, hu, hd, hr]

/-- The end of a stream, if it is processed. -/
theorem step_end_of {s s' : Streamer} {o : List Out} (e : Event) (he : EndsStream e) (hc : s.connected = true)
    (hwf : s.buf.Wf) (hp : Plain s.buf.content) (h : s.step e = some (s', o)) :
    o = (if s.buf.cr then [] else [.parse (cut s.buf.content)]) ++ [.finished, .close] ∧
      Fresh s' ∧ s'.buf.mem.length = s.buf.mem.length := by
  obtain ⟨r, rfl⟩ : ∃ r, e = .readable r := by
    cases e <;> simp_all [EndsStream]
  simp only [EndsStream] at he
  have hu : ∃ b', update s.buf r = some b' ∧ b'.content = s.buf.content ∧ b'.Wf ∧
      b'.mem.length = s.buf.mem.length ∧ b'.cr = s.buf.cr := by
    obtain ⟨b1, h1, h2, h3, h4, h5, h6⟩ := update_none hwf
    cases r with
    | none => exact ⟨b1, h1, h2, h3, h4, h5⟩
    | some x =>
      simp at he; subst he
      refine ⟨b1, ?_, h2, h3, h4, h5⟩
      have := h3.2
      simp [update] at h1 ⊢
      simp [h1, writeAt, this]
  obtain ⟨b1, h1, h2, h3, h4, h5⟩ := hu
  simp only [Streamer.step, hc, h1, he, Bool.not_true, Bool.false_eq_true, if_false, List.length_nil, if_true,
    Option.bind_eq_bind, Option.bind_some] at h
  have h6 : b1.stop < b1.mem.length := by
    by_contra hcon
    have hn : incompleteLine b1 = none := by
      rw [C04_incompleteLine_iff b1 h3]
      have := h3.2
      omega
    simp [hn] at h
  obtain ⟨b2, l, i1, i2, i3, i4⟩ := incompleteLine_safe h3 h6
  obtain ⟨j1, j2, j3⟩ := i4 (by rw [h2]; exact hp)
  rw [h2, h5] at j3
  simp only [i1, Option.bind_some] at h
  have hlast : (match l with
          | some p => [Out.parse (cString b2.mem p)]
          | none => []) = if s.buf.cr then [] else [.parse (cut s.buf.content)] := by
    cases l <;> cases hcr : s.buf.cr <;> simp [hcr] at j3 ⊢
    exact j3
  rw [← hlast]
  simp only [Option.pure_def, Option.some.injEq, Prod.mk.injEq] at h
  obtain ⟨rfl, rfl⟩ := h
  exact ⟨rfl, ⟨rfl, j1, j2, i2⟩, by simp only; omega⟩

/-- C17 for a connection that is processed without undefined behaviour: whatever the chunks, the parser gets
the lines that the specification finds in the bytes received. -/
theorem C17_success (c : Session) (hc : c.Ok) (s s' : Streamer) (outs : List Out) (hs : Fresh s)
    (h : s.run c.events = some (s', outs)) :
    Fresh s' ∧ s'.buf.mem.length = s.buf.mem.length ∧
      dataOuts outs = (parsedOf (chunksOf c.body).flatten).map (fun l => .parse (cut l)) ++ [.finished, .close] := by
  obtain ⟨p1, o1, h1, h2, -⟩ := run_timeouts s hs.connected c.idle
  obtain ⟨s1, o1', o2, r1, r2, rfl⟩ := run_split _ _ h
  rw [h1] at r1
  simp only [Option.some.injEq, Prod.mk.injEq] at r1
  obtain ⟨rfl, rfl⟩ := r1
  obtain ⟨s2, o3, o4, r3, r4, rfl⟩ := run_cons r2
  simp [Streamer.step, hs.connected] at r3
  obtain ⟨rfl, rfl⟩ := r3
  obtain ⟨s3, o5, o6, r5, r6, rfl⟩ := run_split _ _ r4
  obtain ⟨s4, o7, o8, r7, r8, rfl⟩ := run_cons r6
  simp [Streamer.run] at r8
  obtain ⟨rfl, rfl⟩ := r8
  obtain ⟨⟨b', ls⟩, hf⟩ := run_feed c.body _ s3 o5 rfl hc.1 r5
  have hpl : Plain s.buf.content := by simp [hs.empty, Plain]
  simp only at hf
  obtain ⟨f1, f2, f3, f4, f5⟩ := feed_spec _ _ _ _ hs.wf hpl hf
  rw [hs.cr, hs.empty] at f1 f2 f3
  obtain ⟨p2, o9, k1, k2, k3⟩ := run_body c.body ⟨s.buf, true, p1⟩ b' ls rfl hc.1 hf
  rw [k1] at r5
  simp only [Option.some.injEq, Prod.mk.injEq] at r5
  obtain ⟨rfl, rfl⟩ := r5
  obtain ⟨e1, e2, e3⟩ := step_end_of (s := ⟨b', true, p2⟩) c.last hc.2 rfl f4
    (by simp only [f2]; exact split_rest_plain _ _ _ (by simp [Plain])) r7
  refine ⟨e2, by rw [e3]; exact f5, ?_⟩
  subst e1
  have : ∀ l, dataOuts (.connect true :: l) = dataOuts l := by intro l; simp [dataOuts]
  rw [dataOuts_append, h2, List.nil_append, List.append_nil, List.singleton_append, this, dataOuts_append, k2, f1, parsedOf]
  simp only [f2, f3]
  cases (split false [] (chunksOf c.body).flatten).2.1 <;> simp [dataOuts]

/-- C17 for any number of connections. -/
theorem C17_success_all : ∀ (cs : List Session) (s s' : Streamer) (outs : List Out), Fresh s → (∀ c ∈ cs, c.Ok) →
    s.run (cs.flatMap Session.events) = some (s', outs) →
    Fresh s' ∧ dataOuts outs = cs.flatMap fun c =>
        (parsedOf (chunksOf c.body).flatten).map (fun l => .parse (cut l)) ++ [.finished, .close]
  | [], s, s', outs, hs, _, h => by
    simp [Streamer.run] at h
    obtain ⟨rfl, rfl⟩ := h
    exact ⟨hs, rfl⟩
  | c :: cs, s, s', outs, hs, hok, h => by
    rw [List.flatMap_cons] at h
    obtain ⟨s1, o1, o2, h1, h2, rfl⟩ := run_split _ _ h
    obtain ⟨k1, -, k3⟩ := C17_success c (hok c List.mem_cons_self) s s1 o1 hs h1
    obtain ⟨j1, j2⟩ := C17_success_all cs s1 s' o2 k1 (fun c hc => hok c (List.mem_cons_of_mem _ hc)) h2
    exact ⟨j1, by rw [dataOuts_append, k3, j2, List.flatMap_cons]⟩

end BeagleG.LineBuf
