import Verif.Parser.CoordProps
/-!
# The parser: refused moves, arcs and splines (C15, C16)
-/
namespace BeagleG.Parser
open Text Expr

variable {F : Type} {fl : Num F} {rc : Receiver F} {Q : Fault → Prop} {T : List Byte → Prop}
variable {pair : State F → List Byte → Out (State F × Option (Word F))}

/-! ### Asking for a series of moves -/

/-- Of the moves `es` the first `k` were asked for; all of them were accepted, and `k` is all of them (`b` true),
or all but the last were accepted (`b` false). -/
structure Asked (rc : Receiver F) (log : List (Event F)) (es : List (Event F)) (k : Nat) (b : Bool) : Prop where
  le : k ≤ es.length
  accepted : ∀ j, j < k → (j + 1 < k ∨ b = true) → rc.accepts ((es.take (j + 1)).reverse ++ log) = true
  all : b = true → k = es.length
  refused : b = false → 0 < k ∧ rc.accepts ((es.take k).reverse ++ log) = false

/-- State `st'` is the result of asking for moves `es` that lead to `target`, starting with `st`: the receiver
was asked for some of them, the position is the target or what it was, and nothing else has changed. -/
def Outcome (rc : Receiver F) (st : State F) (es : List (Event F)) (target : Axes F) (k : Nat) (b : Bool)
    (st' : State F) : Prop :=
  Asked rc st.log es k b ∧
    st' = { st with log := (es.take k).reverse ++ st.log, pos := if b then target else st.pos }

theorem Asked.nil (log : List (Event F)) : Asked rc log [] 0 true :=
  ⟨Nat.le_refl _, fun j h => by omega, fun _ => rfl, fun h => by cases h⟩

theorem Asked.cons {log es : List (Event F)} {e : Event F} {k : Nat} {b : Bool} (ha : rc.accepts (e :: log) = true)
    (h : Asked rc (e :: log) es k b) : Asked rc log (e :: es) (k + 1) b := by
  have key : ∀ n, ((e :: es).take (n + 1)).reverse ++ log = (es.take n).reverse ++ (e :: log) := by
    intro n; simp
  refine ⟨by simpa using h.le, ?_, fun hb => by rw [h.all hb]; rfl, fun hb => ⟨by omega, ?_⟩⟩
  · intro j hj hor
    cases j with
    | zero => simpa using ha
    | succ j => rw [key]; exact h.accepted j (by omega) (hor.imp (fun x => by omega) id)
  · rw [key]; exact (h.refused hb).2

theorem Asked.stop {log es : List (Event F)} {e : Event F} (ha : rc.accepts (e :: log) = false) :
    Asked rc log (e :: es) 1 false :=
  ⟨by simp, fun j h h' => by rcases h' with h' | h' <;> [omega; cases h'], fun h => (by cases h),
    fun _ => ⟨by omega, by simpa using ha⟩⟩

theorem moves_asked (feed : F) : ∀ (ps : List (Axes F)) (st : State F),
    ∃ k, Asked rc st.log (ps.map (Event.coordinatedMove feed)) k (moves rc feed st ps).2 ∧
      (moves rc feed st ps).1 =
        { st with log := ((ps.map (Event.coordinatedMove feed)).take k).reverse ++ st.log }
  | [], st => ⟨0, Asked.nil _, rfl⟩
  | p :: ps, st => by
    have hlog : (ask rc st (.coordinatedMove feed p)).1 = st.say (.coordinatedMove feed p) := rfl
    cases ha : rc.accepts (.coordinatedMove feed p :: st.log) with
    | true =>
      have h2 : (ask rc st (.coordinatedMove feed p)).2 = true := ha
      obtain ⟨k, h, e⟩ := moves_asked feed ps (st.say (.coordinatedMove feed p))
      refine ⟨k + 1, ?_, ?_⟩
      · simp only [moves, h2, if_true, hlog, List.map_cons]
        exact Asked.cons ha h
      · simp only [moves, h2, if_true, hlog]
        rw [e]
        simp [State.say]
    | false =>
      have h2 : (ask rc st (.coordinatedMove feed p)).2 = false := ha
      refine ⟨1, ?_, ?_⟩
      · simp only [moves, h2, List.map_cons]
        exact Asked.stop ha
      · simp only [moves, h2]
        simp [hlog, State.say]

theorem reached_moves (feed : F) (ps : List (Axes F)) (target : Axes F) (st : State F) :
    ∃ k b, Outcome rc st (ps.map (Event.coordinatedMove feed)) target k b (reached (moves rc feed st ps) target) := by
  obtain ⟨k, h, e⟩ := moves_asked (rc := rc) feed ps st
  refine ⟨k, (moves rc feed st ps).2, h, ?_⟩
  unfold reached
  rw [e]
  split <;> rename_i hb <;> simp [hb]

/-! ### C15 -/

/-- **A refused series of moves leaves everything but the log as it was.** -/
theorem Outcome.refused {st st' : State F} {es : List (Event F)} {target : Axes F} {k : Nat}
    (h : Outcome rc st es target k false st') : st' = { st with log := st'.log } ∧ Kept st st' := by
  rw [h.2]
  exact ⟨rfl, rfl, rfl, rfl, rfl, rfl, rfl, rfl, rfl, rfl, rfl, rfl, rfl, rfl, rfl, rfl, rfl, rfl⟩

/-- **C15 for G0, G1 and lines that continue them**: after the words nothing is asked (no word), or one move is
asked. If it is refused, everything is as after reading the words. -/
theorem C15_move_partial (hk : Keeps pair T) {st st' : State F} {force : Bool} {line : List Byte}
    {l : Option (List Byte)} (ht : T line) (hd : st.doWhile = false)
    (h : handleMove fl rc pair force st line = .ok (st', l)) :
    ∃ st1, Kept st st1 ∧ Unmoved st st1 ∧
      (st' = st1 ∨ ∃ st2 e target k b, Outcome rc st2 [e] target k b st' ∧ MoveTo e target ∧ Kept st1 st2 ∧
        st2.params = st1.params ∧ (b = false → Kept st st')) := by
  unfold handleMove at h
  cases hw : words pair (moveStep fl) (wordFuel line) st ⟨force, fl.minusOne, st.pos, fun _ => false⟩ line with
  | fault f => rw [hw] at h; cases h
  | outOfFuel => rw [hw] at h; cases h
  | ok r =>
    obtain ⟨st1, m, rest, b⟩ := r
    rw [hw] at h
    simp only [Out.bind, Out.ok.injEq, Prod.mk.injEq] at h
    obtain ⟨h1, h2⟩ := h
    obtain ⟨ws, hws⟩ := words_seq _ _ _ _ _ _ _ _ hw
    have hr := move_read hk ht hd hws
    refine ⟨st1, hr.kept, hr.unmoved, ?_⟩
    by_cases hch : m.change = true
    · right
      unfold moveApply at h1
      rw [if_pos hch] at h1
      simp only at h1
      generalize hst2 : st1.say (.clampToRange m.affected m.pos) = st2 at h1
      have hk2 : Kept st1 st2 := hst2 ▸ say_kept _ _
      have hp2 : st2.params = st1.params := hst2 ▸ rfl
      generalize rc.clamp st2.log m.pos = target at h1
      have hm : MoveTo (if st2.modalG1 then Event.coordinatedMove m.feed target else .rapidMove m.feed target) target := by
        split
        · exact ⟨_, Or.inl rfl⟩
        · exact ⟨_, Or.inr rfl⟩
      generalize (if st2.modalG1 then Event.coordinatedMove m.feed target else .rapidMove m.feed target) = e at h1 hm
      cases ha : rc.accepts (e :: st2.log) with
      | true =>
        refine ⟨st2, e, target, 1, true, ⟨Asked.cons ha (Asked.nil _), ?_⟩, hm, hk2, hp2, fun hb => by cases hb⟩
        rw [← h1]; simp [reached, ask, ha, State.say]
      | false =>
        have ho : Outcome rc st2 [e] target 1 false st' := ⟨Asked.stop ha, by rw [← h1]; simp [reached, ask, ha, State.say]⟩
        exact ⟨st2, e, target, 1, false, ho, hm, hk2, hp2, fun _ => (hr.kept.trans hk2).trans ho.refused.2⟩
    · left
      rw [← h1]
      unfold moveApply
      rw [if_neg hch]

/-! ### C16: arcs -/

/-- The offset to the center by the words I, J, K, in millimetres. -/
def ijkOffset (fl : Num F) (st : State F) (ws : List (Byte × F)) (a : Axis) : F :=
  let v (letter : Byte) : F :=
    match letterValueOf letter ws with
    | none => fl.zero
    | some v => fl.mul (fl.mul v st.unit) (st.scale a)
  if a = .X then v 73 else if a = .Y then v 74 else if a = .Z then v 75 else fl.zero

/-- What the words of an arc mean. -/
def arcWords (fl : Num F) (st : State F) (ws : List (Byte × F)) : ArcWords F where
  target := moveTarget fl st ws
  offset := ijkOffset fl st ws
  feed := moveFeed fl st ws
  radius := ((letterValueOf 82 ws).map fun v => fl.mul v st.unit).getD fl.zero
  haveIjk := (letterValueOf 73 ws).isSome || (letterValueOf 74 ws).isSome || (letterValueOf 75 ws).isSome
  haveR := (letterValueOf 82 ws).isSome
  turns := ((letterValueOf 80 ws).map fl.toInt).getD 1

/-- What the words of an arc have led to. -/
structure ArcRead (fl : Num F) (st st' : State F) (ws : List (Byte × F)) (m : ArcWords F) : Prop where
  kept : Kept st st'
  unmoved : Unmoved st st'
  words : m = arcWords fl st ws

theorem letter_other : letterAxis 73 = none ∧ letterAxis 74 = none ∧ letterAxis 75 = none ∧ letterAxis 82 = none ∧
    letterAxis 80 = none ∧ letterAxis 81 = none := by decide

theorem moveFeed_append (st : State F) (ws : List (Byte × F)) (v : F) :
    moveFeed fl st (ws ++ [(70, v)]) = feedOf fl (fl.mul v st.unit) := by
  simp [moveFeed, letterValueOf_append, feedOf]

theorem moveFeed_other (st : State F) (ws : List (Byte × F)) (l : Byte) (v : F) (hl : l ≠ 70) :
    moveFeed fl st (ws ++ [(l, v)]) = moveFeed fl st ws := by
  simp only [moveFeed, letterValueOf_append]
  rw [if_neg hl]

theorem ArcWords.ext {m m' : ArcWords F} (h1 : m.target = m'.target) (h2 : m.offset = m'.offset) (h3 : m.feed = m'.feed)
    (h4 : m.radius = m'.radius) (h5 : m.haveIjk = m'.haveIjk) (h6 : m.haveR = m'.haveR) (h7 : m.turns = m'.turns) :
    m = m' := by
  cases m; cases m'; simp_all

theorem ijkOffset_other (st : State F) (ws : List (Byte × F)) (l : Byte) (v : F) (h1 : l ≠ 73) (h2 : l ≠ 74)
    (h3 : l ≠ 75) : ijkOffset fl st (ws ++ [(l, v)]) = ijkOffset fl st ws := by
  funext a
  simp only [ijkOffset, letterValueOf_append]
  rw [if_neg h1, if_neg h2, if_neg h3]

theorem arc_read (hk : Keeps pair T) {st st' : State F} {line rest : List Byte} {m : ArcWords F}
    {ws : List (Byte × F)} (ht : T line) (hd : st.doWhile = false)
    (h : WordSeq pair (arcStep fl) st ⟨st.pos, fun _ => fl.zero, fl.minusOne, fl.zero, false, false, 1⟩ line ws st' m rest) :
    ArcRead fl st st' ws m := by
  refine h.induct hk (fun s m ws => ArcRead fl st s ws m) ?_ ?_ [] ht hd
    ⟨.refl _, rfl, ?_⟩
  · intro s s' a ws hi hks hus
    exact ⟨hi.kept.trans hks, hus.trans hi.unmoved, hi.words⟩
  · intro s m ws l v s' m' hi hst
    have hu := hi.kept.unit
    have hsc := hi.kept.scale
    have he := hi.words
    unfold arcStep at hst
    obtain ⟨l1, l2, l3, l4, l5, l6⟩ := letter_other
    simp only at hst
    split at hst
    · rename_i hl; subst hl
      injection hst with hst; injection hst with h1 h2; subst h1; subst h2; subst he
      refine ⟨⟨hi.kept, hi.unmoved, ArcWords.ext ?_ ?_ ?_ ?_ ?_ ?_ ?_⟩, rfl⟩
      · exact (moveTarget_other _ _ _ _ l1).symm
      · funext a
        simp only [arcWords, setAxis, ijkOffset, letterValueOf_append, hu, hsc]
        cases a <;> simp
      · exact (moveFeed_other _ _ _ _ (by decide)).symm
      all_goals simp [arcWords, letterValueOf_append]
    split at hst
    · rename_i hl; subst hl
      injection hst with hst; injection hst with h1 h2; subst h1; subst h2; subst he
      refine ⟨⟨hi.kept, hi.unmoved, ArcWords.ext ?_ ?_ ?_ ?_ ?_ ?_ ?_⟩, rfl⟩
      · exact (moveTarget_other _ _ _ _ l2).symm
      · funext a
        simp only [arcWords, setAxis, ijkOffset, letterValueOf_append, hu, hsc]
        cases a <;> simp
      · exact (moveFeed_other _ _ _ _ (by decide)).symm
      all_goals simp [arcWords, letterValueOf_append]
    split at hst
    · rename_i hl; subst hl
      injection hst with hst; injection hst with h1 h2; subst h1; subst h2; subst he
      refine ⟨⟨hi.kept, hi.unmoved, ArcWords.ext ?_ ?_ ?_ ?_ ?_ ?_ ?_⟩, rfl⟩
      · exact (moveTarget_other _ _ _ _ l3).symm
      · funext a
        simp only [arcWords, setAxis, ijkOffset, letterValueOf_append, hu, hsc]
        cases a <;> simp
      · exact (moveFeed_other _ _ _ _ (by decide)).symm
      all_goals simp [arcWords, letterValueOf_append]
    rename_i n73 n74 n75
    split at hst
    · rename_i hl; subst hl
      injection hst with hst; injection hst with h1 h2; subst h1; subst h2; subst he
      refine ⟨⟨hi.kept, hi.unmoved, ArcWords.ext ?_ ?_ ?_ ?_ ?_ ?_ ?_⟩, rfl⟩
      · exact (moveTarget_other _ _ _ _ l4).symm
      · exact (ijkOffset_other _ _ _ _ n73 n74 n75).symm
      · exact (moveFeed_other _ _ _ _ (by decide)).symm
      all_goals simp [arcWords, letterValueOf_append, hu]
    split at hst
    · rename_i hl; subst hl
      injection hst with hst; injection hst with h1 h2; subst h1; subst h2; subst he
      refine ⟨⟨hi.kept, hi.unmoved, ArcWords.ext ?_ ?_ ?_ ?_ ?_ ?_ ?_⟩, rfl⟩
      · exact (moveTarget_other _ _ _ _ l5).symm
      · exact (ijkOffset_other _ _ _ _ n73 n74 n75).symm
      · exact (moveFeed_other _ _ _ _ (by decide)).symm
      all_goals simp [arcWords, letterValueOf_append]
    rename_i n82 n80
    split at hst
    · rename_i hl; subst hl
      injection hst with hst; injection hst with h1 h2; subst h1; subst h2; subst he
      refine ⟨⟨hi.kept, hi.unmoved, ArcWords.ext ?_ ?_ ?_ ?_ ?_ ?_ ?_⟩, rfl⟩
      · exact (moveTarget_other _ _ _ _ letter_F).symm
      · exact (ijkOffset_other _ _ _ _ n73 n74 n75).symm
      · show feedOf fl (fl.mul v s.unit) = moveFeed fl st _
        rw [moveFeed_append, hu]
      all_goals simp [arcWords, letterValueOf_append]
    split at hst
    · cases hst
    · rename_i n70 _ a ha
      injection hst with hst; injection hst with h1 h2; subst h1; subst h2; subst he
      refine ⟨⟨hi.kept, hi.unmoved, ArcWords.ext ?_ ?_ ?_ ?_ ?_ ?_ ?_⟩, rfl⟩
      · show setAxis (moveTarget fl st ws) a (absAxisPos fl s a v) = moveTarget fl st _
        rw [moveTarget_append _ _ _ _ ha, hi.kept.absAxisPos]
      · exact (ijkOffset_other _ _ _ _ n73 n74 n75).symm
      · exact (moveFeed_other _ _ _ _ n70).symm
      all_goals simp [arcWords, letterValueOf_append, n73, n74, n75, n82, n80]
  · refine ArcWords.ext rfl ?_ rfl rfl rfl rfl rfl
    funext a
    cases a <;> rfl

/-- The center of an arc in the selected plane, if the words make sense: by the offset I, J, K or by the radius,
not both, and one turn. -/
def ArcCenter (fl : Num F) (st : State F) (cw : Bool) (m : ArcWords F) (center : Axes F) : Prop :=
  m.haveIjk ≠ m.haveR ∧ m.turns = 1 ∧ ∃ p0 p1 p2, plane st.arcNormal = some (p0, p1, p2) ∧
    if m.haveIjk then fl.eq (m.offset p2) fl.zero = true ∧
      center = fun a => if isLinear a then fl.add (st.pos a) (m.offset a) else st.pos a
    else ∃ c0 c1, arcRadiusToCenter fl (st.pos p0) (st.pos p1) (m.target p0) (m.target p1) m.radius cw = some (c0, c1) ∧
      center = fun a => if isLinear a then fl.add (st.pos a) (setAxis (setAxis m.offset p0 c0) p1 c1 a) else st.pos a

theorem arcOffset_center {st : State F} {cw : Bool} {m : ArcWords F} (h1 : m.haveIjk ≠ m.haveR) (h2 : m.turns = 1) :
    (∀ offset, arcOffset fl st cw m = some offset →
      ArcCenter fl st cw m fun a => if isLinear a then fl.add (st.pos a) (offset a) else st.pos a) ∧
    (arcOffset fl st cw m = none → ∀ center, ¬ ArcCenter fl st cw m center) := by
  constructor
  · intro offset h
    refine ⟨h1, h2, ?_⟩
    unfold arcOffset at h
    split at h
    · cases h
    · rename_i p0 p1 p2 hp
      refine ⟨p0, p1, p2, hp, ?_⟩
      split at h
      · rename_i hi
        rw [if_pos hi]
        split at h
        · cases h
        · rename_i hz
          injection h with h; subst h
          exact ⟨by simpa using hz, rfl⟩
      · rename_i hi
        rw [if_neg hi]
        split at h
        · cases h
        · rename_i c0 c1 hc
          injection h with h; subst h
          exact ⟨c0, c1, hc, rfl⟩
  · rintro h center ⟨_, _, p0, p1, p2, hp, hc⟩
    simp only [arcOffset, hp] at h
    split at hc
    · rename_i hi
      simp [hi, hc.1] at h
    · rename_i hi
      obtain ⟨c0, c1, hc, _⟩ := hc
      simp [hi, hc] at h

/-- **C15 and C16 for arcs.** An arc without a center is rejected with an error message and no move. Otherwise it
is too short to be made; or the receiver is asked for moves all with the commanded feed, of which the last is the
commanded target, up to the first that is refused. The position becomes the target if none is refused and otherwise
stays. -/
theorem C16_arc (hk : Keeps pair T) {st st' : State F} {cw : Bool} {line : List Byte}
    {l : Option (List Byte)} (ht : T line) (hd : st.doWhile = false)
    (h : handleArc fl rc pair cw st line = .ok (st', l)) :
    ∃ (ws : List (Byte × F)) (st1 : State F) (rest : List Byte), l = some rest ∧ Kept st st1 ∧ Unmoved st st1 ∧
      (∃ m, WordSeq pair (arcStep fl) st ⟨st.pos, fun _ => fl.zero, fl.minusOne, fl.zero, false, false, 1⟩ line ws st1 m rest) ∧
      ((st' = st1.say .error ∧ ∀ center, ¬ ArcCenter fl st cw (arcWords fl st ws) center) ∨
        ∃ center, ArcCenter fl st cw (arcWords fl st ws) center ∧
          match arcGen fl st.arcNormal cw st.pos center (moveTarget fl st ws) with
          | none => st' = { st1.say (.arcIgnored (moveTarget fl st ws)) with pos := moveTarget fl st ws }
          | some ps => (∃ qs, ps = qs ++ [moveTarget fl st ws]) ∧ ∃ k b,
              Outcome rc st1 (ps.map (.coordinatedMove (moveFeed fl st ws))) (moveTarget fl st ws) k b st' ∧
                (b = false → Kept st st')) := by
  unfold handleArc at h
  cases hw : words pair (arcStep fl) (wordFuel line) st
      ⟨st.pos, fun _ => fl.zero, fl.minusOne, fl.zero, false, false, 1⟩ line with
  | fault f => rw [hw] at h; cases h
  | outOfFuel => rw [hw] at h; cases h
  | ok r =>
    obtain ⟨st1, m, rest, b⟩ := r
    rw [hw] at h
    simp only [Out.bind, Out.ok.injEq, Prod.mk.injEq] at h
    obtain ⟨h1, h2⟩ := h
    obtain ⟨ws, hws⟩ := words_seq _ _ _ _ _ _ _ _ hw
    have hr := arc_read hk ht hd hws
    have hm := hr.words
    have hcen : ∀ c, ArcCenter fl st cw m c ↔ ArcCenter fl st1 cw m c := by
      intro c
      simp only [ArcCenter, hr.kept.pos, hr.kept.arcNormal]
    have hp := hr.kept.pos
    have hn := hr.kept.arcNormal
    refine ⟨ws, st1, rest, h2.symm, hr.kept, hr.unmoved, ⟨m, hws⟩, ?_⟩
    rw [← hm]
    have ht : m.target = moveTarget fl st ws := by rw [hm]; rfl
    have hf : m.feed = moveFeed fl st ws := by rw [hm]; rfl
    unfold arcApply at h1
    split at h1
    · rename_i e
      exact .inl ⟨h1.symm, fun c hc => hc.1 e⟩
    rename_i e1
    split at h1
    · rename_i e
      exact .inl ⟨h1.symm, fun c hc => e hc.2.1⟩
    rename_i e2
    have key := arcOffset_center (fl := fl) (st := st1) (cw := cw) e1 (not_not.1 e2)
    split at h1
    · rename_i e
      exact .inl ⟨h1.symm, fun c hc => key.2 e c ((hcen c).1 hc)⟩
    rename_i offset e
    right
    simp only at h1
    refine ⟨_, (hcen _).2 (key.1 offset e), ?_⟩
    generalize (fun a => if isLinear a then fl.add (st1.pos a) (offset a) else st1.pos a) = center at h1
    rw [ht, hf, hn, hp] at h1
    unfold arcMove at h1
    cases hg : arcGen fl st.arcNormal cw st.pos center (moveTarget fl st ws) with
    | none =>
      rw [hg] at h1
      exact h1.symm
    | some ps =>
      rw [hg] at h1
      simp only at h1
      refine ⟨arcGen_target hg, ?_⟩
      obtain ⟨k, b, ho⟩ := reached_moves (rc := rc) (moveFeed fl st ws) ps (moveTarget fl st ws) st1
      rw [h1] at ho
      refine ⟨k, b, ho, ?_⟩
      intro hb
      subst hb
      exact hr.kept.trans ho.refused.2

/-! ### C16: splines -/

/-- What the words of a spline have led to. -/
structure SplineRead (fl : Num F) (st st' : State F) (ws : List (Byte × F)) (m : SplineWords F) : Prop where
  kept : Kept st st'
  unmoved : Unmoved st st'
  target : m.target = moveTarget fl st ws
  feed : m.feed = moveFeed fl st ws

theorem spline_read (hk : Keeps pair T) {st st' : State F} {line rest : List Byte} {m m0 : SplineWords F}
    {ws : List (Byte × F)} (ht : T line) (hd : st.doWhile = false) (h0 : m0.target = st.pos) (h0' : m0.feed = fl.minusOne)
    (h : WordSeq pair (splineStep fl) st m0 line ws st' m rest) : SplineRead fl st st' ws m := by
  refine h.induct hk (fun s m ws => SplineRead fl st s ws m) ?_ ?_ [] ht hd
    ⟨.refl _, rfl, h0, h0'⟩
  · intro s s' a ws hi hks hus
    exact ⟨hi.kept.trans hks, hus.trans hi.unmoved, hi.target, hi.feed⟩
  · intro s m ws l v s' m' hi hst
    have other : ∀ m', m'.target = m.target → m'.feed = m.feed → letterAxis l = none → l ≠ 70 →
        SplineRead fl st s (ws ++ [(l, v)]) m' := by
      intro m' e1 e2 h1 h2
      exact ⟨hi.kept, hi.unmoved, by rw [e1, hi.target, moveTarget_other _ _ _ _ h1],
        by rw [e2, hi.feed, moveFeed_other _ _ _ _ h2]⟩
    unfold splineStep at hst
    obtain ⟨l1, l2, l3, l4, l5, l6⟩ := letter_other
    simp only at hst
    split at hst
    · rename_i hl; subst hl
      injection hst with hst; injection hst with h1 h2; subst h1; subst h2
      exact ⟨other _ rfl rfl l1 (by decide), rfl⟩
    split at hst
    · rename_i hl; subst hl
      injection hst with hst; injection hst with h1 h2; subst h1; subst h2
      exact ⟨other _ rfl rfl l2 (by decide), rfl⟩
    split at hst
    · rename_i hl; subst hl
      injection hst with hst; injection hst with h1 h2; subst h1; subst h2
      exact ⟨other _ rfl rfl l5 (by decide), rfl⟩
    split at hst
    · rename_i hl; subst hl
      injection hst with hst; injection hst with h1 h2; subst h1; subst h2
      exact ⟨other _ rfl rfl l6 (by decide), rfl⟩
    split at hst
    · rename_i hl; subst hl
      injection hst with hst; injection hst with h1 h2; subst h1; subst h2
      refine ⟨⟨hi.kept, hi.unmoved, ?_, ?_⟩, rfl⟩
      · show m.target = _
        rw [hi.target, moveTarget_other _ _ _ _ letter_F]
      · show feedOf fl (fl.mul v s.unit) = _
        rw [moveFeed_append, hi.kept.unit]
    split at hst
    · cases hst
    · rename_i _ _ _ _ n70 _ a ha
      injection hst with hst; injection hst with h1 h2; subst h1; subst h2
      refine ⟨⟨hi.kept, hi.unmoved, ?_, ?_⟩, rfl⟩
      · show setAxis m.target a (absAxisPos fl s a v) = _
        rw [moveTarget_append _ _ _ _ ha, hi.target, hi.kept.absAxisPos]
      · show m.feed = _
        rw [hi.feed, moveFeed_other _ _ _ _ n70]

/-- The same but for the memory of the last spline. -/
def SplineKept (st st' : State F) : Prop :=
  Kept { st with lastCp2 := st'.lastCp2, haveSpline := st'.haveSpline } st'

theorem splineGo_outcome {st st' : State F} {feed : F} {cp1 cp2 target : Axes F} {rest : List Byte}
    {l : Option (List Byte)} (h : splineGo fl rc st feed cp1 cp2 target rest = .ok (st', l)) :
    ∃ ts k b, splineTimes fl 200 fl.zero = some ts ∧ l = some rest ∧
      Outcome rc st ((ts.map (fun t => bezierPoint fl t st.pos cp1 cp2 target) ++ [target]).map (.coordinatedMove feed))
        target k b st' := by
  unfold splineGo splineMove at h
  cases hts : splineTimes fl 200 fl.zero with
  | none => rw [hts] at h; cases h
  | some ts =>
    rw [hts] at h
    simp only [Out.bind, Out.ok.injEq, Prod.mk.injEq] at h
    obtain ⟨h1, h2⟩ := h
    obtain ⟨k, b, ho⟩ := reached_moves (rc := rc) feed (ts.map (fun t => bezierPoint fl t st.pos cp1 cp2 target) ++ [target])
      target st
    rw [h1] at ho
    exact ⟨ts, k, b, rfl, h2.symm, ho⟩

/-- **C15 and C16 for splines.** As for arcs; the points are those of the Bézier curve. A spline that is refused
still counts as the last spline (`SplineKept`). -/
theorem C16_spline (hk : Keeps pair T) {st st' : State F} {sub : F} {line : List Byte}
    {l : Option (List Byte)} (ht : T line) (hd : st.doWhile = false)
    (h : handleSpline fl rc pair sub st line = .ok (st', l)) :
    (Unmoved st st' ∧ Kept st st' ∧ l = none) ∨
    ∃ (ws : List (Byte × F)) (st1 : State F) (rest : List Byte) (ps : List (Axes F)) (k : Nat) (b : Bool),
      l = some rest ∧ SplineKept st st1 ∧ Unmoved st st1 ∧
      (∃ m st2, WordSeq pair (splineStep fl) st
        ⟨st.pos, fun _ => fl.zero, fun _ => fl.zero, fl.minusOne, false, false, false, false⟩ line ws st2 m rest) ∧
      Outcome rc st1 ((ps ++ [moveTarget fl st ws]).map (.coordinatedMove (moveFeed fl st ws))) (moveTarget fl st ws) k b st' ∧
      (∃ ts cp1 cp2, splineTimes fl 200 fl.zero = some ts ∧
        ps = ts.map fun t => bezierPoint fl t st.pos cp1 cp2 (moveTarget fl st ws)) ∧
      (b = false → SplineKept st st') := by
  unfold handleSpline at h
  split at h
  · injection h with h; injection h with h1 h2; subst h1; subst h2
    exact .inl ⟨say_unmoved _ _ rfl, say_kept _ _, rfl⟩
  split at h
  · injection h with h; injection h with h1 h2; subst h1; subst h2
    exact .inl ⟨say_unmoved _ _ rfl, say_kept _ _, rfl⟩
  cases hw : words pair (splineStep fl) (wordFuel line) st
      ⟨st.pos, fun _ => fl.zero, fun _ => fl.zero, fl.minusOne, false, false, false, false⟩ line with
  | fault f => rw [hw] at h; cases h
  | outOfFuel => rw [hw] at h; cases h
  | ok r =>
    obtain ⟨st1, m, rest, b⟩ := r
    rw [hw] at h
    simp only [Out.bind] at h
    obtain ⟨ws, hws⟩ := words_seq _ _ _ _ _ _ _ _ hw
    have hr := spline_read hk ht hd rfl rfl hws
    have err : ∀ {s : State F} {x : Option (List Byte)},
        (Out.ok (st1.say .error, none) : Out (State F × Option (List Byte))) = .ok (s, x) →
        Unmoved st s ∧ Kept st s ∧ x = none := by
      intro s x e
      injection e with e; injection e with e1 e2; subst e1; subst e2
      exact ⟨(say_unmoved _ _ rfl).trans hr.unmoved, hr.kept.trans (say_kept _ _), rfl⟩
    have go : ∀ (s : State F) (feed : F) (cp1 cp2 target : Axes F),
        feed = moveFeed fl st ws → target = moveTarget fl st ws → SplineKept st s → Unmoved st s → s.pos = st.pos →
        splineGo fl rc s feed cp1 cp2 target rest = .ok (st', l) →
        ∃ (ws : List (Byte × F)) (st1 : State F) (rest : List Byte) (ps : List (Axes F)) (k : Nat) (b : Bool),
        l = some rest ∧ SplineKept st st1 ∧ Unmoved st st1 ∧
        (∃ m st2, WordSeq pair (splineStep fl) st
          ⟨st.pos, fun _ => fl.zero, fun _ => fl.zero, fl.minusOne, false, false, false, false⟩ line ws st2 m rest) ∧
        Outcome rc st1 ((ps ++ [moveTarget fl st ws]).map (.coordinatedMove (moveFeed fl st ws))) (moveTarget fl st ws) k b st' ∧
        (∃ ts cp1 cp2, splineTimes fl 200 fl.zero = some ts ∧
          ps = ts.map fun t => bezierPoint fl t st.pos cp1 cp2 (moveTarget fl st ws)) ∧
        (b = false → SplineKept st st') := by
      intro s feed cp1 cp2 target e1 e2 hsk hu hp hgo
      subst e1; subst e2
      obtain ⟨ts, k, b, hts, hl, ho⟩ := splineGo_outcome hgo
      rw [hp] at ho
      refine ⟨ws, s, rest, _, k, b, hl, hsk, hu, ⟨m, st1, hws⟩, ho, ⟨ts, cp1, cp2, hts, rfl⟩, ?_⟩
      intro hb
      subst hb
      have hkk := ho.refused.2
      unfold SplineKept at hsk ⊢
      rw [hkk.lastCp2, hkk.haveSpline]
      exact hsk.trans hkk
    have hsk : ∀ (c : Axes F) (b : Bool), SplineKept st ({ st1 with lastCp2 := c, haveSpline := b } : State F) := by
      intro c b
      have := hr.kept
      exact ⟨this.pos, this.scale, this.machineOrigin, this.system, this.g92, this.origin, this.offset, this.unit, this.rotUnit,
        this.absolute, this.ijkAbsolute, this.modalAbsolute, this.modalG1, this.arcNormal, rfl, rfl, this.inProgress⟩
    split at h
    · exact .inl (err h)
    split at h
    · unfold cubicApply at h
      split at h
      · exact .inl (err h)
      split at h
      · exact .inl (err h)
      split at h
      · exact .inl (err h)
      · exact .inr (go { st1 with lastCp2 := m.cp2, haveSpline := true } m.feed _ _ m.target hr.feed hr.target
          (hsk _ _) hr.unmoved hr.kept.pos h)
    · unfold quadraticApply at h
      split at h
      · exact .inl (err h)
      split at h
      · exact .inl (err h)
      · exact .inr (go { st1 with haveSpline := false } m.feed _ _ m.target hr.feed hr.target
          (hsk _ _) hr.unmoved hr.kept.pos h)

/-! ### What does not hold, and examples -/

/-- A receiver that refuses one move: the `n`th that it is asked for. -/
def pickyReceiver (n : Nat) : Receiver Rat := { ratReceiver true with accepts := fun l => (movesOf l).length ≠ n }

/-- C15 does not hold for a line that starts with an axis word: the position on that axis changes although the
move is refused, and the following relative move to X+1 goes to 6 instead of 1. -/
theorem C15_bare_axis : ∃ st feed target log, runLines ratNum (pickyReceiver 1) 0 ratState
    [text "G0 ", text "X5", text "G91", text "G0 X1"] = .ok st ∧ st.log = Event.blockDone ::
      .commandDone 71 0 :: .rapidMove feed target :: log ∧ target .X = 6 := by
  have h : (runLines ratNum (pickyReceiver 1) 0 ratState
      [text "G0 ", text "X5", text "G91", text "G0 X1"]).ends (fun st => match st.log with
        | .blockDone :: .commandDone l v :: .rapidMove _ target :: _ => l = 71 && v = 0 && target .X = 6
        | _ => false) = true := by decide +kernel
  obtain ⟨st, h1, h2⟩ := Out.ends_ok h
  split at h2
  · rename_i l v feed target log hl
    simp only [Bool.and_eq_true, decide_eq_true_eq] at h2
    obtain ⟨⟨e1, e2⟩, e3⟩ := h2
    subst e1; subst e2
    exact ⟨st, feed, target, log, h1, hl, e3⟩
  · cases h2

/-- Non-vacuity of `C13_bare_axis`, and what `clamp_to_range` is told: for `G0 X5 Z1` that X and Z are affected, for
`X5 Z1` only Z. (With clamp-to-range for Z, the machine control does not clamp the first one, because X is not among
the axes to be clamped, but it does clamp the second one, gcode-machine-control.cc 863-866.) -/
theorem C13_bare_axis_unnoticed :
    (runLines ratNum (ratReceiver true) 0 ratState [text "G0 X5 Z1"]).ends (fun st => match st.log with
      | .blockDone :: .commandDone _ _ :: .rapidMove _ target :: .clampToRange aff _ :: _ =>
        target .X = 5 && target .Z = 1 && aff .X && aff .Z
      | _ => false) = true ∧
    (runLines ratNum (ratReceiver true) 0 ratState [text "X5 Z1"]).ends (fun st => match st.log with
      | .blockDone :: .commandDone _ _ :: .rapidMove _ target :: .clampToRange aff _ :: _ =>
        target .X = 5 && target .Z = 1 && !aff .X && aff .Z
      | _ => false) = true := by
  decide +kernel

/-- The same with G0: the refused move has no effect on the next one. -/
example : (runLines ratNum (pickyReceiver 1) 0 ratState
    [text "G0 X5", text "G91", text "G0 X1"]).ends (fun st => decide (st.pos .X = 1 ∧ (movesOf st.log).length = 2)) =
      true := by decide +kernel

/-- Non-vacuity of `C16_arc`: an arc of several segments, accepted and refused at the second segment. -/
example : (runLines ratNum (ratReceiver true) 0 ratState
    [text "G3 X1 Y1 I1 F60"]).ends (fun st => decide (st.pos .X = 1 ∧ 2 < (movesOf st.log).length)) = true ∧
    (runLines ratNum (pickyReceiver 2) 0 ratState
    [text "G3 X1 Y1 I1 F60"]).ends (fun st => decide (st.pos .X = 0 ∧ (movesOf st.log).length = 2)) = true := by
  decide +kernel

/-- Non-vacuity of `C16_spline`: 101 moves, accepted and refused at the third. -/
example : (runLines ratNum (ratReceiver true) 0 ratState
    [text "G5 X10 Y10 I3 J1 P2 Q3 F60"]).ends (fun st => decide (st.pos .X = 10 ∧ (movesOf st.log).length = 101)) = true ∧
    (runLines ratNum (pickyReceiver 3) 0 ratState
    [text "G5 X10 Y10 I3 J1 P2 Q3 F60"]).ends (fun st => decide (st.pos .X = 0 ∧ (movesOf st.log).length = 3)) = true := by
  decide +kernel

end BeagleG.Parser
