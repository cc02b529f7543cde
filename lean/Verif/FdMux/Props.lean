import Verif.FdMux.Model
import Mathlib.Tactic.ByContra
import Mathlib.Tactic.Tauto
/-!
# C05: the multiplexer calls exactly the handlers that are registered and ready
-/
namespace BeagleG.FdMux

variable {H σ : Type}

/-! ### Specification -/

/-- Replay of a log, oldest event first: a successful registration enters a handler, a call that returned
false removes it. -/
def replayStep (m : Kind → Nat → Option H) : Ev H → Kind → Nat → Option H
  | .reg k fd h ok => fun k' fd' => if ok ∧ k' = k ∧ fd' = fd then some h else m k' fd'
  | .call k fd _ keep => fun k' fd' => if keep = false ∧ k' = k ∧ fd' = fd then none else m k' fd'
  | .idle _ _ => m

/-- The handlers registered after a log. -/
def replay (log : List (Ev H)) : Kind → Nat → Option H := log.foldl replayStep fun _ _ => none

/-- A log in which every handler called is the one registered at that moment and registration succeeds
exactly if the descriptor is free. -/
def LogOk (log : List (Ev H)) : Prop :=
  ∀ before ev after, log = before ++ ev :: after →
    match ev with
    | .reg k fd _ ok => (ok = true ↔ replay before k fd = none)
    | .call k fd h _ => replay before k fd = some h
    | .idle _ _ => True

/-- The calls in a log. -/
def callsOf (log : List (Ev H)) : List (Kind × Nat × H) :=
  log.filterMap fun
    | .call k fd h _ => some (k, fd, h)
    | _ => none

/-- The calls of idle handlers in a log. -/
def idleCallsOf (log : List (Ev H)) : List (H × Bool) :=
  log.filterMap fun
    | .idle h keep => some (h, keep)
    | _ => none

/-- Keys ascending: `std::map`. -/
def Sorted (l : List (Nat × H)) : Prop := l.Pairwise (·.1 < ·.1)

/-- The contract of `select`: only descriptors asked for, and their number. -/
def SelOk (m : Mux H) : Sel → Prop
  | .error => True
  | .ready n readable writable =>
    (∀ fd, readable fd = true → ∃ h, (fd, h) ∈ m.maps .read) ∧
    (∀ fd, writable fd = true → ∃ h, (fd, h) ∈ m.maps .write) ∧
    n = ((m.maps .read).filter (readable ·.1)).length + ((m.maps .write).filter (writable ·.1)).length

/-! ### Maps -/

theorem mem_insert (fd : Nat) (h : H) : ∀ (l : List (Nat × H)) (p : Nat × H), p ∈ (insert fd h l).1 ↔
    p ∈ l ∨ ((insert fd h l).2 = true ∧ p = (fd, h))
  | [], p => by simp [insert]
  | (k, g) :: l, p => by
    simp only [insert]
    split
    · simp; tauto
    · split
      · simp
      · have := mem_insert fd h l p
        simp [this]; tauto

theorem insert_ok (fd : Nat) (h : H) : ∀ (l : List (Nat × H)), Sorted l →
    ((insert fd h l).2 = true ↔ ∀ g, (fd, g) ∉ l) ∧ Sorted (insert fd h l).1
  | [], _ => by simp [insert, Sorted]
  | (k, g) :: l, hs => by
    have hs' := List.pairwise_cons.1 hs
    simp only [insert]
    split
    · rename_i hlt
      refine ⟨?_, ?_⟩
      · simp only [true_iff]
        intro g' hg
        rcases List.mem_cons.1 hg with e | e
        · simp at e; omega
        · have := hs'.1 _ e; simp at this; omega
      · refine List.pairwise_cons.2 ⟨?_, hs⟩
        intro p hp
        rcases List.mem_cons.1 hp with e | e
        · subst e; exact hlt
        · have := hs'.1 _ e; simp at this ⊢; omega
    · split
      · rename_i h1 h2
        subst h2
        refine ⟨?_, hs⟩
        simp only [Bool.false_eq_true, false_iff, not_forall, not_not]
        exact ⟨g, List.mem_cons_self⟩
      · rename_i h1 h2
        obtain ⟨i1, i2⟩ := insert_ok fd h l hs'.2
        refine ⟨?_, ?_⟩
        · rw [i1]; simp [h2]
        · refine List.pairwise_cons.2 ⟨?_, i2⟩
          intro p hp
          rcases (mem_insert fd h l p).1 hp with e | ⟨_, e⟩
          · exact hs'.1 _ e
          · subst e; simp; omega

theorem sorted_unique {l : List (Nat × H)} (hs : Sorted l) {fd : Nat} {g h : H} (hg : (fd, g) ∈ l)
    (hh : (fd, h) ∈ l) : g = h := by
  induction l with
  | nil => simp at hg
  | cons p l ih =>
    have hs' := List.pairwise_cons.1 hs
    rcases List.mem_cons.1 hg with e1 | e1 <;> rcases List.mem_cons.1 hh with e2 | e2
    · rw [← e1] at e2; injection e2 with _ e; exact e.symm
    · have := hs'.1 _ e2; rw [← e1] at this; simp at this
    · have := hs'.1 _ e1; rw [← e2] at this; simp at this
    · exact ih hs'.2 e1 e2

/-! ### Log and maps agree -/

/-- The log is in order and says what the maps hold. -/
structure Good (log : List (Ev H)) (m : Mux H) : Prop where
  ok : LogOk log
  agree : ∀ k fd h, replay log k fd = some h ↔ (fd, h) ∈ m.maps k
  sorted : ∀ k, Sorted (m.maps k)

theorem replay_snoc (log : List (Ev H)) (e : Ev H) : replay (log ++ [e]) = replayStep (replay log) e := by
  simp [replay]

theorem logOk_snoc {log : List (Ev H)} {e : Ev H} (h : LogOk log)
    (he : match e with
    | .reg k fd _ ok => (ok = true ↔ replay log k fd = none)
    | .call k fd h _ => replay log k fd = some h
    | .idle _ _ => True) : LogOk (log ++ [e]) := by
  intro before ev after heq
  rcases List.eq_nil_or_concat after with rfl | ⟨after', x, rfl⟩
  · have := List.append_inj' heq rfl
    obtain ⟨rfl, h2⟩ := this
    injection h2 with h2
    subst h2
    exact he
  · have heq' : log ++ [e] = (before ++ ev :: after') ++ [x] := by simpa using heq
    have := List.append_inj' heq' rfl
    exact h before ev after' this.1

theorem Good.none_iff {log : List (Ev H)} {m : Mux H} (h : Good log m) (k : Kind) (fd : Nat) :
    replay log k fd = none ↔ ∀ g, (fd, g) ∉ m.maps k := by
  rw [Option.eq_none_iff_forall_ne_some]
  exact forall_congr' fun g => not_congr (h.agree k fd g)

theorem Good.register {log : List (Ev H)} {m : Mux H} (h : Good log m) (r : Reg H) :
    Good (log ++ [.reg r.kind r.fd r.handler (m.register r).2]) (m.register r).1 := by
  have hi := insert_ok r.fd r.handler (m.maps r.kind) (h.sorted _)
  refine ⟨?_, ?_, ?_⟩
  · refine logOk_snoc h.ok ?_
    show (m.register r).2 = true ↔ _
    rw [h.none_iff]; exact hi.1
  · intro k fd g
    rw [replay_snoc]
    simp only [replayStep, Mux.register, Mux.set]
    by_cases hk : k = r.kind
    · subst hk
      simp only [true_and, if_true]
      rw [mem_insert]
      by_cases hc : (insert r.fd r.handler (m.maps r.kind)).2 = true ∧ fd = r.fd
      · rw [if_pos hc]
        have hno := hi.1.1 hc.1
        simp only [hc.1, hc.2, true_and, Option.some.injEq, Prod.mk.injEq]
        constructor
        · intro e; exact Or.inr e.symm
        · rintro (e | e)
          · exact absurd e (hno g)
          · exact e.symm
      · rw [if_neg hc, h.agree]
        constructor
        · exact Or.inl
        · rintro (e | ⟨e1, e2⟩)
          · exact e
          · injection e2 with e2 _; exact absurd ⟨e1, e2⟩ hc
    · simp only [hk, false_and, and_false, if_false]
      exact h.agree k fd g
  · intro k
    simp only [Mux.register, Mux.set]
    split
    · exact hi.2
    · exact h.sorted k

theorem Good.registerAll : ∀ (rs : List (Reg H)) {log : List (Ev H)} {m : Mux H}, Good log m →
    Good (log ++ (m.registerAll rs).2) (m.registerAll rs).1
  | [], log, m, h => by simpa [Mux.registerAll] using h
  | r :: rs, log, m, h => by
    have := Good.registerAll rs (h.register r)
    simpa [Mux.registerAll] using this

/-- Registering only adds, and changes nothing about descriptors already present. -/
theorem registerAll_mem : ∀ (rs : List (Reg H)) (m : Mux H) (k : Kind) (p : Nat × H), p ∈ m.maps k →
    p ∈ ((m.registerAll rs).1).maps k
  | [], m, k, p, h => by simpa [Mux.registerAll] using h
  | r :: rs, m, k, p, h => by
    simp only [Mux.registerAll]
    refine registerAll_mem rs _ k p ?_
    simp only [Mux.register, Mux.set]
    split
    · rename_i hk; subst hk
      rw [mem_insert]; exact Or.inl h
    · exact h

theorem registerAll_idle : ∀ (rs : List (Reg H)) (m : Mux H), (m.registerAll rs).1.idle = m.idle
  | [], m => rfl
  | r :: rs, m => by simp only [Mux.registerAll]; exact registerAll_idle rs _

theorem registerAll_calls : ∀ (rs : List (Reg H)) (m : Mux H), callsOf (m.registerAll rs).2 = [] ∧
    idleCallsOf (m.registerAll rs).2 = []
  | [], m => by simp [Mux.registerAll, callsOf, idleCallsOf]
  | r :: rs, m => by
    have := registerAll_calls rs (m.register r).1
    simpa [Mux.registerAll, callsOf, idleCallsOf] using this

theorem Good.call {log : List (Ev H)} {m : Mux H} (h : Good log m) (k : Kind) (fd : Nat) (hd : H)
    (keep : Bool) (hm : (fd, hd) ∈ m.maps k) :
    Good (log ++ [.call k fd hd keep]) (if keep then m else m.set k (erase fd (m.maps k))) := by
  refine ⟨logOk_snoc h.ok ((h.agree k fd hd).2 hm), ?_, ?_⟩
  · intro k' fd' g
    rw [replay_snoc]
    simp only [replayStep]
    cases keep
    · simp only [true_and, Bool.false_eq_true, if_false, Mux.set]
      by_cases hk : k' = k
      · subst hk
        by_cases hf : fd' = fd
        · simp [hf, erase]
        · simp [hf, erase, h.agree]
      · simp [hk, h.agree]
    · simp [h.agree]
  · intro k'
    cases keep
    · simp only [Bool.false_eq_true, if_false, Mux.set]
      split
      · exact List.Pairwise.filter _ (h.sorted k)
      · exact h.sorted k'
    · exact h.sorted k'

theorem Good.idle {log : List (Ev H)} {m : Mux H} (h : Good log m) (hd : H) (keep : Bool) :
    Good (log ++ [.idle hd keep]) m := by
  refine ⟨logOk_snoc h.ok trivial, ?_, h.sorted⟩
  intro k fd g
  rw [replay_snoc]
  exact h.agree k fd g

theorem head_from {pos : Nat} {l : List (Nat × H)} {p : Nat × H} (h : (from_ pos l).head? = some p) :
    p ∈ l ∧ pos ≤ p.1 := by
  have := List.mem_filter.1 (List.mem_of_head? h)
  exact ⟨this.1, by simpa using this.2⟩

theorem callHandlers_good (call : CallFun H σ) (k : Kind) (set : Nat → Bool) (avail : Nat) (m : Mux H)
    (pos : Nat) (w : σ) (log : List (Ev H)) (h : Good log m) :
    Good (log ++ (callHandlers call k set avail m pos w).2.2.2) (callHandlers call k set avail m pos w).2.1 := by
  fun_induction callHandlers call k set avail m pos w generalizing log with
  | case1 => simpa using h
  | case2 => simpa using h
  | case3 avail m pos w hav fd hd hh hs keep m1 regLog heq m2 r ih =>
    have hmem := (head_from hh).1
    have h1 : Good (log ++ regLog) m1 := by
      have := Good.registerAll (call hd w).2.1 h
      rw [heq] at this; exact this
    have hmem1 : (fd, hd) ∈ m1.maps k := by
      have := registerAll_mem (call hd w).2.1 m k _ hmem
      rw [heq] at this; exact this
    have := ih _ (h1.call k fd hd keep hmem1)
    simpa using this
  | case4 _ _ _ _ _ _ _ _ _ ih => exact ih log h

theorem callIdle_good (call : CallFun H σ) : ∀ (hs : List H) (m : Mux H) (w : σ) (log : List (Ev H)), Good log m →
    Good (log ++ (callIdle call hs m w).2.2.2) (callIdle call hs m w).2.1
  | [], m, w, log, h => by simpa [callIdle] using h
  | hd :: hs, m, w, log, h => by
    have h1 := Good.registerAll (call hd w).2.1 h
    have := callIdle_good call hs _ (call hd w).2.2 _ (h1.idle hd (call hd w).1)
    simpa [callIdle] using this

theorem cycle_good (call : CallFun H σ) (m : Mux H) (w : σ) (sel : Sel) (log : List (Ev H)) (h : Good log m) :
    Good (log ++ (cycle call m w sel).2.2.2) (cycle call m w sel).2.1 := by
  unfold cycle
  split
  · simpa using h
  · cases sel with
    | error => simpa using h
    | ready n rd wr =>
      by_cases hn : n = 0
      · simp only [hn, if_true]
        have := callIdle_good call m.idle m w log h
        exact ⟨this.ok, this.agree, this.sorted⟩
      · simp only [if_neg hn]
        have h1 := callHandlers_good call .read rd n m 0 w log h
        have h2 := callHandlers_good call .write wr (callHandlers call .read rd n m 0 w).1 _ 0
          (callHandlers call .read rd n m 0 w).2.2.1 _ h1
        simpa using h2

theorem loop_good (call : CallFun H σ) : ∀ (sels : List Sel) (m : Mux H) (w : σ) (log : List (Ev H)), Good log m →
    Good (log ++ (loop call m w sels).2.2) (loop call m w sels).1
  | [], m, w, log, h => by simpa [loop] using h
  | sel :: sels, m, w, log, h => by
    have h1 := cycle_good call m w sel log h
    simp only [loop]
    split
    · have := loop_good call sels _ (cycle call m w sel).2.2.1 _ h1
      simpa using this
    · exact h1

/-! ### Which handlers are called -/

/-- What remains to be called. -/
def due (set : Nat → Bool) (pos : Nat) (l : List (Nat × H)) : List (Nat × H) :=
  l.filter fun p => decide (pos ≤ p.1) && set p.1

theorem due_insert {set : Nat → Bool} {pos fd : Nat} {h : H} : ∀ {l : List (Nat × H)}, Sorted l →
    (pos ≤ fd → set fd = true → ∃ g, (fd, g) ∈ l) → due set pos (insert fd h l).1 = due set pos l
  | [], _, hp => by
    by_cases hc : pos ≤ fd ∧ set fd = true
    · obtain ⟨g, hg⟩ := hp hc.1 hc.2; simp at hg
    · simp [insert, due] at hc ⊢; exact hc
  | (k, g) :: l, hs, hp => by
    have hs' := List.pairwise_cons.1 hs
    simp only [insert]
    split
    · rename_i hlt
      have hno : ¬ (pos ≤ fd ∧ set fd = true) := by
        rintro ⟨h1, h2⟩
        obtain ⟨g', hg⟩ := hp h1 h2
        rcases List.mem_cons.1 hg with e | e
        · simp at e; omega
        · have := hs'.1 _ e; simp at this; omega
      unfold due
      rw [List.filter_cons_of_neg (by simpa using hno)]
    · split
      · rfl
      · rename_i h1 h2
        have ih := due_insert (set := set) (pos := pos) (fd := fd) (h := h) hs'.2 (by
          intro a b
          obtain ⟨g', hg⟩ := hp a b
          rcases List.mem_cons.1 hg with e | e
          · simp at e; omega
          · exact ⟨g', e⟩)
        unfold due at ih ⊢
        simp only [List.filter_cons, ih]

theorem due_registerAll {set : Nat → Bool} {pos : Nat} (k : Kind) : ∀ (rs : List (Reg H)) (m : Mux H),
    (∀ k, Sorted (m.maps k)) → (∀ fd, pos ≤ fd → set fd = true → ∃ g, (fd, g) ∈ m.maps k) →
    due set pos ((m.registerAll rs).1.maps k) = due set pos (m.maps k) ∧
      (∀ k, Sorted ((m.registerAll rs).1.maps k))
  | [], m, hs, _ => ⟨rfl, hs⟩
  | r :: rs, m, hs, hp => by
    have hs1 : ∀ k, Sorted ((m.register r).1.maps k) := by
      intro k'
      simp only [Mux.register, Mux.set]
      split
      · exact (insert_ok _ _ _ (hs _)).2
      · exact hs k'
    have hp1 : ∀ fd, pos ≤ fd → set fd = true → ∃ g, (fd, g) ∈ (m.register r).1.maps k := by
      intro fd h1 h2
      obtain ⟨g, hg⟩ := hp fd h1 h2
      exact ⟨g, registerAll_mem [r] m k _ hg⟩
    have ih := due_registerAll k rs (m.register r).1 hs1 hp1
    simp only [Mux.registerAll]
    refine ⟨?_, ih.2⟩
    rw [ih.1]
    simp only [Mux.register, Mux.set]
    split
    · rename_i hk; subst hk
      exact due_insert (hs _) (hp r.fd)
    · rfl

theorem due_head {set : Nat → Bool} {pos : Nat} {l : List (Nat × H)} {fd : Nat} {h : H} (hs : Sorted l)
    (hh : (from_ pos l).head? = some (fd, h)) :
    due set pos l = (if set fd then [(fd, h)] else []) ++ due set (fd + 1) l := by
  induction l with
  | nil => simp [from_] at hh
  | cons p l ih =>
    have hs' := List.pairwise_cons.1 hs
    by_cases hp : pos ≤ p.1
    · simp only [from_] at hh
      rw [List.filter_cons_of_pos (by simpa using hp)] at hh
      simp only [List.head?_cons, Option.some.injEq] at hh
      subst hh
      have e : due set pos l = due set (fd + 1) l := by
        unfold due
        apply List.filter_congr
        intro x hx
        have := hs'.1 x hx
        simp only at this hp
        have h1 : pos ≤ x.1 := by omega
        have h2 : fd + 1 ≤ x.1 := by omega
        simp [h1, h2]
      have e2 : due set (fd + 1) ((fd, h) :: l) = due set (fd + 1) l := by
        unfold due
        rw [List.filter_cons_of_neg (by simp; omega)]
      rw [e2, ← e]
      unfold due
      simp only [List.filter_cons]
      simp only at hp
      cases set fd <;> simp [hp]
    · have e : (from_ pos l).head? = some (fd, h) := by
        unfold from_ at hh ⊢
        rw [List.filter_cons_of_neg (by simpa using hp)] at hh
        exact hh
      have hle := (head_from e).2
      have hne : ∀ q, q ≥ pos → due set q (p :: l) = due set q l := by
        intro q hq
        unfold due
        rw [List.filter_cons_of_neg (by simp; intro; omega)]
      rw [hne pos (by omega), hne (fd + 1) (by simp at hle; omega)]
      exact ih hs'.2 e

theorem due_erase {set : Nat → Bool} {fd : Nat} (l : List (Nat × H)) :
    due set (fd + 1) (erase fd l) = due set (fd + 1) l := by
  unfold due erase
  rw [List.filter_filter]
  apply List.filter_congr
  intro x _
  by_cases hx : x.1 = fd
  · simp [hx]; omega
  · simp [hx]

/-- One pass over a map: exactly the ready handlers are called, in ascending order of descriptor. -/
theorem callHandlers_calls (call : CallFun H σ) (k : Kind) (set : Nat → Bool) (avail : Nat) (m : Mux H)
    (pos : Nat) (w : σ) (hs : ∀ k, Sorted (m.maps k))
    (hp : ∀ fd, pos ≤ fd → set fd = true → ∃ g, (fd, g) ∈ m.maps k)
    (hav : (due set pos (m.maps k)).length ≤ avail) :
    callsOf (callHandlers call k set avail m pos w).2.2.2 = (due set pos (m.maps k)).map (fun p => (k, p)) ∧
      (callHandlers call k set avail m pos w).1 = avail - (due set pos (m.maps k)).length ∧
      idleCallsOf (callHandlers call k set avail m pos w).2.2.2 = [] ∧
      (callHandlers call k set avail m pos w).2.1.idle = m.idle ∧
      (∀ k', Sorted ((callHandlers call k set avail m pos w).2.1.maps k')) := by
  revert hs hp hav
  fun_induction callHandlers call k set avail m pos w with
  | case1 m pos w =>
    intro hs hp hav
    have : due set pos (m.maps k) = [] := List.length_eq_zero_iff.1 (by omega)
    simp [this, callsOf, idleCallsOf, hs]
  | case2 avail m pos w hav hh =>
    intro hs hp _
    have : due set pos (m.maps k) = [] := by
      have h0 : from_ pos (m.maps k) = [] := List.head?_eq_none_iff.1 hh
      unfold due
      rw [List.filter_eq_nil_iff]
      intro x hx
      have := List.filter_eq_nil_iff.1 h0 x hx
      simp at this ⊢
      omega
    simp [this, callsOf, idleCallsOf, hs]
  | case3 avail m pos w hav fd hd hh hset keep m1 regLog heq m2 r ih =>
    intro hs hp hlen
    have hd' := due_head (set := set) (hs k) hh
    rw [hset] at hd'
    simp only [if_true] at hd'
    have hle := (head_from hh).2
    simp only at hle
    have hp' : ∀ fd', fd + 1 ≤ fd' → set fd' = true → ∃ g, (fd', g) ∈ m.maps k :=
      fun fd' h1 h2 => hp fd' (by omega) h2
    have hreg := due_registerAll (set := set) (pos := fd + 1) k (call hd w).2.1 m hs hp'
    rw [heq] at hreg
    simp only at hreg
    have hcalls := registerAll_calls (call hd w).2.1 m
    rw [heq] at hcalls
    have hidle := registerAll_idle (call hd w).2.1 m
    rw [heq] at hidle
    simp only at hcalls hidle
    have hm2 : due set (fd + 1) (m2.maps k) = due set (fd + 1) (m.maps k) := by
      rw [← hreg.1]
      simp only [m2]
      split
      · rfl
      · simp only [Mux.set, if_true]
        exact due_erase _
    have hs2 : ∀ k, Sorted (m2.maps k) := by
      intro k'
      simp only [m2]
      split
      · exact hreg.2 k'
      · simp only [Mux.set]
        split
        · exact List.Pairwise.filter _ (hreg.2 k)
        · exact hreg.2 k'
    have hp2 : ∀ fd', fd + 1 ≤ fd' → set fd' = true → ∃ g, (fd', g) ∈ m2.maps k := by
      intro fd' h1 h2
      obtain ⟨g, hg⟩ := hp' fd' h1 h2
      have := registerAll_mem (call hd w).2.1 m k _ hg
      rw [heq] at this
      refine ⟨g, ?_⟩
      simp only [m2]
      split
      · exact this
      · simp only [Mux.set, if_true, erase]
        refine List.mem_filter.2 ⟨this, ?_⟩
        simp; omega
    have hi2 : m2.idle = m.idle := by
      rw [← hidle]; simp only [m2]; split <;> rfl
    obtain ⟨i1, i2, i3, i4, i5⟩ := ih hs2 hp2 (by
      rw [hm2]
      rw [hd'] at hlen
      simp at hlen
      omega)
    have hr : r = callHandlers call k set (avail - 1) m2 (fd + 1) (call hd w).2.2 := rfl
    rw [← hr] at i1 i2 i3 i4 i5
    rw [hd']
    refine ⟨?_, ?_, ?_, ?_, i5⟩
    · rw [hm2] at i1
      simp only [callsOf] at i1 hcalls ⊢
      rw [List.filterMap_append, hcalls.1, List.filterMap_cons, i1]
      simp
    · rw [i2, hm2]; simp; omega
    · simp only [idleCallsOf] at i3 hcalls ⊢
      rw [List.filterMap_append, hcalls.2, List.filterMap_cons, i3]
      simp
    · rw [i4, hi2]
  | case4 avail m pos w hav fd hd hh hset ih =>
    intro hs hp hlen
    have hd' := due_head (set := set) (hs k) hh
    simp only [hset, Bool.false_eq_true, if_false, List.nil_append] at hd'
    rw [hd']
    refine ih hs ?_ (by rw [← hd']; exact hlen)
    intro fd' h1 h2
    exact hp fd' (by have := (head_from hh).2; simp at this; omega) h2

theorem due_zero (set : Nat → Bool) (l : List (Nat × H)) : due set 0 l = l.filter (set ·.1) := by
  simp [due]

/-- A pass over one map does not take anything out of the other. -/
theorem callHandlers_other (call : CallFun H σ) (k k' : Kind) (hk : k' ≠ k) (set : Nat → Bool) (avail : Nat) (m : Mux H)
    (pos : Nat) (w : σ) (p : Nat × H) (hpm : p ∈ m.maps k') :
    p ∈ (callHandlers call k set avail m pos w).2.1.maps k' := by
  fun_induction callHandlers call k set avail m pos w with
  | case1 => exact hpm
  | case2 => exact hpm
  | case3 avail m pos w hav fd hd hh hs keep m1 regLog heq m2 r ih =>
    refine ih ?_
    have := registerAll_mem (call hd w).2.1 m k' _ hpm
    rw [heq] at this
    simp only [m2]
    split
    · exact this
    · simp only [Mux.set, if_neg hk]; exact this
  | case4 _ _ _ _ _ _ _ _ _ ih => exact ih hpm

theorem callHandlers_due_other (call : CallFun H σ) (k k' : Kind) (hk : k' ≠ k) (set set' : Nat → Bool) (avail : Nat)
    (m : Mux H) (pos : Nat) (w : σ) (hs : ∀ k, Sorted (m.maps k))
    (hp : ∀ fd, set' fd = true → ∃ g, (fd, g) ∈ m.maps k') :
    due set' 0 ((callHandlers call k set avail m pos w).2.1.maps k') = due set' 0 (m.maps k') := by
  revert hs hp
  fun_induction callHandlers call k set avail m pos w with
  | case1 => intros; rfl
  | case2 => intros; rfl
  | case3 avail m pos w hav fd hd hh hset keep m1 regLog heq m2 r ih =>
    intro hs hp
    have hreg := due_registerAll (set := set') (pos := 0) k' (call hd w).2.1 m hs (fun fd _ h => hp fd h)
    rw [heq] at hreg
    have hm2 : m2.maps k' = m1.maps k' := by
      simp only [m2]
      split
      · rfl
      · simp only [Mux.set, if_neg hk]
    rw [ih ?_ ?_, hm2, hreg.1]
    · intro k''
      simp only [m2]
      split
      · exact hreg.2 k''
      · simp only [Mux.set]
        split
        · exact List.Pairwise.filter _ (hreg.2 k)
        · exact hreg.2 k''
    · intro fd' h
      obtain ⟨g, hg⟩ := hp fd' h
      have := registerAll_mem (call hd w).2.1 m k' _ hg
      rw [heq] at this
      exact ⟨g, by rw [hm2]; exact this⟩
  | case4 avail m pos w hav fd hd hh hset ih => exact ih

/-! ### C05 -/

/-- C05. One cycle with ready descriptors calls exactly the registered handlers of the ready descriptors,
each once: the readable ones and then the writable ones, whatever the handlers return and register. No idle
handler is called. -/
theorem C05_ready (call : CallFun H σ) (m : Mux H) (w : σ) (n : Nat) (rd wr : Nat → Bool)
    (hs : ∀ k, Sorted (m.maps k)) (hsel : SelOk m (.ready n rd wr)) (hn : n ≠ 0) :
    callsOf (cycle call m w (.ready n rd wr)).2.2.2 =
        ((m.maps .read).filter (rd ·.1)).map (fun p => (Kind.read, p)) ++
        ((m.maps .write).filter (wr ·.1)).map (fun p => (Kind.write, p)) ∧
      idleCallsOf (cycle call m w (.ready n rd wr)).2.2.2 = [] ∧
      (cycle call m w (.ready n rd wr)).2.1.idle = m.idle ∧ (cycle call m w (.ready n rd wr)).1 = true := by
  obtain ⟨h1, h2, h3⟩ := hsel
  have hne : ((m.maps .read).isEmpty && (m.maps .write).isEmpty) = false := by
    by_contra hc
    simp at hc
    rw [hc.1, hc.2] at h3
    simp at h3; omega
  have hA := callHandlers_calls call .read rd n m 0 w hs (fun fd _ h => h1 fd h) (by rw [due_zero]; omega)
  have hsB : ∀ k, Sorted ((callHandlers call .read rd n m 0 w).2.1.maps k) := by
    intro k
    exact hA.2.2.2.2 k
  have hdueB : due wr 0 ((callHandlers call .read rd n m 0 w).2.1.maps .write) = (m.maps .write).filter (wr ·.1) := by
    rw [callHandlers_due_other call .read .write (by decide) rd wr n m 0 w hs (fun fd h => h2 fd h), due_zero]
  have hB := callHandlers_calls call .write wr (callHandlers call .read rd n m 0 w).1
    (callHandlers call .read rd n m 0 w).2.1 0 (callHandlers call .read rd n m 0 w).2.2.1 hsB
    (fun fd _ h => by
      obtain ⟨g, hg⟩ := h2 fd h
      exact ⟨g, callHandlers_other call .read .write (by decide) rd n m 0 w _ hg⟩)
    (by rw [hdueB, hA.2.1, due_zero]; omega)
  simp only [cycle, hne, Bool.false_eq_true, if_false, if_neg hn]
  refine ⟨?_, ?_, ?_, trivial⟩
  · have e1 := hA.1
    have e2 := hB.1
    rw [due_zero] at e1
    rw [hdueB] at e2
    simp only [callsOf] at e1 e2 ⊢
    rw [List.filterMap_append, e1, e2]
  · have e1 := hA.2.2.1
    have e2 := hB.2.2.1
    simp only [idleCallsOf] at e1 e2 ⊢
    rw [List.filterMap_append, e1, e2]; rfl
  · rw [hB.2.2.2.1, hA.2.2.2.1]

/-- C05. When the wait times out every idle handler is called exactly once, in the order of registration;
those that return true stay; no other handler is called. -/
theorem C05_idle (call : CallFun H σ) (m : Mux H) (w : σ) (rd wr : Nat → Bool)
    (hne : ¬ ((m.maps .read) = [] ∧ (m.maps .write) = [])) :
    callsOf (cycle call m w (.ready 0 rd wr)).2.2.2 = [] ∧
      (idleCallsOf (cycle call m w (.ready 0 rd wr)).2.2.2).map (·.1) = m.idle ∧
      (cycle call m w (.ready 0 rd wr)).2.1.idle =
        ((idleCallsOf (cycle call m w (.ready 0 rd wr)).2.2.2).filter (·.2)).map (·.1) ∧
      (cycle call m w (.ready 0 rd wr)).1 = true := by
  have key : ∀ (hs : List H) (m : Mux H) (w : σ), callsOf (callIdle call hs m w).2.2.2 = [] ∧
      (idleCallsOf (callIdle call hs m w).2.2.2).map (·.1) = hs ∧
      (callIdle call hs m w).1 = ((idleCallsOf (callIdle call hs m w).2.2.2).filter (·.2)).map (·.1) := by
    intro hs
    induction hs with
    | nil => intro m w; simp [callIdle, callsOf, idleCallsOf]
    | cons h hs ih =>
      intro m w
      obtain ⟨i1, i2, i3⟩ := ih (m.registerAll (call h w).2.1).1 (call h w).2.2
      obtain ⟨c1, c2⟩ := registerAll_calls (call h w).2.1 m
      simp only [callsOf, idleCallsOf] at i1 i2 i3 c1 c2 ⊢
      simp only [callIdle, List.filterMap_append, List.filterMap_cons, c1, c2, i1, List.nil_append,
        List.map_cons, i2, true_and]
      rw [i3]
      cases (call h w).1 <;> simp
  have hb : ((m.maps .read).isEmpty && (m.maps .write).isEmpty) = false := by
    by_contra hc
    simp at hc
    exact hne hc
  simp only [cycle, hb, Bool.false_eq_true, if_false, if_true]
  obtain ⟨h1, h2, h3⟩ := key m.idle m w
  exact ⟨h1, h2, h3, trivial⟩

/-- C05. With nothing registered, or when `select` fails, nothing is called and the loop ends. -/
theorem C05_ends (call : CallFun H σ) (m : Mux H) (w : σ) (sel : Sel)
    (h : (m.maps .read = [] ∧ m.maps .write = []) ∨ sel = .error) :
    cycle call m w sel = (false, m, w, []) := by
  rcases h with ⟨h1, h2⟩ | rfl
  · simp [cycle, h1, h2]
  · simp [cycle]

/-- C05. In every run, from no handlers on, with any registrations before the loop and in handlers, any
results of `select` and any return values: every handler called is the one registered for its descriptor at
that moment, and registered means that a registration succeeded and since then no call of it returned false;
a registration succeeds exactly if no handler is registered for the descriptor, otherwise it changes
nothing. -/
theorem C05_log (call : CallFun H σ) (idle : List H) (before : List (Reg H)) (w : σ) (sels : List Sel) :
    let m0 : Mux H := ⟨fun _ => [], idle⟩
    let m1 := (m0.registerAll before).1
    let log := (m0.registerAll before).2 ++ (loop call m1 w sels).2.2
    LogOk log ∧ (∀ k fd h, replay log k fd = some h ↔ (fd, h) ∈ (loop call m1 w sels).1.maps k) ∧
      ∀ k, Sorted ((loop call m1 w sels).1.maps k) := by
  intro m0 m1 log
  have h0 : Good ([] : List (Ev H)) m0 := by
    refine ⟨?_, ?_, ?_⟩
    · intro b e a h; simp at h
    · intro k fd h; simp [replay, m0]
    · intro k; simp [m0, Sorted]
  have h1 := Good.registerAll before h0
  have h2 := loop_good call sels m1 w _ h1
  rw [List.nil_append] at h2
  exact ⟨h2.ok, h2.agree, h2.sorted⟩

/-- A handler registered for a descriptor that is already taken is refused and nothing changes. -/
theorem C05_second_registration (m : Mux H) (hs : ∀ k, Sorted (m.maps k)) (r : Reg H)
    (h : ∃ g, (r.fd, g) ∈ m.maps r.kind) : (m.register r).2 = false ∧ ∀ k p, p ∈ (m.register r).1.maps k ↔ p ∈ m.maps k := by
  have hi := (insert_ok r.fd r.handler (m.maps r.kind) (hs _)).1
  have hf : (insert r.fd r.handler (m.maps r.kind)).2 = false := by
    by_contra hc
    obtain ⟨g, hg⟩ := h
    exact hi.1 (by simpa using hc) g hg
  refine ⟨hf, ?_⟩
  intro k p
  simp only [Mux.register, Mux.set]
  split
  · rename_i hk; subst hk
    rw [mem_insert, hf]; simp
  · rfl

/-- Non-vacuity: descriptors 3 and 5 ready and 4 not; the handler of 3 registers handlers for 4, 5 and 6
and the handler of 5 returns false. -/
example :
    let call : CallFun Nat Unit := fun h _ =>
      (h ≠ 50, if h = 30 then [⟨.read, 4, 41⟩, ⟨.read, 5, 51⟩, ⟨.read, 6, 60⟩] else [], ())
    let m : Mux Nat := ⟨fun k => if k = .read then [(3, 30), (4, 40), (5, 50)] else [], [99]⟩
    callsOf (cycle call m () (.ready 2 (fun fd => fd = 3 || fd = 5) (fun _ => false))).2.2.2
      = [(.read, 3, 30), (.read, 5, 50)] := by
  intro call m
  have := (C05_ready call m () 2 (fun fd => fd = 3 || fd = 5) (fun _ => false) (by
    intro k; cases k <;> simp [m, Sorted]) ⟨by
      intro fd h
      simp at h
      rcases h with rfl | rfl <;> simp [m], by simp, by simp [m]⟩ (by simp)).1
  simpa [m] using this

end BeagleG.FdMux
