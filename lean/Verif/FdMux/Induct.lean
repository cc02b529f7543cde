import Verif.FdMux.Props
/-!
# Invariants of the multiplexer's loop
-/
namespace BeagleG.FdMux
variable {H σ : Type}

/-- Multiplexer and world after the handler of a descriptor was called. -/
def after (call : CallFun H σ) (k : Kind) (fd : Nat) (h : H) (m : Mux H) (w : σ) : Mux H × σ :=
  let m1 := (m.registerAll (call h w).2.1).1
  (if (call h w).1 then m1 else m1.set k (erase fd (m1.maps k)), (call h w).2.2)

/-- Multiplexer and world after an idle handler was called. -/
def afterIdle (call : CallFun H σ) (h : H) (m : Mux H) (w : σ) : Mux H × σ :=
  ((m.registerAll (call h w).2.1).1, (call h w).2.2)

/-- What holds of the position of the iterator, the multiplexer and the world, if every call keeps it. -/
theorem callHandlers_induct (call : CallFun H σ) (k : Kind) (set : Nat → Bool) (P : Nat → Mux H → σ → Prop)
    (hstep : ∀ pos m w fd h, P pos m w → (fd, h) ∈ m.maps k → pos ≤ fd → set fd = true →
      P (fd + 1) (after call k fd h m w).1 (after call k fd h m w).2)
    (hskip : ∀ pos pos' m w, pos ≤ pos' → P pos m w → P pos' m w)
    (avail : Nat) (m : Mux H) (pos : Nat) (w : σ) (h0 : P pos m w) :
    ∃ pos', P pos' (callHandlers call k set avail m pos w).2.1 (callHandlers call k set avail m pos w).2.2.1 := by
  fun_induction callHandlers call k set avail m pos w with
  | case1 => exact ⟨_, h0⟩
  | case2 => exact ⟨_, h0⟩
  | case3 avail m pos w hav fd hd hh hs keep m1 regLog heq m2 r ih =>
    refine ih ?_
    have := hstep pos m w fd hd h0 (head_from hh).1 (head_from hh).2 hs
    simp only [after, heq] at this
    exact this
  | case4 avail m pos w hav fd hd hh hs ih =>
    exact ih (hskip _ _ _ _ (by have := (head_from hh).2; simp only at this; omega) h0)

theorem callIdle_induct (call : CallFun H σ) (P : Mux H → σ → Prop) : ∀ (hs : List H)
    (_ : ∀ m w h, P m w → h ∈ hs → P (afterIdle call h m w).1 (afterIdle call h m w).2) (m : Mux H) (w : σ), P m w →
    P (callIdle call hs m w).2.1 (callIdle call hs m w).2.2.1
  | [], _, m, w, h0 => h0
  | h :: hs, hstep, m, w, h0 => by
    simp only [callIdle]
    exact callIdle_induct call P hs (fun m w g hp hg => hstep m w g hp (List.mem_cons_of_mem _ hg)) _ _
      (hstep m w h h0 List.mem_cons_self)

theorem callIdle_sub (call : CallFun H σ) : ∀ (hs : List H) (m : Mux H) (w : σ), ∀ h ∈ (callIdle call hs m w).1, h ∈ hs
  | [], m, w, h, hh => hh
  | g :: hs, m, w, h, hh => by
    simp only [callIdle] at hh
    split at hh
    · rcases List.mem_cons.1 hh with e | e
      · simp [e]
      · exact List.mem_cons_of_mem _ (callIdle_sub call hs _ _ h e)
    · exact List.mem_cons_of_mem _ (callIdle_sub call hs _ _ h hh)

/-- An invariant kept by every call of a handler is kept by a cycle. -/
theorem cycle_induct (call : CallFun H σ) (P : Mux H → σ → Prop)
    (hstep : ∀ k m w fd h, P m w → (fd, h) ∈ m.maps k → P (after call k fd h m w).1 (after call k fd h m w).2)
    (hidle : ∀ m w l, P m w → (∀ h ∈ l, h ∈ m.idle) → P { (callIdle call l m w).2.1 with idle := (callIdle call l m w).1 } (callIdle call l m w).2.2.1)
    (m : Mux H) (w : σ) (sel : Sel) (h0 : P m w) : P (cycle call m w sel).2.1 (cycle call m w sel).2.2.1 := by
  unfold cycle
  split
  · exact h0
  cases sel with
  | error => exact h0
  | ready n rd wr =>
    simp only
    split
    · exact hidle m w m.idle h0 fun h hh => hh
    · obtain ⟨_, h1⟩ := callHandlers_induct call .read rd (fun _ => P) (fun _ m w fd h hp hm _ _ => hstep _ m w fd h hp hm)
        (fun _ _ _ _ _ h => h) n m 0 w h0
      obtain ⟨_, h2⟩ := callHandlers_induct call .write wr (fun _ => P) (fun _ m w fd h hp hm _ _ => hstep _ m w fd h hp hm)
        (fun _ _ _ _ _ h => h) (callHandlers call .read rd n m 0 w).1 _ 0 _ h1
      exact h2

theorem loop_induct (call : CallFun H σ) (P : Mux H → σ → Prop)
    (hcycle : ∀ m w sel, P m w → P (cycle call m w sel).2.1 (cycle call m w sel).2.2.1) :
    ∀ (sels : List Sel) (m : Mux H) (w : σ), P m w → P (loop call m w sels).1 (loop call m w sels).2.1
  | [], _, _, h0 => h0
  | sel :: sels, m, w, h0 => by
    unfold loop
    simp only
    split
    · exact loop_induct call P hcycle sels _ _ (hcycle m w sel h0)
    · exact hcycle m w sel h0

/-- The map after a registration for a descriptor that is not registered. -/
theorem mem_registerAll_one (m : Mux H) (fd : Nat) (h : H) (hs : Sorted (m.maps .read)) (hn : ∀ g, (fd, g) ∉ m.maps .read)
    (p : Nat × H) : p ∈ (m.registerAll [⟨.read, fd, h⟩]).1.maps .read ↔ p ∈ m.maps .read ∨ p = (fd, h) := by
  have hi : (insert fd h (m.maps .read)).2 = true := (insert_ok fd h (m.maps .read) hs).1.2 hn
  simp [Mux.registerAll, Mux.register, Mux.set, mem_insert, hi]

theorem sorted_registerAll_one (m : Mux H) (fd : Nat) (h : H) (hs : Sorted (m.maps .read)) :
    Sorted ((m.registerAll [⟨.read, fd, h⟩]).1.maps .read) := by
  simpa [Mux.registerAll, Mux.register, Mux.set] using (insert_ok fd h (m.maps .read) hs).2

theorem write_registerAll_one (m : Mux H) (fd : Nat) (h : H) :
    (m.registerAll [⟨.read, fd, h⟩]).1.maps .write = m.maps .write := by
  simp [Mux.registerAll, Mux.register, Mux.set]

end BeagleG.FdMux
