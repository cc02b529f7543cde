import Verif.Life.Model
import Verif.Text.StringProps
import Mathlib.Tactic.ByContra

/-!
# C72: order of the steps of the program, and its rights
-/
namespace BeagleG.Life

open BeagleG.Text (Byte splitString)

/-- Steps that follow input from outside, or come after it. -/
def Ev.late : Ev → Bool
  | .machine _ | .load _ | .file _ | .server | .status | .loop | .shutdown _ | .save _ => true
  | _ => false

/-- The directory after the step that makes it a daemon. -/
def startDir (o : Opts) (a : Answers) (p : Proc) : List Byte := if o.daemon && a.daemonOk then [47] else p.cwd

/-- Everything before the rights are dropped went well. -/
def Ready (o : Opts) (a : Answers) : Prop :=
  o.file.isSome ≠ o.port ∧ a.configOk = true ∧ (o.file = none → a.listenOk = true) ∧
    (o.dryRun = false → a.hardwareOk = true ∧ a.pruOk = true)

/-- The beginning: no step on behalf of anybody, with the rights of the start; then either an exit or the rest. -/
structure Shape (o : Opts) (a : Answers) (p : Proc) (l pre tail : List Entry) : Prop where
  eq : l = pre ++ tail
  early : ∀ e ∈ pre, e.ev.late = false ∧ e.proc.cred = p.cred ∧ (∀ c, e.ev ≠ .exit c) ∧ (∀ u b, e.ev ≠ .setuid u b) ∧
    (∀ u b, e.ev ≠ .setgid u b) ∧ e.ev ≠ .aborted ∧ e.ev ≠ .unmap
  pru : ((∃ e ∈ pre, e.ev = .pru) ↔ Ready o a ∧ o.dryRun = false)
  dry : o.dryRun = true → ∀ e ∈ pre, ∀ b, e.ev ≠ .hardware b
  tail : (Ready o a ∧ ∃ q : Proc, q.cred = p.cred ∧ q.cwd = startDir o a p ∧ tail = rights o a (makeAbsolute p.cwd o.param) q) ∨
    (¬ Ready o a ∧ ∃ (q : Proc) (h : Bool), q.cred = p.cred ∧ (h = true → o.dryRun = false) ∧
      (tail = leave h 1 q ∨ tail = [⟨.aborted, q⟩] ∧ o.dryRun = false))

theorem main_shape (o : Opts) (a : Answers) (p : Proc) : ∃ pre tail, Shape o a p (main o a p) pre tail := by
  by_cases h1 : o.file.isSome = o.port
  · refine ⟨[], leave false 1 p, ?_, by simp, ?_, by simp, .inr ⟨fun h => h.1 h1, p, false, rfl, by simp, .inl rfl⟩⟩
    · simp [main, h1]
    · simp only [List.not_mem_nil, false_and, exists_false, false_iff]
      exact fun h => h.1.1 h1
  by_cases h2 : a.configOk = true
  rotate_left
  · have h2' : a.configOk = false := by simpa using h2
    refine ⟨[], leave false 1 p, ?_, by simp, ?_, by simp, .inr ⟨fun h => h2 h.2.1, p, false, rfl, by simp, .inl rfl⟩⟩
    · simp [main, h1, h2']
    · simp only [List.not_mem_nil, false_and, exists_false, false_iff]
      exact fun h => h2 h.1.2.1
  -- the part from the sockets on
  have key : ∀ q : Proc, q.cred = p.cred → q.cwd = startDir o a p →
      ∃ pre tail, Shape o a p (sockets o a (makeAbsolute p.cwd o.param) q) pre tail := by
    intro q hq hd
    have back : (o.file = none → a.listenOk = true) →
        ∃ pre tail, Shape o a p (backend o a (makeAbsolute p.cwd o.param) q) pre tail := by
      intro hl
      by_cases h3 : o.dryRun = true
      · refine ⟨[⟨.backend (dryBackend o), q⟩], rights o a (makeAbsolute p.cwd o.param) q, ?_, ?_, ?_, ?_,
          .inl ⟨⟨h1, h2, hl, by simp [h3]⟩, q, hq, hd, rfl⟩⟩
        · simp [backend, h3]
        · simp [Ev.late, hq]
        · simp [h3]
        · simp
      · have h3' : o.dryRun = false := by simpa using h3
        by_cases h4 : a.hardwareOk = true
        · by_cases h5 : a.pruOk = true
          · refine ⟨[⟨.hardware true, q⟩, ⟨.pru, q⟩, ⟨.backend .pru, q⟩], rights o a (makeAbsolute p.cwd o.param) q, ?_, ?_, ?_,
              by simp [h3'], .inl ⟨⟨h1, h2, hl, fun _ => ⟨h4, h5⟩⟩, q, hq, hd, rfl⟩⟩
            · simp [backend, h3', h4, h5]
            · simp [Ev.late, hq]
            · simp [h3']
              exact ⟨h1, h2, hl, fun _ => ⟨h4, h5⟩⟩
          · refine ⟨[⟨.hardware true, q⟩], [⟨.aborted, q⟩], ?_, ?_, ?_, by simp [h3'],
              .inr ⟨fun h => h5 (h.2.2.2 h3').2, q, false, hq, by simp, .inr ⟨rfl, h3'⟩⟩⟩
            · have h5' : a.pruOk = false := by simpa using h5
              simp [backend, h3', h4, h5']
            · simp [Ev.late, hq]
            · simp
              exact fun h => absurd (h.2.2.2 h3').2 h5
        · refine ⟨[⟨.hardware false, q⟩], leave a.hardwareHalf 1 q, ?_, ?_, ?_, by simp [h3'],
            .inr ⟨fun h => h4 (h.2.2.2 h3').1, q, a.hardwareHalf, hq, fun _ => h3', .inl rfl⟩⟩
          · have h4' : a.hardwareOk = false := by simpa using h4
            simp [backend, h3', h4']
          · simp [Ev.late, hq]
          · simp
            exact fun h => absurd (h.2.2.2 h3').1 h4
    by_cases h3 : o.file = none
    · by_cases h4 : a.listenOk = true
      · obtain ⟨pre, tail, hs⟩ := back fun _ => h4
        refine ⟨⟨.listen true, q⟩ :: pre, tail, ?_, ?_, ?_, ?_, hs.tail⟩
        · rw [List.cons_append, ← hs.eq]
          simp [sockets, h3, h4]
        · intro e he
          rcases List.mem_cons.1 he with rfl | he
          · simp [Ev.late, hq]
          · exact hs.early e he
        · rw [← hs.pru]
          simp
        · intro hdry e he
          rcases List.mem_cons.1 he with rfl | he
          · simp
          · exact hs.dry hdry e he
      · have h4' : a.listenOk = false := by simpa using h4
        refine ⟨[⟨.listen false, q⟩], leave false 1 q, ?_, ?_, ?_, by simp,
          .inr ⟨fun h => h4 (h.2.2.1 h3), q, false, hq, by simp, .inl rfl⟩⟩
        · simp [sockets, h3, h4']
        · simp [Ev.late, hq]
        · simp
          exact fun h => absurd (h.2.2.1 h3) h4
    · obtain ⟨pre, tail, hs⟩ := back fun h => absurd h h3
      refine ⟨pre, tail, ?_, hs.early, hs.pru, hs.dry, hs.tail⟩
      rw [← hs.eq]
      simp [sockets, h3]
  -- what comes before
  have add : ∀ (x : List Entry) (q : Proc), q.cred = p.cred → q.cwd = startDir o a p →
      (∀ e ∈ x, e.proc.cred = p.cred ∧ (e.ev = .config ∨ e.ev = .spindle ∨ ∃ b, e.ev = .daemon b)) →
      ∃ pre tail, Shape o a p (x ++ sockets o a (makeAbsolute p.cwd o.param) q) pre tail := by
    intro x q hq hd hx
    obtain ⟨pre, tail, hs⟩ := key q hq hd
    refine ⟨x ++ pre, tail, ?_, ?_, ?_, ?_, hs.tail⟩
    · rw [List.append_assoc, ← hs.eq]
    · intro e he
      rcases List.mem_append.1 he with he | he
      · obtain ⟨k1, k2 | k2 | ⟨b, k2⟩⟩ := hx e he <;> rw [k2] <;> simp [Ev.late, k1]
      · exact hs.early e he
    · rw [← hs.pru]
      constructor
      · rintro ⟨e, he, k⟩
        rcases List.mem_append.1 he with he | he
        · obtain ⟨-, k2 | k2 | ⟨b, k2⟩⟩ := hx e he <;> rw [k2] at k <;> cases k
        · exact ⟨e, he, k⟩
      · rintro ⟨e, he, k⟩
        exact ⟨e, List.mem_append_right _ he, k⟩
    · intro hdry e he b
      rcases List.mem_append.1 he with he | he
      · obtain ⟨-, k2 | k2 | ⟨c, k2⟩⟩ := hx e he <;> rw [k2] <;> simp
      · exact hs.dry hdry e he b
  by_cases hdm : o.daemon = true
  · have e : main o a p = ([⟨.config, p⟩] ++ (if a.spindle then [⟨.spindle, p⟩] else []) ++ [⟨.daemon a.daemonOk, p⟩]) ++
        sockets o a (makeAbsolute p.cwd o.param) (if a.daemonOk then p.daemon else p) := by
      simp [main, h1, h2, hdm]
    rw [e]
    refine add _ _ ?_ ?_ ?_
    · split <;> rfl
    · simp only [startDir, hdm, Bool.true_and]
      split <;> rfl
    · intro e he
      simp only [List.mem_append, List.mem_singleton] at he
      rcases he with (rfl | he) | rfl
      · simp
      · split at he
        · simp at he; subst he; simp
        · simp at he
      · simp
  · have hdm' : o.daemon = false := by simpa using hdm
    have e : main o a p = ([⟨.config, p⟩] ++ (if a.spindle then [⟨.spindle, p⟩] else [])) ++
        sockets o a (makeAbsolute p.cwd o.param) p := by
      simp [main, h1, h2, hdm']
    rw [e]
    refine add _ _ rfl (by simp [startDir, hdm']) ?_
    intro e he
    simp only [List.mem_append, List.mem_singleton] at he
    rcases he with rfl | he
    · simp
    · split at he
      · simp at he; subst he; simp
      · simp at he

/-! ### Rights -/

theorem dropUser_spec (a : Answers) (n : List Byte) (p : Proc) :
    ((dropUser a n p).2.2 = true → ∃ u, a.user n = some u ∧ (dropUser a n p).2.1 = p.setuid u) ∧
    (∀ e ∈ (dropUser a n p).1, ∃ u b, e.ev = .setuid u b) ∧
    ((dropUser a n p).2.1.cred.groups = p.cred.groups ∧ (dropUser a n p).2.1.cwd = p.cwd) := by
  unfold dropUser
  cases h : a.user n with
  | none => simp
  | some u =>
    cases h2 : a.setuidOk <;> simp [Proc.setuid]

/-- The rights that were asked for. -/
def Dropped (a : Answers) (privs : List Byte) (c c' : Cred) : Prop :=
  (∃ n u, splitString privs [58] = [n] ∧ a.user n = some u ∧
    c' = { c with ruid := u, euid := u, suid := u }) ∨
  (∃ n g u gid, splitString privs [58] = [n, g] ∧ a.user n = some u ∧ a.group g = some gid ∧
    c' = { c with ruid := u, euid := u, suid := u, rgid := gid, egid := gid, sgid := gid })

theorem dropPrivileges_spec (a : Answers) (privs : List Byte) (p : Proc) :
    ((dropPrivileges a privs p).2.2 = true →
      Dropped a privs p.cred (dropPrivileges a privs p).2.1.cred) ∧
    (∀ e ∈ (dropPrivileges a privs p).1, (∃ u b, e.ev = .setuid u b) ∨ ∃ g b, e.ev = .setgid g b) ∧
    ((dropPrivileges a privs p).2.1.cred.groups = p.cred.groups ∧ (dropPrivileges a privs p).2.1.cwd = p.cwd) := by
  unfold dropPrivileges
  split
  · rename_i u hs
    obtain ⟨h1, h2, h3⟩ := dropUser_spec a u p
    refine ⟨fun h => ?_, fun e he => .inl (h2 e he), h3⟩
    obtain ⟨x, k1, k2⟩ := h1 h
    exact .inl ⟨u, x, hs, k1, by rw [k2]; rfl⟩
  · rename_i u g hs
    cases hg : a.group g with
    | none => simp
    | some gid =>
      cases ho : a.setgidOk with
      | false => simp
      | true =>
        obtain ⟨h1, h2, h3⟩ := dropUser_spec a u (p.setgid gid)
        simp only [if_true]
        refine ⟨fun h => ?_, ?_, h3⟩
        · obtain ⟨x, k1, k2⟩ := h1 h
          exact .inr ⟨u, g, x, gid, hs, k1, hg, by rw [k2]; rfl⟩
        · intro e he
          rcases List.mem_cons.1 he with rfl | he
          · exact .inr ⟨gid, true, rfl⟩
          · exact .inl (h2 e he)
  · simp

theorem dropStep_spec (o : Opts) (a : Answers) (p : Proc) :
    ((dropStep o a p).2.2 = true → p.cred.euid = 0 → o.privs ≠ [] → Dropped a o.privs p.cred (dropStep o a p).2.1.cred) ∧
    (∀ e ∈ (dropStep o a p).1, (∃ u b, e.ev = .setuid u b) ∨ ∃ g b, e.ev = .setgid g b) ∧
    ((dropStep o a p).2.1.cred.groups = p.cred.groups ∧ (dropStep o a p).2.1.cwd = p.cwd) := by
  unfold dropStep
  obtain ⟨h1, h2, h3⟩ := dropPrivileges_spec a o.privs p
  split
  · exact ⟨fun h _ _ => h1 h, h2, h3⟩
  · rename_i hn
    exact ⟨fun _ h k => absurd ⟨h, k⟩ hn, by simp, rfl, rfl⟩

theorem work_proc (o : Opts) (a : Answers) (param : List Byte) (p : Proc) : ∀ e ∈ work o a param p, e.proc = p := by
  intro e he
  unfold work leave at he
  split at he
  · simp only [List.mem_cons, List.mem_append, List.mem_ite_nil_right, List.not_mem_nil, or_false] at he
    rcases he with rfl | ⟨-, rfl⟩ | rfl <;> rfl
  · simp only [List.cons_append, List.nil_append, List.mem_cons, List.mem_append, List.not_mem_nil, or_false, or_assoc] at he
    rcases he with rfl | rfl | he | rfl | rfl | rfl | he | rfl
    all_goals try rfl
    · cases hf : o.file with
      | some f =>
        rw [hf] at he
        simp only [List.mem_cons, List.not_mem_nil, or_false] at he
        rw [he]
      | none =>
        rw [hf] at he
        simp only [List.mem_cons] at he
        rcases he with rfl | he
        · rfl
        · split at he
          · simp only [List.mem_cons, List.not_mem_nil, or_false] at he
            rw [he]
          · simp at he
    · split at he
      · simp only [List.mem_cons, List.not_mem_nil, or_false] at he
        rw [he]
      · simp at he

theorem leave_late (i : Bool) (c : Nat) (p : Proc) : ∀ e ∈ leave i c p, e.ev.late = false := by
  intro e he
  unfold leave at he
  cases i
  · simp at he
    subst he
    rfl
  · simp at he
    rcases he with rfl | rfl <;> rfl

/-- Steps on behalf of others are in `work`, after the rights were dropped. -/
theorem late_work {o : Opts} {a : Answers} {p : Proc} {e : Entry} (he : e ∈ main o a p) (hl : e.ev.late = true) :
    ∃ q : Proc, q.cred = p.cred ∧ q.cwd = startDir o a p ∧ (dropStep o a q).2.2 = true ∧ Ready o a ∧
      e ∈ work o a (makeAbsolute p.cwd o.param) (dropStep o a q).2.1 := by
  obtain ⟨pre, tail, hs⟩ := main_shape o a p
  rw [hs.eq] at he
  rcases List.mem_append.1 he with he | he
  · rw [(hs.early e he).1] at hl
    cases hl
  · rcases hs.tail with ⟨hr, q, h1, h2, rfl⟩ | ⟨-, q, h, -, -, rfl | ⟨rfl, -⟩⟩
    · refine ⟨q, h1, h2, ?_⟩
      unfold rights at he
      dsimp only at he
      rcases List.mem_append.1 he with he | he
      · rcases (dropStep_spec o a q).2.1 e he with ⟨u, b, k⟩ | ⟨u, b, k⟩ <;> rw [k] at hl <;> cases hl
      · cases hb : (dropStep o a q).2.2 with
        | true =>
          rw [hb, if_pos rfl] at he
          exact ⟨rfl, hr, he⟩
        | false =>
          rw [hb, if_neg (by simp)] at he
          rw [leave_late _ _ _ e he] at hl
          cases hl
    · rw [leave_late _ _ _ e he] at hl
      cases hl
    · simp at he
      subst he
      cases hl

/-- C72. Started as root and with a name to change to, the program has the rights of this user, in all three user ids, and of the group if
one is given, at every step that reads or writes anything for others: parameters, G-code, sockets, the loop, the end. -/
theorem C72_rights (o : Opts) (a : Answers) (p : Proc) (hp : p.cred.euid = 0) (ho : o.privs ≠ []) {e : Entry}
    (he : e ∈ main o a p) (hl : e.ev.late = true) : Dropped a o.privs p.cred e.proc.cred := by
  obtain ⟨q, h1, h2, h3, h4, h5⟩ := late_work he hl
  rw [work_proc _ _ _ _ e h5, ← h1]
  exact (dropStep_spec o a q).1 h3 (by rw [h1]; exact hp) ho

/-- C72. So the program cannot become root again, unless the user asked for is root: none of the ids is 0. -/
theorem C72_no_root (o : Opts) (a : Answers) (p : Proc) (hp : p.cred.euid = 0) (ho : o.privs ≠ []) (hu : ∀ n, a.user n ≠ some 0)
    {e : Entry} (he : e ∈ main o a p) (hl : e.ev.late = true) :
    e.proc.cred.ruid ≠ 0 ∧ e.proc.cred.euid ≠ 0 ∧ e.proc.cred.suid ≠ 0 := by
  rcases C72_rights o a p hp ho he hl with ⟨n, u, -, h, k⟩ | ⟨n, g, u, gid, -, h, -, k⟩ <;> rw [k] <;>
    exact ⟨fun h0 => hu n (h.trans (congrArg some h0)), fun h0 => hu n (h.trans (congrArg some h0)),
      fun h0 => hu n (h.trans (congrArg some h0))⟩

/-- C72. If it cannot change to this user, it does none of these steps. -/
theorem C72_refuses (o : Opts) (a : Answers) (p : Proc) (hp : p.cred.euid = 0) (ho : o.privs ≠ [])
    (hf : a.setuidOk = false) {e : Entry} (he : e ∈ main o a p) : e.ev.late = false := by
  by_contra hl
  have hl : e.ev.late = true := by simpa using hl
  obtain ⟨q, h1, h2, h3, -⟩ := late_work he hl
  unfold dropStep at h3
  rw [if_pos ⟨by rw [h1]; exact hp, ho⟩] at h3
  have hx : ∀ n r, (dropUser a n r).2.2 = false := by
    intro n r
    unfold dropUser
    cases a.user n <;> simp [hf]
  unfold dropPrivileges at h3
  split at h3
  · rw [hx] at h3; cases h3
  · split at h3
    · cases h3
    · split at h3
      · simp only [hx] at h3; cases h3
      · cases h3
  · cases h3

/-- C72. What needs the rights is done before: the port for G-code is bound, the hardware mapped and the PRU started with the rights of
the start. -/
theorem C72_before (o : Opts) (a : Answers) (p : Proc) {e : Entry} (he : e ∈ main o a p)
    (hk : (∃ b, e.ev = .listen b) ∨ (∃ b, e.ev = .hardware b) ∨ e.ev = .pru) : e.proc.cred = p.cred := by
  obtain ⟨pre, tail, hs⟩ := main_shape o a p
  rw [hs.eq] at he
  rcases List.mem_append.1 he with he | he
  · exact (hs.early e he).2.1
  · exfalso
    have hleave : ∀ i c q, e ∈ leave i c q → False := by
      intro i c q h
      unfold leave at h
      cases i
      · simp at h
        subst h
        simp at hk
      · simp at h
        rcases h with rfl | rfl <;> simp at hk
    rcases hs.tail with ⟨hr, q, h1, h2, rfl⟩ | ⟨-, q, h, -, -, rfl | ⟨rfl, -⟩⟩
    · unfold rights at he
      dsimp only at he
      rcases List.mem_append.1 he with he | he
      · rcases (dropStep_spec o a q).2.1 e he with ⟨u, b, k⟩ | ⟨u, b, k⟩ <;> rw [k] at hk <;> simp at hk
      · split at he
        · have := he
          unfold work at this
          split at this
          · rcases List.mem_cons.1 this with rfl | this
            · simp at hk
            · exact hleave _ _ _ this
          · rcases List.mem_append.1 this with this | this
            · have hle : e.ev.late = true := by
                simp only [List.cons_append, List.nil_append, List.mem_cons, List.mem_append, List.not_mem_nil, or_false] at this
                rcases this with rfl | rfl | this | rfl | rfl | rfl <;> try rfl
                cases hf : o.file with
                | some f => rw [hf] at this; simp at this; rw [this]; rfl
                | none =>
                  rw [hf] at this
                  simp only [List.mem_cons] at this
                  rcases this with rfl | this
                  · rfl
                  · split at this
                    · simp at this; rw [this]; rfl
                    · simp at this
              rcases hk with ⟨b, k⟩ | ⟨b, k⟩ | k <;> rw [k] at hle <;> cases hle
            · exact hleave _ _ _ this
        · exact hleave _ _ _ he
    · exact hleave _ _ _ he
    · simp at he
      subst he
      simp at hk

/-- C72, not as hoped for: without a group in the option the group ids stay those of the start, and supplementary groups are never given
up. -/
theorem C72_groups_kept (o : Opts) (a : Answers) (p : Proc) {e : Entry} (he : e ∈ main o a p) (hl : e.ev.late = true) :
    e.proc.cred.groups = p.cred.groups ∧
    (∀ n, splitString o.privs [58] = [n] → e.proc.cred.rgid = p.cred.rgid ∧ e.proc.cred.egid = p.cred.egid ∧
      e.proc.cred.sgid = p.cred.sgid) := by
  obtain ⟨q, h1, h2, h3, h4, h5⟩ := late_work he hl
  rw [work_proc _ _ _ _ e h5]
  refine ⟨by rw [((dropStep_spec o a q).2.2).1, h1], fun n hn => ?_⟩
  by_cases hr : q.cred.euid = 0 ∧ o.privs ≠ []
  · rcases (dropStep_spec o a q).1 h3 hr.1 hr.2 with ⟨m, u, -, -, k⟩ | ⟨m, g, u, gid, hs, -⟩
    · rw [k, ← h1]
      exact ⟨rfl, rfl, rfl⟩
    · rw [hn] at hs
      simp at hs
  · have : (dropStep o a q).2.1 = q := by unfold dropStep; rw [if_neg hr]
    rw [this, h1]
    exact ⟨rfl, rfl, rfl⟩

/-! ### End -/

/-- C72. The program that serves anybody: after the loop the queue is shut down once, executing what is left exactly if the end is a
regular one, then the parameters are saved, the hardware reset and unmapped, and the exit code tells which. -/
theorem C72_end (o : Opts) (a : Answers) (p : Proc) {e : Entry} (he : e ∈ main o a p) (hl : e.ev = .loop) :
    ∃ pre : List Entry, main o a p = pre ++
      [⟨.loop, e.proc⟩, ⟨.shutdown a.cleanExit, e.proc⟩, ⟨.save (makeAbsolute p.cwd o.param), e.proc⟩] ++
      leave (!o.dryRun) (if a.cleanExit then 0 else 1) e.proc ∧
      ∀ x ∈ pre, x.ev ≠ .loop ∧ (∀ b, x.ev ≠ .shutdown b) ∧ (∀ q, x.ev ≠ .save q) ∧ (∀ c, x.ev ≠ .exit c) ∧ x.ev ≠ .unmap := by
  have hlate : e.ev.late = true := by rw [hl]; rfl
  obtain ⟨q0, _, _, _, _, hw0⟩ := late_work he hlate
  obtain ⟨pre, tail, hs⟩ := main_shape o a p
  have hne : e ∉ pre := fun h => by rw [(hs.early e h).1] at hlate; cases hlate
  have het : e ∈ tail := by
    rw [hs.eq] at he
    exact (List.mem_append.1 he).resolve_left hne
  rcases hs.tail with ⟨hr, q, h1, h2, ht⟩ | ⟨-, q, h, -, -, ht | ⟨ht, -⟩⟩
  · have hb : (dropStep o a q).2.2 = true := by
      by_contra hb
      have hb : (dropStep o a q).2.2 = false := by simpa using hb
      rw [ht] at het
      unfold rights at het
      simp only [hb] at het
      rcases List.mem_append.1 het with k | k
      · rcases (dropStep_spec o a q).2.1 e k with ⟨u, b, k⟩ | ⟨u, b, k⟩ <;> rw [k] at hl <;> cases hl
      · rw [if_neg (by simp)] at k
        rw [leave_late _ _ _ e k] at hlate
        cases hlate
    have hew : e ∈ work o a (makeAbsolute p.cwd o.param) (dropStep o a q).2.1 := by
      rw [ht] at het
      unfold rights at het
      simp only [hb, if_true] at het
      rcases List.mem_append.1 het with k | k
      · rcases (dropStep_spec o a q).2.1 e k with ⟨u, b, k⟩ | ⟨u, b, k⟩ <;> rw [k] at hl <;> cases hl
      · exact k
    have hpr := work_proc _ _ _ _ e hew
    have hm : a.machineOk = true := by
      by_contra hm
      have hm : a.machineOk = false := by simpa using hm
      unfold work at hew
      simp only [hm, Bool.not_false, if_true] at hew
      rcases List.mem_cons.1 hew with k | k
      · rw [k] at hl; cases hl
      · rw [leave_late _ _ _ e k] at hlate
        cases hlate
    refine ⟨pre ++ (dropStep o a q).1 ++ [⟨.machine true, e.proc⟩, ⟨.load (makeAbsolute p.cwd o.param), e.proc⟩] ++
      (match o.file with
       | some f => [⟨.file (resolve e.proc.cwd f), e.proc⟩]
       | none => [⟨.server, e.proc⟩] ++ (if o.statusPort then [⟨.status, e.proc⟩] else [])), ?_, ?_⟩
    · rw [hs.eq, ht, hpr]
      unfold rights work
      simp only [hb, hm, if_true, Bool.not_true, Bool.false_eq_true, if_false, List.append_assoc]
      cases o.file <;> rfl
    · intro x hx
      simp only [List.append_assoc, List.mem_append] at hx
      rcases hx with hx | hx | hx | hx
      · obtain ⟨k1, k2, k3, k4, k5, k6, k7⟩ := hs.early x hx
        exact ⟨fun h => (by rw [h] at k1; cases k1), fun b h => (by rw [h] at k1; cases k1), fun b h => (by rw [h] at k1; cases k1), k3, k7⟩
      · rcases (dropStep_spec o a q).2.1 x hx with ⟨u, b, k⟩ | ⟨u, b, k⟩ <;> rw [k] <;> simp
      · simp only [List.mem_cons, List.not_mem_nil, or_false] at hx
        rcases hx with rfl | rfl <;> simp
      · cases hf : o.file with
        | some f => rw [hf] at hx; simp at hx; rw [hx]; simp
        | none =>
          rw [hf] at hx
          simp only [List.mem_append, List.mem_cons, List.not_mem_nil, or_false] at hx
          rcases hx with rfl | hx
          · simp
          · split at hx
            · simp at hx; rw [hx]; simp
            · simp at hx
  · rw [ht] at het
    rw [leave_late _ _ _ e het] at hlate
    cases hlate
  · rw [ht] at het
    simp at het
    rw [het] at hl
    cases hl

/-- C72. No G-code is read unless the configuration was read, the port bound, the hardware mapped with the PRU running (or it is a dry
run), and the machine control created. -/
theorem C72_gcode_needs (o : Opts) (a : Answers) (p : Proc) {e : Entry} (he : e ∈ main o a p)
    (hk : e.ev = .server ∨ ∃ f, e.ev = .file f) : Ready o a ∧ a.machineOk = true := by
  have hl : e.ev.late = true := by rcases hk with k | ⟨f, k⟩ <;> rw [k] <;> rfl
  obtain ⟨q, h1, h2, h3, h4, h5⟩ := late_work he hl
  refine ⟨h4, ?_⟩
  by_contra hm
  have hm : a.machineOk = false := by simpa using hm
  unfold work at h5
  simp only [hm, Bool.not_false, if_true] at h5
  rcases List.mem_cons.1 h5 with k | k
  · rw [k] at hk; simp at hk
  · rw [leave_late _ _ _ e k] at hl
    cases hl

/-- C72. A run that is ready, keeps its rights or drops them, and creates the machine control, comes to the loop. -/
theorem C72_reaches_loop (o : Opts) (a : Answers) (p : Proc) (hr : Ready o a) (hm : a.machineOk = true)
    (hd : ∀ q, q.cred = p.cred → (dropStep o a q).2.2 = true) : ∃ e ∈ main o a p, e.ev = .loop := by
  obtain ⟨pre, tail, hs⟩ := main_shape o a p
  rcases hs.tail with ⟨-, q, h1, h2, ht⟩ | ⟨hn, -⟩
  · refine ⟨⟨.loop, (dropStep o a q).2.1⟩, ?_, rfl⟩
    rw [hs.eq, ht]
    unfold rights work
    simp only [hd q h1, hm, if_true, Bool.not_true, Bool.false_eq_true, if_false]
    simp
  · exact absurd hr hn

/-- C72. The PRU runs exactly if everything up to there went well and it is not a dry run. -/
theorem C72_pru (o : Opts) (a : Answers) (p : Proc) :
    (∃ e ∈ main o a p, e.ev = .pru) ↔ Ready o a ∧ o.dryRun = false := by
  obtain ⟨pre, tail, hs⟩ := main_shape o a p
  rw [← hs.pru]
  constructor
  · rintro ⟨e, he, k⟩
    refine ⟨e, ?_, k⟩
    rw [hs.eq] at he
    rcases List.mem_append.1 he with he | he
    · exact he
    · exfalso
      have := C72_before o a p (e := e) (by rw [hs.eq]; exact List.mem_append_right _ he) (.inr (.inr k))
      have hleave : ∀ i c q, e ∈ leave i c q → False := by
        intro i c q h
        unfold leave at h
        cases i
        · simp at h
          subst h
          simp at k
        · simp at h
          rcases h with rfl | rfl <;> simp at k
      rcases hs.tail with ⟨hr, q, h1, h2, rfl⟩ | ⟨-, q, h, -, -, rfl | ⟨rfl, -⟩⟩
      · unfold rights at he
        dsimp only at he
        rcases List.mem_append.1 he with he | he
        · rcases (dropStep_spec o a q).2.1 e he with ⟨u, b, k'⟩ | ⟨u, b, k'⟩ <;> rw [k'] at k <;> cases k
        · split at he
          · unfold work at he
            split at he
            · rcases List.mem_cons.1 he with rfl | he
              · simp at k
              · exact hleave _ _ _ he
            · rcases List.mem_append.1 he with he | he
              · simp only [List.cons_append, List.nil_append, List.mem_cons, List.mem_append, List.not_mem_nil, or_false] at he
                rcases he with rfl | rfl | he | rfl | rfl | rfl <;> try cases k
                cases hf : o.file with
                | some f => rw [hf] at he; simp at he; rw [he] at k; cases k
                | none =>
                  rw [hf] at he
                  simp only [List.mem_cons] at he
                  rcases he with rfl | he
                  · cases k
                  · split at he
                    · simp at he; rw [he] at k; cases k
                    · simp at he
              · exact hleave _ _ _ he
          · exact hleave _ _ _ he
      · exact hleave _ _ _ he
      · simp at he
        subst he
        cases k
  · rintro ⟨e, he, k⟩
    exact ⟨e, by rw [hs.eq]; exact List.mem_append_left _ he, k⟩

/-! ### Files -/

/-- C72. `--param` names the same file at the start and at the end, as daemon too. -/
theorem C72_param (o : Opts) (a : Answers) (p : Proc) {e : Entry} (he : e ∈ main o a p) {f : List Byte}
    (hk : e.ev = .load f ∨ e.ev = .save f) (hcwd : p.cwd.head? = some 47) :
    f = resolve p.cwd o.param ∧ ∀ dir, resolve dir f = f := by
  have hl : e.ev.late = true := by rcases hk with k | k <;> rw [k] <;> rfl
  have hf : f = makeAbsolute p.cwd o.param := by
    obtain ⟨q, h1, h2, h3, h4, h5⟩ := late_work he hl
    unfold work leave at h5
    split at h5
    · simp only [List.mem_cons, List.mem_append, List.mem_ite_nil_right, List.not_mem_nil, or_false] at h5
      rcases h5 with rfl | ⟨-, rfl⟩ | rfl <;> simp at hk
    · simp only [List.cons_append, List.nil_append, List.mem_cons, List.mem_append, List.not_mem_nil, or_false, or_assoc] at h5
      rcases h5 with rfl | rfl | h5 | rfl | rfl | rfl | h5 | rfl <;> try simp at hk
      · exact hk.symm
      · cases hf : o.file with
        | some g => rw [hf] at h5; simp at h5; rw [h5] at hk; simp at hk
        | none =>
          rw [hf] at h5
          simp only [List.mem_cons] at h5
          rcases h5 with rfl | h5
          · simp at hk
          · split at h5
            · simp at h5; rw [h5] at hk; simp at hk
            · simp at h5
      · exact hk.symm
      · split at h5
        · simp at h5; rw [h5] at hk; simp at hk
        · simp at h5
  subst hf
  refine ⟨rfl, fun dir => ?_⟩
  cases hp : o.param with
  | nil => rfl
  | cons c r =>
    by_cases hc : c = 47
    · simp [makeAbsolute, resolve, hc]
    · cases hw : p.cwd with
      | nil => rw [hw] at hcwd; simp at hcwd
      | cons d s =>
        rw [hw] at hcwd
        simp at hcwd
        simp [makeAbsolute, resolve, hc, hcwd]

/-- C72. The G-code file is looked up in the directory the program was started in, unless it became a daemon. -/
theorem C72_file_partial (o : Opts) (a : Answers) (p : Proc) {e : Entry} (he : e ∈ main o a p) {f : List Byte}
    (hk : e.ev = .file f) : ∃ g, o.file = some g ∧ f = resolve (startDir o a p) g := by
  have hl : e.ev.late = true := by rw [hk]; rfl
  obtain ⟨q, h1, h2, h3, h4, h5⟩ := late_work he hl
  have hcwd : (dropStep o a q).2.1.cwd = startDir o a p := by rw [((dropStep_spec o a q).2.2).2, h2]
  unfold work leave at h5
  split at h5
  · simp only [List.mem_cons, List.mem_append, List.mem_ite_nil_right, List.not_mem_nil, or_false] at h5
    rcases h5 with rfl | ⟨-, rfl⟩ | rfl <;> simp at hk
  · simp only [List.cons_append, List.nil_append, List.mem_cons, List.mem_append, List.not_mem_nil, or_false, or_assoc] at h5
    rcases h5 with rfl | rfl | h5 | rfl | rfl | rfl | h5 | rfl <;> try simp at hk
    · cases hf : o.file with
      | some g =>
        rw [hf] at h5
        simp at h5
        rw [h5] at hk
        simp at hk
        exact ⟨g, rfl, by rw [← hk, hcwd]⟩
      | none =>
        rw [hf] at h5
        simp only [List.mem_cons] at h5
        rcases h5 with rfl | h5
        · simp at hk
        · split at h5
          · simp at h5; rw [h5] at hk; simp at hk
          · simp at h5
    · split at h5
      · simp at h5; rw [h5] at hk; simp at hk
      · simp at h5

/-! ### What is left behind -/

/-- An exit leaves neither mapping nor PRU. -/
theorem leave_mem (i : Bool) (c : Nat) (p : Proc) : ∀ e ∈ leave i c p, e.ev = .unmap ∨ e.ev = .exit c := by
  intro e he
  unfold leave at he
  cases i
  · simp at he
    subst he
    exact .inr rfl
  · simp at he
    rcases he with rfl | rfl
    · exact .inl rfl
    · exact .inr rfl

/-- C72. Once the PRU runs, every way out of `main` ends with the destructor of the hardware mapping, then the exit. -/
theorem C72_unmapped (o : Opts) (a : Answers) (p : Proc) (h : ∃ e ∈ main o a p, e.ev = .pru) :
    ∃ (pre : List Entry) (c : Nat) (q : Proc), main o a p = pre ++ [⟨.unmap, q⟩, ⟨.exit c, q⟩] := by
  have hr := (C72_pru o a p).1 h
  obtain ⟨pre, tail, hs⟩ := main_shape o a p
  rcases hs.tail with ⟨-, q, h1, h2, ht⟩ | ⟨hn, -⟩
  · rw [hs.eq, ht]
    unfold rights work leave
    simp only [hr.2, Bool.not_false, if_true]
    cases (dropStep o a q).2.2
    · exact ⟨pre ++ (dropStep o a q).1, 1, (dropStep o a q).2.1, by simp⟩
    · cases a.machineOk
      · exact ⟨pre ++ (dropStep o a q).1 ++ [⟨.machine false, (dropStep o a q).2.1⟩], 1, (dropStep o a q).2.1, by simp⟩
      · refine ⟨pre ++ (dropStep o a q).1 ++
          [⟨.machine true, (dropStep o a q).2.1⟩, ⟨.load (makeAbsolute p.cwd o.param), (dropStep o a q).2.1⟩] ++
          (match o.file with
           | some f => [⟨.file (resolve (dropStep o a q).2.1.cwd f), (dropStep o a q).2.1⟩]
           | none => [⟨.server, (dropStep o a q).2.1⟩] ++ (if o.statusPort then [⟨.status, (dropStep o a q).2.1⟩] else [])) ++
          [⟨.loop, (dropStep o a q).2.1⟩, ⟨.shutdown a.cleanExit, (dropStep o a q).2.1⟩,
            ⟨.save (makeAbsolute p.cwd o.param), (dropStep o a q).2.1⟩],
          if a.cleanExit then 0 else 1, (dropStep o a q).2.1, ?_⟩
        simp only [if_true, Bool.not_true, Bool.false_eq_true, if_false, List.append_assoc]
        cases o.file <;> rfl
  · exact absurd hr.1 hn

/-- C72. In a dry run the hardware is neither mapped nor unmapped, and no PRU started. -/
theorem C72_dry (o : Opts) (a : Answers) (p : Proc) (hd : o.dryRun = true) {e : Entry} (he : e ∈ main o a p) :
    (∀ b, e.ev ≠ .hardware b) ∧ e.ev ≠ .pru ∧ e.ev ≠ .unmap ∧ e.ev ≠ .aborted := by
  obtain ⟨pre, tail, hs⟩ := main_shape o a p
  have hp : e.ev ≠ .pru := fun h => by
    have := ((C72_pru o a p).1 ⟨e, he, h⟩).2
    rw [hd] at this
    cases this
  rw [hs.eq] at he
  rcases List.mem_append.1 he with he | he
  · obtain ⟨k1, k2, k3, k4, k5, k6, k7⟩ := hs.early e he
    exact ⟨hs.dry hd e he, hp, k7, k6⟩
  · have hleave : ∀ c q, e ∈ leave false c q → (∀ b, e.ev ≠ .hardware b) ∧ e.ev ≠ .pru ∧ e.ev ≠ .unmap ∧ e.ev ≠ .aborted := by
      intro c q h
      unfold leave at h
      simp at h
      subst h
      simp
    rcases hs.tail with ⟨hr, q, h1, h2, rfl⟩ | ⟨hn, q, h, -, hh, ht⟩
    · unfold rights at he
      simp only [hd, Bool.not_true] at he
      rcases List.mem_append.1 he with he | he
      · rcases (dropStep_spec o a q).2.1 e he with ⟨u, b, k⟩ | ⟨u, b, k⟩ <;> rw [k] <;> simp
      · split at he
        · unfold work at he
          simp only [hd, Bool.not_true] at he
          split at he
          · rcases List.mem_cons.1 he with rfl | he
            · simp
            · exact hleave _ _ he
          · rcases List.mem_append.1 he with he | he
            · simp only [List.cons_append, List.nil_append, List.mem_cons, List.mem_append, List.not_mem_nil, or_false] at he
              rcases he with rfl | rfl | he | rfl | rfl | rfl <;> try simp
              cases hf : o.file with
              | some f => rw [hf] at he; simp at he; rw [he]; simp
              | none =>
                rw [hf] at he
                simp only [List.mem_cons] at he
                rcases he with rfl | he
                · simp
                · split at he
                  · simp at he; rw [he]; simp
                  · simp at he
            · exact hleave _ _ he
        · exact hleave _ _ he
    · have hf : h = false := by
        cases h with
        | false => rfl
        | true => rw [hh rfl] at hd; cases hd
      subst hf
      rcases ht with rfl | ⟨-, hx⟩
      · exact hleave _ _ he
      · rw [hx] at hd
        cases hd

/-- Everything goes well; user ids and group ids are 1000. -/
def fine : Answers where
  configOk := true
  spindle := false
  daemonOk := true
  listenOk := true
  hardwareOk := true
  hardwareHalf := false
  pruOk := true
  group := fun _ => some 1000
  user := fun _ => some 1000
  setgidOk := true
  setuidOk := true
  machineOk := true
  cleanExit := true

/-- A file, rights of user `d`. -/
def print : Opts where
  file := some [97]
  port := false
  statusPort := false
  dryRun := false
  simulation := false
  wav := false
  daemon := false
  privs := [100]
  param := [112]

/-- Root in `/r`. -/
def root : Proc := ⟨⟨0, 0, 0, 0, 0, 0, [0]⟩, [47, 114]⟩

theorem splitD : splitString [100] [58] = [[100]] := by decide

/-- C72, not as hoped for: when the rights cannot be dropped, or the machine control is not created, the PRU has been started and is not
stopped. -/
theorem C72_pru_left_running :
    (∃ e ∈ main print { fine with setuidOk := false } root, e.ev = .pru) ∧
    (∀ e ∈ main print { fine with setuidOk := false } root, ∀ b, e.ev ≠ .shutdown b) ∧
    (∃ e ∈ main print { fine with machineOk := false } root, e.ev = .pru) ∧
    (∀ e ∈ main print { fine with machineOk := false } root, ∀ b, e.ev ≠ .shutdown b) := by
  simp [main, sockets, backend, rights, dropStep, dropPrivileges, dropUser, work, leave, print, fine, root, splitD, Proc.setuid]

/-- C72, not as hoped for: as daemon the file to print is looked up in `/`, not where the program was started. -/
theorem C72_daemon_file : (∃ e ∈ main { print with daemon := true } fine root, e.ev = .file (resolve [47] [97])) ∧
    (∀ e ∈ main { print with daemon := true } fine root, e.ev ≠ .file (resolve root.cwd [97])) := by
  simp [main, sockets, backend, rights, dropStep, dropPrivileges, dropUser, work, leave, print, fine, root, splitD, Proc.setuid,
    Proc.daemon, resolve]

/-- C72, not as hoped for: with `--priv` of a user only, the program prints with the group ids of root. -/
theorem C72_group_root : ∃ e ∈ main print fine root, e.ev = .loop ∧ e.proc.cred.euid = 1000 ∧ e.proc.cred.egid = 0 := by
  simp [main, sockets, backend, rights, dropStep, dropPrivileges, dropUser, work, leave, print, fine, root, splitD, Proc.setuid]

end BeagleG.Life
