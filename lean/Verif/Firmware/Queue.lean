import Verif.Firmware.Segment
import Verif.EndToEnd.Layout
/-!
# The queue

`INIT`, `QUEUE_READ` up to the first pass of a segment, and what follows its last pass.
-/
namespace BeagleG.Firmware
open Instr Line Lbl
open StepGen (Motor sub32 Regs MotionSegment)

variable {env : Env} {c : Cape} {prog : List (Instr Nat)}

/-! ### Registers after a load -/

theorem putBytes_out (r : Nat → Nat) (a n : Nat) (b : Nat → Nat) (k : Nat) (h : 4 * k + 4 ≤ a ∨ a + n ≤ 4 * k) :
    putBytes r a n b k = r k := by
  unfold putBytes
  rw [if_pos h]

theorem putBytes_in (r : Nat → Nat) (a n : Nat) (b : Nat → Nat) (k : Nat) (h1 : a ≤ 4 * k) (h2 : 4 * k + 4 ≤ a + n) :
    putBytes r a n b k = word fun i => b (4 * k + i - a) := by
  unfold putBytes word
  rw [if_neg (by omega)]
  simp only
  rw [if_pos (by omega), if_pos (by omega), if_pos (by omega), if_pos (by omega)]

theorem putBytes_header (r : Nat → Nat) (b : Nat → Nat) :
    get (putBytes r (Fld.byte hState) headerSize b) hState = b 0 % 256 ∧
    get (putBytes r (Fld.byte hState) headerSize b) hDir = b 1 % 256 := by
  have h : putBytes r (Fld.byte hState) headerSize b 1 = b 0 % 256 + b 1 % 256 * 256 + byteOf r 6 * 256 ^ 2 + byteOf r 7 * 256 ^ 3 := by
    unfold putBytes Fld.byte headerSize
    rw [if_neg (by decide)]
    simp
  have h6 : byteOf r 6 < 256 := Nat.mod_lt _ (by decide)
  have h7 : byteOf r 7 < 256 := Nat.mod_lt _ (by decide)
  constructor
  · simp only [get, h]
    omega
  · simp only [get, h]
    omega

/-- The segment that the firmware finds: the second byte of the header and the 52 bytes of the parameters. -/
def segmentAt (env : Env) (n n' : Nat) : MotionSegment := EndToEnd.firmwareLoad (env.ans n 1 % 256 :: answer env n' paramSize)

/-- The parameters are in their registers. -/
structure Loaded (r : Nat → Nat) (s : MotionSegment) : Prop where
  la : get r pLoopsAccel = s.loopsAccel
  lt : get r pLoopsTravel = s.loopsTravel
  ld : get r pLoopsDecel = s.loopsDecel
  aux : get r pAux = s.aux
  idx : get r pIndex = s.accelSeriesIndex
  cyc : get r pCycles = s.hiresAccelCycles
  del : get r pTravelDelay = s.travelDelayCycles
  fr : ∀ i, get r (pFraction i) = s.fractions i

theorem value2 (b : Nat → Nat) (i j : Nat) : EndToEnd.value [b i % 256, b j % 256] = b i % 256 + b j % 256 * 256 := by
  simp only [EndToEnd.value]
  omega

theorem get_word_low (r b : Nat → Nat) (a : Nat) (h : r a = word b) : get r ⟨a, 0, 2⟩ = b 0 % 256 + b 1 % 256 * 256 := by
  simp only [get, h, word]
  omega

theorem get_word_high (r b : Nat → Nat) (a : Nat) (h : r a = word b) : get r ⟨a, 2, 2⟩ = b 2 % 256 + b 3 % 256 * 256 := by
  simp only [get, h, word]
  omega

theorem get_word (r b : Nat → Nat) (a : Nat) (h : r a = word b) : get r ⟨a, 0, 4⟩ = word b := by
  rw [get_full, h, Nat.mod_eq_of_lt (word_lt b)]

theorem value4 (a b c d : Nat) : EndToEnd.value [a, b, c, d] = a + b * 256 + c * 256 ^ 2 + d * 256 ^ 3 := by
  simp only [EndToEnd.value]
  omega

theorem loaded (r : Nat → Nat) (n n' : Nat) :
    Loaded (putBytes r (Fld.byte pLoopsAccel) paramSize (env.ans n')) (segmentAt env n n') := by
  have hw : ∀ j < 13, putBytes r (Fld.byte pLoopsAccel) paramSize (env.ans n') (7 + j) = word fun i => env.ans n' (4 * j + i) := by
    intro j hj
    rw [putBytes_in _ _ _ _ _ (by simp only [Fld.byte]; omega) (by simp only [Fld.byte, paramSize]; omega)]
    congr 1
    funext i
    congr 1
    simp only [Fld.byte]
    omega
  have v2 : ∀ a b : Nat, EndToEnd.value [a, b] = a + b * 256 := fun a b => by simp only [EndToEnd.value]; omega
  constructor
  · exact (get_word_low _ _ 7 (hw 0 (by decide))).trans (v2 _ _).symm
  · exact (get_word_high _ _ 7 (hw 0 (by decide))).trans (v2 _ _).symm
  · exact (get_word_low _ _ 8 (hw 1 (by decide))).trans (v2 _ _).symm
  · exact (get_word_high _ _ 8 (hw 1 (by decide))).trans (v2 _ _).symm
  · exact (get_word _ _ 9 (hw 2 (by decide))).trans (value4 _ _ _ _).symm
  · exact (get_word _ _ 10 (hw 3 (by decide))).trans (value4 _ _ _ _).symm
  · exact (get_word _ _ 11 (hw 4 (by decide))).trans (value4 _ _ _ _).symm
  · intro i
    match i with
    | ⟨0, _⟩ => exact (get_word _ _ 12 (hw 5 (by decide))).trans (value4 _ _ _ _).symm
    | ⟨1, _⟩ => exact (get_word _ _ 13 (hw 6 (by decide))).trans (value4 _ _ _ _).symm
    | ⟨2, _⟩ => exact (get_word _ _ 14 (hw 7 (by decide))).trans (value4 _ _ _ _).symm
    | ⟨3, _⟩ => exact (get_word _ _ 15 (hw 8 (by decide))).trans (value4 _ _ _ _).symm
    | ⟨4, _⟩ => exact (get_word _ _ 16 (hw 9 (by decide))).trans (value4 _ _ _ _).symm
    | ⟨5, _⟩ => exact (get_word _ _ 17 (hw 10 (by decide))).trans (value4 _ _ _ _).symm
    | ⟨6, _⟩ => exact (get_word _ _ 18 (hw 11 (by decide))).trans (value4 _ _ _ _).symm
    | ⟨7, _⟩ => exact (get_word _ _ 19 (hw 12 (by decide))).trans (value4 _ _ _ _).symm

/-! ### One round -/

/-- Reading of `k` bytes at `a`. -/
def loadDone (env : Env) (a k : Nat) (t n : Nat) : Done :=
  ⟨[(t, .load .dram a (answer env n k))], t + (1 + env.lat n), n + 1⟩

/-- Bytes written at `a`. -/
def storeDone (env : Env) (a : Nat) (bytes : List Nat) (t n : Nat) : Done :=
  ⟨[(t, .store .dram a bytes)], t + (1 + env.lat n), n + 1⟩

/-- An event is raised. -/
def eventDone (k : Nat) (t n : Nat) : Done := ⟨[(t, .event k)], t + 1, n⟩

/-- A subroutine that sets pins. -/
def pinsDone (env : Env) (l : List (Nat × Bool)) (t n : Nat) : Done := (outs env l t n).bind (Done.wait 1)

/-- Directions of a segment: from the check of the header to the return of `SetDirections`. -/
def dirDone (c : Cape) (env : Env) (a : Nat) (t n : Nat) : Done :=
  (((loadDone env a headerSize t n).bind (Done.wait 5)).bind (pinsDone env (dirPins c (env.ans n 1 % 256)))).bind (Done.wait 1)

/-- The segment at `a`, when the header is read at access `n`. -/
def segment (c : Cape) (env : Env) (a t n : Nat) : MotionSegment := segmentAt env n (dirDone c env a t n).n

/-- Registers that may change in a round. -/
def fetchDirty : List Nat := [0, 1, 3, 4, 5, 6, 7, 8, 9, 10, 11, 12, 13, 14, 15, 16, 17, 18, 19, 20, 21, 22, 23, 24, 25, 26, 27, 28, 30]

theorem zero32 (q : Nat → Nat) (k : Nat) (h : 20 ≤ k ∧ k < 28) : putBytes q (Fld.byte (mState 0)) 32 (fun _ => 0) k = 0 := by
  rw [putBytes_in _ _ _ _ _ (by simp only [Fld.byte]; simp; omega) (by simp only [Fld.byte]; simp; omega)]
  rfl

theorem zero32_out (q : Nat → Nat) (k : Nat) (h : k < 20 ∨ 28 ≤ k) : putBytes q (Fld.byte (mState 0)) 32 (fun _ => 0) k = q k := by
  rw [putBytes_out _ _ _ _ _ (by simp only [Fld.byte]; simp; omega)]

theorem fetch_dir (hl : Located c prog) (hok : c.Ok) (s : St) (a : Nat) (ha : get s.r r2 = a) (hpc : s.pc = 5)
    (hs : env.ans s.n 0 % 256 ≠ stateEmpty ∧ env.ans s.n 0 % 256 ≠ stateAbort ∧ env.ans s.n 0 % 256 ≠ stateExit) :
    Wp prog env s fun s' => Ran s s' 12 (dirDone c env a s.t s.n) [1, 3, 4, 5, 6, 30] ∧ get s'.r r1 = (a + headerSize) % 2 ^ 32 := by
  obtain ⟨pc, r, cc, n, t, log⟩ := s
  simp only at hpc ha hs
  subst hpc
  refine wp_load (hl.read.at 0 rfl) ?_
  obtain ⟨hh1, hh2⟩ := putBytes_header r (env.ans n)
  have hk0 : ∀ k, k ≠ 1 → putBytes r (Fld.byte hState) headerSize (env.ans n) k = r k := by
    intro k hk
    exact putBytes_out _ _ _ _ _ (by simp only [Fld.byte, headerSize]; omega)
  generalize hq0 : putBytes r (Fld.byte hState) headerSize (env.ans n) = q0 at hh1 hh2 hk0
  refine wp_qbeq (hl.read.at 1 rfl) false (by rw [hh1]; simpa [val] using hs.1) ?_
  refine wp_qbeq (hl.read.at 2 rfl) false (by rw [hh1]; simpa [val] using hs.2.1) ?_
  refine wp_qbeq (hl.read.at 3 rfl) false (by rw [hh1]; simpa [val] using hs.2.2) ?_
  refine wp_mov (hl.read.at 4 rfl) ?_
  rw [hh2]
  refine wp_call (hl.read.at 5 rfl) ?_
  have h0 : Ran ⟨5, r, cc, n, t, log⟩ ⟨adr SetDirections, put (put q0 r3 (env.ans n 1 % 256)) ⟨30, 0, 2⟩ 11, cc, n + 1,
      t + (1 + env.lat n) + 1 + 1 + 1 + 1 + 1,
      log ++ [(t, .load .dram (val r (.fld r2)) ((List.range headerSize).map fun j => env.ans n j % 256))]⟩ 560
      ((loadDone env a headerSize t n).bind (Done.wait 5)) [1, 3, 4, 5, 6, 30] := by
    refine ⟨rfl, ?_, rfl, rfl, ?_⟩
    · simp only [Done.bind, Done.wait, loadDone, answer, List.append_nil, val, ha]
    · intro k hk
      simp only [List.mem_cons, List.not_mem_nil, or_false, not_or] at hk
      show put _ _ _ k = r k
      rw [put_ne _ _ _ _ _ _ (by omega), put_ne _ _ _ _ _ _ (by omega), hk0 k (by omega)]
  refine (dir_run hl hok ⟨adr SetDirections, put (put q0 r3 (env.ans n 1 % 256)) ⟨30, 0, 2⟩ 11, cc, n + 1,
      t + (1 + env.lat n) + 1 + 1 + 1 + 1 + 1,
      log ++ [(t, .load .dram (val r (.fld r2)) ((List.range headerSize).map fun j => env.ans n j % 256))]⟩ rfl).trans ?_
  rintro s1 h1
  simp only at h1
  rw [get_put_low, get_put_other _ _ _ _ (by decide), get_put_full] at h1
  have hmod : env.ans n 1 % 256 % 2 ^ 32 = env.ans n 1 % 256 := by omega
  rw [hmod] at h1
  have h2 := h0.trans (f := pinsDone env (dirPins c (env.ans n 1 % 256))) (h1.weaken (dirty' := [1, 3, 4, 5, 6, 30]) (by
    intro k hk h
    exact hk (by simp only [List.mem_cons, List.not_mem_nil, or_false] at h ⊢; omega)))
  clear h1
  obtain ⟨pc1, q1, c1, n1, t1, log1⟩ := s1
  have hpc1 : pc1 = 11 := h2.pc
  subst hpc1
  have e1 := h2.log
  have e2 := h2.t
  have e3 := h2.n
  have e4 := h2.keep
  unfold dirDone
  generalize ((loadDone env a headerSize t n).bind (Done.wait 5)).bind (pinsDone env (dirPins c (env.ans n 1 % 256))) = d at e1 e2 e3 ⊢
  simp only at e1 e2 e3 e4
  refine wp_add (hl.read.at 6 rfl) (.here ⟨⟨rfl, ?_, ?_, ?_, ?_⟩, ?_⟩)
  · simp only [e1, Done.bind, Done.wait, List.append_nil]
  · simp only [e2, Done.bind, Done.wait]
  · simp only [e3, Done.bind, Done.wait]
  · intro k hk
    show put _ _ _ k = r k
    rw [put_ne _ _ _ _ _ _ (fun h => hk (by simp [h])), e4 k hk]
  · rw [get_put_full, get_keep (e4 2 (by decide)), ha]
    rfl

/-- The parameters are read and the auxiliary outputs set. -/
def auxDone (c : Cape) (env : Env) (a : Nat) (aux : Nat) (t n : Nat) : Done :=
  ((loadDone env a paramSize t n).bind (Done.wait 2)).bind (pinsDone env (auxPins c aux))

theorem fetch_aux (hl : Located c prog) (hok : c.Ok) (s : St) (a n0 : Nat) (seg : MotionSegment) (hsg : segmentAt env n0 s.n = seg)
    (ha : get s.r r1 = a) (hpc : s.pc = 12) :
    Wp prog env s fun s' => Ran s s' 15 (auxDone c env a seg.aux s.t s.n)
      [3, 4, 5, 6, 7, 8, 9, 10, 11, 12, 13, 14, 15, 16, 17, 18, 19, 30] ∧ Loaded s'.r seg := by
  obtain ⟨pc, r, cc, n, t, log⟩ := s
  simp only at hpc ha hsg
  subst hpc
  refine wp_load (hl.read.at 7 rfl) ?_
  have hseg := loaded (env := env) r n0 n
  rw [hsg] at hseg
  have hk2 : ∀ k, k < 7 ∨ 20 ≤ k → putBytes r (Fld.byte pLoopsAccel) paramSize (env.ans n) k = r k := by
    intro k hk
    rw [putBytes_out _ _ _ _ _ (by simp only [Fld.byte, paramSize]; omega)]
  generalize hq2 : putBytes r (Fld.byte pLoopsAccel) paramSize (env.ans n) = q2 at hseg hk2
  refine wp_mov (hl.read.at 8 rfl) ?_
  rw [hseg.aux]
  refine wp_call (hl.read.at 9 rfl) ?_
  have h0 : Ran ⟨12, r, cc, n, t, log⟩ ⟨adr SetAuxBits, put (put q2 r3 seg.aux) ⟨30, 0, 2⟩ 15, cc, n + 1,
      t + (1 + env.lat n) + 1 + 1,
      log ++ [(t, .load .dram (val r (.fld r1)) ((List.range paramSize).map fun j => env.ans n j % 256))]⟩ 415
      ((loadDone env a paramSize t n).bind (Done.wait 2)) [3, 4, 5, 6, 7, 8, 9, 10, 11, 12, 13, 14, 15, 16, 17, 18, 19, 30] := by
    refine ⟨rfl, ?_, rfl, rfl, ?_⟩
    · simp only [Done.bind, Done.wait, loadDone, answer, List.append_nil, val, ha]
    · intro k hk
      simp only [List.mem_cons, List.not_mem_nil, or_false, not_or] at hk
      show put _ _ _ k = r k
      rw [put_ne _ _ _ _ _ _ (by omega), put_ne _ _ _ _ _ _ (by omega), hk2 k (by omega)]
  refine (aux_run hl hok ⟨adr SetAuxBits, put (put q2 r3 seg.aux) ⟨30, 0, 2⟩ 15, cc, n + 1,
      t + (1 + env.lat n) + 1 + 1,
      log ++ [(t, .load .dram (val r (.fld r1)) ((List.range paramSize).map fun j => env.ans n j % 256))]⟩ rfl).mono ?_
  rintro s3 h3
  simp only at h3
  rw [get_put_low, get_put_other _ _ _ _ (by decide), get_put_full] at h3
  have haux : seg.aux % 2 ^ 32 = seg.aux := by
    rw [← hseg.aux]
    exact Nat.mod_eq_of_lt (Nat.lt_trans (get_lt2 q2 8 2) (by decide))
  rw [haux] at h3
  have hk3 : ∀ k, k ∉ [3, 4, 5, 6, 30] → s3.r k = q2 k := by
    intro k hk
    simp only [List.mem_cons, List.not_mem_nil, or_false, not_or] at hk
    refine (h3.keep k (by simp only [List.mem_cons, List.not_mem_nil, or_false]; omega)).trans ?_
    show put _ _ _ k = q2 k
    rw [put_ne _ _ _ _ _ _ (by omega), put_ne _ _ _ _ _ _ (by omega)]
  have h4 := h0.trans (f := pinsDone env (auxPins c seg.aux)) (h3.weaken (dirty' := [3, 4, 5, 6, 7, 8, 9, 10, 11, 12, 13, 14, 15, 16, 17, 18, 19, 30]) (by
    intro k hk h
    exact hk (by simp only [List.mem_cons, List.not_mem_nil, or_false] at h ⊢; omega)))
  refine ⟨h4, ⟨?_, ?_, ?_, ?_, ?_, ?_, ?_, ?_⟩⟩
  · rw [← hseg.la]; exact get_keep (hk3 7 (by decide))
  · rw [← hseg.lt]; exact get_keep (hk3 7 (by decide))
  · rw [← hseg.ld]; exact get_keep (hk3 8 (by decide))
  · rw [← hseg.aux]; exact get_keep (hk3 8 (by decide))
  · rw [← hseg.idx]; exact get_keep (hk3 9 (by decide))
  · rw [← hseg.cyc]; exact get_keep (hk3 10 (by decide))
  · rw [← hseg.del]; exact get_keep (hk3 11 (by decide))
  · intro i
    rw [← hseg.fr i]
    exact get_keep (hk3 (12 + i.val) (by simp only [List.mem_cons, List.not_mem_nil, or_false]; omega))

/-- The start values and the first status word. -/
def startDone (env : Env) (st : Nat) (t n : Nat) : Done := (Done.wait 6 t n).bind (storeDone env 0 (bytesOf 4 st))

theorem fetch_start (hl : Located c prog) (s : St) (st : Nat) (seg : MotionSegment) (hst : get s.r r28 = st) (hseg : Loaded s.r seg)
    (hpc : s.pc = 15) :
    Wp prog env s fun s' => Ran s s' 22 (startDone env ((st + seg.loops) % 2 ^ 32) s.t s.n) [0, 3, 20, 21, 22, 23, 24, 25, 26, 27, 28] ∧
      Ready s'.r (Regs.load seg) (fun _ => 0) seg.fractions ((st + seg.loops) % 2 ^ 32) := by
  obtain ⟨pc, r, cc, n, t, log⟩ := s
  simp only at hpc hst hseg
  subst hpc
  refine wp_zero (hl.read.at 10 rfl) ?_
  refine wp_zero (hl.read.at 11 rfl) ?_
  have hz : ∀ k, k ≠ 3 → (k < 20 ∨ 28 ≤ k) →
      putBytes (putBytes r (Fld.byte (mState 0)) 32 fun _ => 0) (Fld.byte r3) 4 (fun _ => 0) k = r k := by
    intro k h3 h20
    rw [putBytes_reg, if_neg h3, zero32_out _ _ h20]
  have hz3 : putBytes (putBytes r (Fld.byte (mState 0)) 32 fun _ => 0) (Fld.byte r3) 4 (fun _ => 0) 3 = 0 := by
    rw [putBytes_reg, if_pos rfl]
    rfl
  have hzm : ∀ i : Fin 8, putBytes (putBytes r (Fld.byte (mState 0)) 32 fun _ => 0) (Fld.byte r3) 4 (fun _ => 0) (20 + i.val) = 0 := by
    intro i
    rw [putBytes_reg, if_neg (by omega), zero32 _ _ (by omega)]
  generalize putBytes (putBytes r (Fld.byte (mState 0)) 32 fun _ => 0) (Fld.byte r3) 4 (fun _ => 0) = q at hz hz3 hzm
  have e1 : get q ⟨28, 0, 4⟩ = st := by rw [← hst]; exact get_keep (hz 28 (by decide) (by decide))
  have e2 : get q ⟨7, 0, 2⟩ = seg.loopsAccel := by rw [← hseg.la]; exact get_keep (hz 7 (by decide) (by decide))
  have e3 : get q ⟨7, 2, 2⟩ = seg.loopsTravel := by rw [← hseg.lt]; exact get_keep (hz 7 (by decide) (by decide))
  have e4 : get q ⟨8, 0, 2⟩ = seg.loopsDecel := by rw [← hseg.ld]; exact get_keep (hz 8 (by decide) (by decide))
  refine wp_add (d := ⟨28, 0, 4⟩) (a := ⟨28, 0, 4⟩) (o := .fld ⟨7, 0, 2⟩) (hl.read.at 12 rfl) ?_
  refine wp_add (d := ⟨28, 0, 4⟩) (a := ⟨28, 0, 4⟩) (o := .fld ⟨7, 2, 2⟩) (hl.read.at 13 rfl) ?_
  refine wp_add (d := ⟨28, 0, 4⟩) (a := ⟨28, 0, 4⟩) (o := .fld ⟨8, 0, 2⟩) (hl.read.at 14 rfl) ?_
  simp only [val, get_put_ne, get_put_full, ne_eq, Nat.reduceEqDiff, not_false_eq_true, e1, e2, e3, e4]
  have hv : (((st + seg.loopsAccel) % 2 ^ 32 + seg.loopsTravel) % 2 ^ 32 + seg.loopsDecel) % 2 ^ 32 = (st + seg.loops) % 2 ^ 32 := by
    simp only [MotionSegment.loops]
    omega
  have hq : ∀ k, put (put (put q ⟨28, 0, 4⟩ (st + seg.loopsAccel)) ⟨28, 0, 4⟩ ((st + seg.loopsAccel) % 2 ^ 32 + seg.loopsTravel)) ⟨28, 0, 4⟩
      (((st + seg.loopsAccel) % 2 ^ 32 + seg.loopsTravel) % 2 ^ 32 + seg.loopsDecel) k = if k = 28 then (st + seg.loops) % 2 ^ 32 else q k := by
    intro k
    by_cases hk : k = 28
    · subst hk
      rw [put_full, if_pos rfl, hv]
    · rw [put_ne _ _ _ _ _ _ hk, put_ne _ _ _ _ _ _ hk, put_ne _ _ _ _ _ _ hk, if_neg hk]
  generalize put (put (put q ⟨28, 0, 4⟩ (st + seg.loopsAccel)) ⟨28, 0, 4⟩ ((st + seg.loopsAccel) % 2 ^ 32 + seg.loopsTravel)) ⟨28, 0, 4⟩
      (((st + seg.loopsAccel) % 2 ^ 32 + seg.loopsTravel) % 2 ^ 32 + seg.loopsDecel) = q2 at hq
  generalize (((st + seg.loopsAccel) % 2 ^ 32 + seg.loopsTravel) % 2 ^ 32 + seg.loopsDecel) / _ % 2 = cy
  refine wp_movi (hl.read.at 15 rfl) ?_
  refine wp_store (hl.read.at 16 rfl) ?_
  have hq5 : ∀ k, k ≠ 0 → put q2 r0 0 k = if k = 28 then (st + seg.loops) % 2 ^ 32 else q k := by
    intro k hk
    rw [put_ne _ _ _ _ _ _ hk, hq]
  have hb : ((List.range 4).map fun j => byteOf (put q2 r0 0) (Fld.byte r28 + j)) = bytesOf 4 ((st + seg.loops) % 2 ^ 32) := by
    rw [byteOf_reg _ 28 4 (by decide), hq5 28 (by decide), if_pos rfl]
  have hv0 : val (put q2 r0 0) (.fld r0) = 0 := by
    simp only [val]
    rw [get_put_full]
  rw [hb, hv0]
  generalize put q2 r0 0 = q5 at hq5
  refine .here ⟨⟨rfl, ?_, ?_, rfl, ?_⟩, ⟨⟨?_, ?_, ?_, ?_, ?_, ?_, ?_⟩, ?_, ?_, ?_⟩⟩
  · simp only [startDone, Done.bind, Done.wait, storeDone, List.nil_append, movCost_small (show 0 < 2 ^ 16 by decide)]
  · simp only [startDone, Done.bind, Done.wait, storeDone, movCost_small (show 0 < 2 ^ 16 by decide)]
  · intro k hk
    simp only [List.mem_cons, List.not_mem_nil, or_false, not_or] at hk
    show q5 k = r k
    rw [hq5 k (by omega), if_neg (by omega), hz k (by omega) (by omega)]
  · rw [get_keep ((hq5 7 (by decide)).trans (if_neg (by decide))), e2]; rfl
  · rw [get_keep ((hq5 7 (by decide)).trans (if_neg (by decide))), e3]; rfl
  · rw [get_keep ((hq5 8 (by decide)).trans (if_neg (by decide))), e4]; rfl
  · rw [get_keep ((hq5 9 (by decide)).trans (if_neg (by decide))), get_keep (hz 9 (by decide) (by decide)), hseg.idx]; rfl
  · rw [get_keep ((hq5 10 (by decide)).trans (if_neg (by decide))), get_keep (hz 10 (by decide) (by decide)), hseg.cyc]; rfl
  · rw [get_keep ((hq5 11 (by decide)).trans (if_neg (by decide))), get_keep (hz 11 (by decide) (by decide)), hseg.del]; rfl
  · rw [get_keep ((hq5 3 (by decide)).trans (if_neg (by decide)))]
    simp only [get, hz3, Nat.zero_div, Nat.zero_mod]
    rfl
  · intro i
    rw [get_keep ((hq5 (20 + i.val) (by omega)).trans (if_neg (by omega)))]
    simp only [get, hzm i, Nat.zero_div, Nat.zero_mod]
  · intro i
    rw [get_keep ((hq5 (12 + i.val) (by omega)).trans (if_neg (by omega))), get_keep (hz (12 + i.val) (by omega) (by omega)), hseg.fr i]
  · show get q5 r28 = _
    simp only [get]
    rw [hq5 28 (by decide), if_pos rfl]
    simp

/-- From `QUEUE_READ` to `STEP_GEN`. -/
def fetchDone (c : Cape) (env : Env) (a st : Nat) (seg : MotionSegment) (t n : Nat) : Done :=
  ((dirDone c env a t n).bind (auxDone c env ((a + headerSize) % 2 ^ 32) seg.aux)).bind
    (startDone env ((st + seg.loops) % 2 ^ 32))

theorem fetch_run (hl : Located c prog) (hok : c.Ok) (s : St) (a st : Nat) (seg : MotionSegment) (hsg : segment c env a s.t s.n = seg)
    (ha : get s.r r2 = a) (hst : get s.r r28 = st) (hpc : s.pc = 5)
    (hs : env.ans s.n 0 % 256 ≠ stateEmpty ∧ env.ans s.n 0 % 256 ≠ stateAbort ∧ env.ans s.n 0 % 256 ≠ stateExit) :
    Wp prog env s fun s' => Ran s s' 22 (fetchDone c env a st seg s.t s.n) fetchDirty ∧
      Ready s'.r (Regs.load seg) (fun _ => 0) seg.fractions ((st + seg.loops) % 2 ^ 32) := by
  refine (fetch_dir hl hok s a ha hpc hs).trans ?_
  rintro s1 ⟨h1, h2⟩
  refine (fetch_aux hl hok s1 _ s.n seg (by rw [← hsg, h1.n]; rfl) h2 h1.pc).trans ?_
  rintro s2 ⟨h3, h4⟩
  refine (fetch_start hl s2 st _ ?_ h4 h3.pc).mono ?_
  · rw [← hst, get_keep (h3.keep 28 (by decide)), get_keep (h1.keep 28 (by decide))]
  · rintro s3 ⟨h5, h6⟩
    refine ⟨?_, h6⟩
    unfold fetchDone
    refine Ran.trans (Ran.trans (h1.weaken ?_) (h3.weaken ?_)) (h5.weaken ?_)
    all_goals
      intro k hk h
      exact hk (by simp only [fetchDirty, List.mem_cons, List.not_mem_nil, or_false] at h ⊢; omega)

end BeagleG.Firmware
