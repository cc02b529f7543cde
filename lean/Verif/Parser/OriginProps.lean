import Verif.Parser.CoordProps
import Verif.Parser.ProgramProps
/-!
# The parser: the origin that the machine is told (C76)

`GCodeMachineControl` shows positions relative to the origin it has been told last with `inform_origin_offset`
(gcode-machine-control.cc 368-372 and 698-727).
-/
namespace BeagleG.Parser
open Text Expr

variable {F : Type} {fl : Num F} {rc : Receiver F} {T : List Byte → Prop}

/-- The last origin announced, with its name. -/
def shown : List (Event F) → Option (Axes F × FrameName)
  | [] => none
  | .originOffset o n :: _ => some (o, n)
  | _ :: log => shown log

/-- What has been announced last is the zero point of absolute coordinates, and its name says nothing wrong about it. -/
def OriginTold (fl : Num F) (st : State F) : Prop := ∃ n, shown st.log = some (st.frame fl, n) ∧ Named fl st n

/-- Events that are not an announcement. -/
def Event.announces : Event F → Bool
  | .originOffset _ _ => true
  | _ => false

theorem shown_skip {e : Event F} (h : e.announces = false) (log : List (Event F)) : shown (e :: log) = shown log := by
  cases e <;> first | rfl | cases h

theorem shown_inform (st : State F) (n : FrameName) : shown (informOrigin fl st n).log = some (st.frame fl, n) := rfl

theorem plain_announces {e : Event F} (h : e.plain = true) : e.announces = false := by
  cases e <;> first | rfl | cases h

theorem moveTo_announces {e : Event F} {p : Axes F} (h : MoveTo e p) : e.announces = false := by
  obtain ⟨f, rfl | rfl⟩ := h <;> rfl

/-- The parts of the state that C76 is about. -/
structure SameFrame (st st' : State F) : Prop where
  machineOrigin : st'.machineOrigin = st.machineOrigin
  system : st'.system = st.system
  g92 : st'.g92 = st.g92
  origin : st'.origin = st.origin
  offset : st'.offset = st.offset
  shown : shown st'.log = shown st.log

theorem SameFrame.frame {st st' : State F} (h : SameFrame st st') : st'.frame fl = st.frame fl := by
  funext a
  simp only [State.frame, State.currentOrigin, State.currentOffset, h.machineOrigin, h.system, h.g92, h.origin, h.offset]

theorem SameFrame.currentOffset {st st' : State F} (h : SameFrame st st') : st'.currentOffset fl = st.currentOffset fl := by
  funext a
  simp only [State.currentOffset, h.g92, h.offset]

theorem OriginTold.same {st st' : State F} (h : OriginTold fl st) (hs : SameFrame st st') : OriginTold fl st' := by
  obtain ⟨n, h1, h2⟩ := h
  refine ⟨n, by rw [hs.shown, h1, hs.frame], ?_⟩
  cases n <;> simp only [Named] at h2 ⊢ <;> first
    | rw [hs.origin]; exact h2
    | rw [hs.offset]; exact h2
    | rw [hs.currentOffset]; exact h2

theorem SameFrame.refl (st : State F) : SameFrame st st := ⟨rfl, rfl, rfl, rfl, rfl, rfl⟩

theorem SameFrame.trans {a b c : State F} (h : SameFrame a b) (h' : SameFrame b c) : SameFrame a c :=
  ⟨h'.1.trans h.1, h'.2.trans h.2, h'.3.trans h.3, h'.4.trans h.4, h'.5.trans h.5, h'.6.trans h.6⟩

theorem say_same {e : Event F} (h : e.announces = false) (st : State F) : SameFrame st (st.say e) :=
  ⟨rfl, rfl, rfl, rfl, rfl, shown_skip h _⟩

theorem storeParameter_same (st : State F) (n : List Byte) (v : F) : SameFrame st (storeParameter st n v) := by
  unfold storeParameter
  split
  · exact .refl _
  · split
    · exact say_same rfl st
    · exact ⟨rfl, rfl, rfl, rfl, rfl, rfl⟩

theorem Quiet.same {st st' : State F} (h : Quiet fl st st') : SameFrame st st' := by
  induction h with
  | refl => exact .refl _
  | store n v _ ih => exact ih.trans (storeParameter_same _ n v)
  | error _ ih => exact ih.trans (say_same rfl _)
  | done v _ ih => exact ih.trans (say_same rfl _)

theorem moves_same (rc : Receiver F) (feed : F) : ∀ (ps : List (Axes F)) (st : State F),
    SameFrame st (moves rc feed st ps).1
  | [], st => .refl st
  | p :: ps, st => by
    have h1 : SameFrame st (st.say (.coordinatedMove feed p)) := say_same rfl st
    simp only [moves]
    split
    · exact h1.trans (moves_same rc feed ps _)
    · exact h1

/-- Every step keeps it. -/
theorem OriginTold.micro {a b : State F} (h : OriginTold fl a) (m : Micro fl rc T a b) : OriginTold fl b := by
  cases m with
  | quiet q => exact h.same q.same
  | start l hl =>
    refine h.same ?_
    unfold whileStart
    split <;> exact ⟨rfl, rfl, rfl, rfl, rfl, rfl⟩
  | collect => exact h.same ⟨rfl, rfl, rfl, rfl, rfl, rfl⟩
  | say e he => exact h.same (say_same (plain_announces he) a)
  | modal hc =>
    obtain ⟨n, h1, h2⟩ := h
    refine ⟨n, by rw [hc.rest.log, h1, hc.frame], ?_⟩
    have ho : b.currentOffset fl = a.currentOffset fl := by
      funext x
      simp only [State.currentOffset, hc.g92, hc.offset]
    cases n <;> simp only [Named] at h2 ⊢ <;> first
      | rw [hc.origin]; exact h2
      | rw [hc.offset]; exact h2
      | rw [ho]; exact h2
  | shift n hr hn => exact ⟨n, shown_inform _ n, by cases n <;> exact hn⟩
  | load => exact h.same ⟨rfl, rfl, rfl, rfl, rfl, rfl⟩
  | moved e p hm _ =>
    have := say_same (moveTo_announces hm) a
    exact h.same ⟨this.1, this.2, this.3, this.4, this.5, this.6⟩
  | refused e p hm _ => exact h.same (say_same (moveTo_announces hm) a)
  | curve feed ps t _ =>
    have := moves_same rc feed (ps ++ [t]) a
    exact h.same ⟨this.1, this.2, this.3, this.4, this.5, this.6⟩
  | curveRefused feed ps _ => exact h.same (moves_same rc feed ps a)
  | ignored => exact h.same ⟨rfl, rfl, rfl, rfl, rfl, rfl⟩
  | bareRefused x v e p hm _ =>
    have := say_same (moveTo_announces hm) a
    exact h.same ⟨this.1, this.2, this.3, this.4, this.5, this.6⟩
  | home => exact h.same ⟨rfl, rfl, rfl, rfl, rfl, rfl⟩
  | probed => exact h.same ⟨rfl, rfl, rfl, rfl, rfl, rfl⟩
  | notProbed => exact h.same ⟨rfl, rfl, rfl, rfl, rfl, rfl⟩

theorem OriginTold.finish (rc : Receiver F) {a : State F} (h : OriginTold fl a) : OriginTold fl (finishProgram fl a) := by
  have h1 : OriginTold fl (a.say (.finished false)) := h.same (say_same rfl a)
  have h2 : ∀ (b c : State F), Inside fl rc (fun _ => True) b c → OriginTold fl b → OriginTold fl c := by
    intro b c hi hb
    induction hi with
    | refl => exact hb
    | tail _ m ih => exact ih.micro m
  exact (h2 _ _ (initProgramDefaults_steps _) h1).same ⟨rfl, rfl, rfl, rfl, rfl, rfl⟩

theorem OriginTold.program {a : State F} (h : OriginTold fl a) : OriginTold fl (startProgram a) := by
  unfold startProgram
  split
  · exact h
  · exact h.same ⟨rfl, rfl, rfl, rfl, rfl, rfl⟩

/-- **C76. The machine is always told the origin**: whatever is parsed, the origin announced last is the sum of the
origin of the selected coordinate system and of the offset that is in effect; and if it was announced as a coordinate
system, then this system is the selected one; as G92 or G30, then the offset is in effect; without name or as `H`,
then there is no offset. -/
theorem C76_origin_told (hfl : fl.toFloat_.Ok) (n : Nat) (lines : List (List Byte)) (st st' : State F)
    (hlines : ∀ l ∈ lines, Clean l) (hx : Texts Clean st) (ht : OriginTold fl st)
    (hrun : runLines fl rc n st lines = .ok st') : OriginTold fl st' :=
  ((runLines_steps (rc := rc) hfl clean_safer n lines st hlines hx).ok hrun).induct (I := OriginTold fl)
    (fun _ _ h m => h.micro m) (fun _ h => h.program) (fun _ h => h.finish rc) ht

/-- It holds for a new parser: the selected coordinate system is announced by its name. -/
theorem C76_initial (params : Option (List Byte → Option F)) (home : Axes F) : OriginTold fl (initial fl params home) := by
  have key : ∀ a : State F, OriginTold fl (initCoordSystems fl a) := by
    intro a
    unfold initCoordSystems
    simp only
    split
    · exact ⟨_, shown_inform _ _, rfl⟩
    · exact ⟨_, shown_inform _ _, rfl⟩
  exact key _

/-- After the end of a stream (gcode-streamer.cc line 90) as well. -/
theorem C76_end_of_stream {st : State F} (h : OriginTold fl st) : OriginTold fl (endOfStream st) := h.same (say_same rfl st)

/-- **The origin told is the one that moves are made from**: a word of a move with absolute coordinates leads to the
origin announced last, plus the value in millimeter or degree, scaled. -/
theorem C76_moves_from_it (st : State F) (ws : List (Byte × F)) (a : Axis) (v : F) (o : Axes F) (n : FrameName)
    (ht : OriginTold fl st) (hs : shown st.log = some (o, n)) (hv : axisValue a ws = some v) (ha : st.absolute a = true) :
    moveTarget fl st ws a = fl.add (o a) (fl.mul (fl.mul v (unitOf st a)) (st.scale a)) := by
  obtain ⟨n', h1, _⟩ := ht
  rw [hs] at h1
  cases h1
  simp only [moveTarget, hv, ha, if_true]
  rfl

/-- **The coordinate shown is the one of the program**: in exact arithmetic, with millimeters and no scaling, the
position where such a move ends, relative to the origin announced last, is the value that was written. -/
theorem C76_reads_back [CommRing F] (hx : Exact fl) (st : State F) (ws : List (Byte × F)) (a : Axis) (v : F)
    (o : Axes F) (n : FrameName) (ht : OriginTold fl st) (hs : shown st.log = some (o, n)) (hv : axisValue a ws = some v)
    (ha : st.absolute a = true) (hu : unitOf st a = 1) (hc : st.scale a = 1) :
    moveTarget fl st ws a - o a = v := by
  rw [C76_moves_from_it st ws a v o n ht hs hv ha, hu, hc, hx.add, hx.mul, hx.mul]
  ring

/-- The name after a line. -/
def nameAfter (lines : List (List Byte)) : Option (FrameName × Origin × Offset) :=
  match runLines ratNum (ratReceiver true) 0 ratState lines with
  | .ok st => (shown st.log).map fun p => (p.2, st.origin, st.offset)
  | _ => none

/-- **The name shown does not always name the coordinate system**: after the end of a program it is `H`, although the
coordinate system selected before is still selected. -/
theorem C76_name_after_end : nameAfter [text "G55", text "G1 X1", text "M30"] = some (.home, .system 1, .g92) := by
  decide +kernel

/-- Likewise, after G92.1 and G92.2 there is no name at all. -/
theorem C76_name_after_reset : nameAfter [text "G55", text "G92 X1", text "G92.1"] = some (.empty, .system 1, .g92) ∧
    nameAfter [text "G55", text "G92 X1", text "G92.2"] = some (.empty, .system 1, .zero) := by decide +kernel

/-- And the name of a coordinate system is shown although an offset is in effect: X0 is not the zero of G55. -/
theorem C76_name_with_offset : nameAfter [text "G92 X1", text "G55"] = some (.system 1, .system 1, .g92) ∧
    ∃ st, runLines ratNum (ratReceiver true) 0 ratState [text "G92 X1", text "G55", text "G1 X0"] = .ok st ∧
      st.system 1 .X = 0 ∧ st.pos .X = -1 := by
  refine ⟨by decide +kernel, ?_⟩
  have h : (runLines ratNum (ratReceiver true) 0 ratState [text "G92 X1", text "G55", text "G1 X0"]).ends
    (fun st => decide (st.system 1 .X = 0 ∧ st.pos .X = -1)) = true := by decide +kernel
  simpa using Out.ends_ok h

/-- Non-vacuity: G55 with an offset of 3 at X10 shows X7. -/
example : ∃ st, runLines ratNum (ratReceiver true) 0 ratState [text "G10 L2 P2 X3", text "G55", text "G1 X7"] = .ok st ∧
    OriginTold ratNum st ∧ st.pos .X = 10 ∧ (shown st.log).map (fun p => p.1 .X) = some 3 := by
  have h : (runLines ratNum (ratReceiver true) 0 ratState [text "G10 L2 P2 X3", text "G55", text "G1 X7"]).ends
    (fun st => decide (st.pos .X = 10 ∧ (shown st.log).map (fun p => p.1 .X) = some 3)) = true := by decide +kernel
  obtain ⟨st, h1, h2⟩ := Out.ends_ok h
  have h2 := of_decide_eq_true h2
  refine ⟨st, h1, ?_, h2⟩
  refine C76_origin_told ratNum_ok 0 _ _ _ ?_ ?_ (C76_initial _ _) h1
  · unfold Clean; decide
  · exact ⟨by unfold Clean; decide +kernel, by unfold Clean; decide +kernel⟩

end BeagleG.Parser
