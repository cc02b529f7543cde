import Verif.StepGen.Model
/-!
# The bytes of a queue element

The host copies a packed C struct into the ring buffer, the firmware loads it into registers whose
layout is declared separately in the assembler source. Both are little-endian.

* host: `struct MotionSegment`, motion-queue.h 51-80 (`__attribute__((packed))`)
* firmware: `.struct QueueHeader`, `.struct TravelParameters`, motor-interface-pru.p 33-66; the loads
  at lines 198-199 and 210-212

The state byte, first in both, belongs to the queue protocol (`PruQueue`) and is left out.
-/
namespace BeagleG.EndToEnd

open StepGen (Motor MotionSegment)

/-- Little-endian bytes of a value in a field of `w` bytes; the value is truncated.
The bytes of `MotionSegment` in memory, motion-queue.h 51-80, as copied at pru-motion-queue.cc 115-123. -/
def le : (w n : Nat) → List Nat
  | 0, _ => []
  | w + 1, n => n % 256 :: le w (n / 256)

/-- Value of little-endian bytes. The same read by the PRU (`LBCO`, motor-interface-pru.p 199, 212). -/
def value : List Nat → Nat
  | [] => 0
  | b :: l => b + 256 * value l

/-- The fields of the C struct after `state`, in order: width in bytes and value. motion-queue.h 57-70. -/
def hostFields (s : MotionSegment) : List (Nat × Nat) :=
  [(1, s.directionBits), (2, s.loopsAccel), (2, s.loopsTravel), (2, s.loopsDecel), (2, s.aux),
   (4, s.accelSeriesIndex), (4, s.hiresAccelCycles), (4, s.travelDelayCycles)] ++
  (List.finRange 8).map fun i => (4, s.fractions i)

/-- The bytes copied by `memcpy`-like assignment, pru-motion-queue.cc 142, after the state byte. -/
def hostBytes (s : MotionSegment) : List Nat := (hostFields s).flatMap fun f => le f.1 f.2

/-- The widths declared in the assembler source: `direction_bits`, then `TravelParameters`.
motor-interface-pru.p 35-66. -/
def firmwareWidths : List Nat := [1, 2, 2, 2, 2, 4, 4, 4, 4, 4, 4, 4, 4, 4, 4, 4]

/-- Register contents after the load: consecutive fields. motor-interface-pru.p 198-212. -/
def fields : (widths bytes : List Nat) → List Nat
  | [], _ => []
  | w :: ws, bytes => value (bytes.take w) :: fields ws (bytes.drop w)

/-- The parameters as the firmware names them. motor-interface-pru.p 198-212. -/
def firmwareLoad (bytes : List Nat) : MotionSegment :=
  let f := fields firmwareWidths bytes
  { directionBits := f.getD 0 0
    loopsAccel := f.getD 1 0
    loopsTravel := f.getD 2 0
    loopsDecel := f.getD 3 0
    aux := f.getD 4 0
    accelSeriesIndex := f.getD 5 0
    hiresAccelCycles := f.getD 6 0
    travelDelayCycles := f.getD 7 0
    fractions := fun i => f.getD (8 + i.val) 0 }

/-- Bytes of an element without the state byte. motion-queue.h 51-80 without line 55. -/
def payload : Nat := 53

theorem le_length (w : Nat) : ∀ n, (le w n).length = w := by
  induction w with
  | zero => intro n; rfl
  | succ w ih => intro n; simp [le, ih]

theorem value_le (w : Nat) : ∀ n, value (le w n) = n % 256 ^ w := by
  induction w with
  | zero => intro n; simp [le, value, Nat.mod_one]
  | succ w ih =>
    intro n
    simp only [le, value, ih]
    rw [Nat.pow_succ, Nat.mul_comm (256 ^ w), Nat.mod_mul]

theorem fields_host (l : List (Nat × Nat)) :
    fields (l.map Prod.fst) (l.flatMap fun f => le f.1 f.2) =
      l.map fun f => f.2 % 256 ^ f.1 := by
  induction l with
  | nil => rfl
  | cons f l ih =>
    simp only [List.map_cons, List.flatMap_cons, fields]
    rw [List.take_left' (le_length _ _), List.drop_left' (le_length _ _), ih, value_le]

/-- C58. Both declarations describe the same layout. -/
theorem C58_same_widths (s : MotionSegment) :
    (hostFields s).map Prod.fst = firmwareWidths ∧ firmwareWidths.sum = payload ∧
    (hostBytes s).length = payload := by
  refine ⟨rfl, rfl, ?_⟩
  simp [hostBytes, hostFields, le_length, payload, List.finRange_succ]

/-- What is left of a segment whose fields do not fit. Conversion to the types of motion-queue.h 57-70. -/
def truncated (s : MotionSegment) : MotionSegment :=
  { directionBits := s.directionBits % 2 ^ 8
    loopsAccel := s.loopsAccel % 2 ^ 16
    loopsTravel := s.loopsTravel % 2 ^ 16
    loopsDecel := s.loopsDecel % 2 ^ 16
    aux := s.aux % 2 ^ 16
    accelSeriesIndex := s.accelSeriesIndex % 2 ^ 32
    hiresAccelCycles := s.hiresAccelCycles % 2 ^ 32
    travelDelayCycles := s.travelDelayCycles % 2 ^ 32
    fractions := fun i => s.fractions i % 2 ^ 32 }

theorem load_host (s : MotionSegment) : firmwareLoad (hostBytes s) = truncated s := by
  have h := fields_host (hostFields s)
  rw [(C58_same_widths s).1] at h
  unfold firmwareLoad
  rw [show hostBytes s = (hostFields s).flatMap fun f => le f.1 f.2 from rfl, h]
  unfold truncated hostFields
  have hf : ∀ i : Motor, ((List.finRange 8).map fun i => s.fractions i % 256 ^ 4)[i.val]?.getD 0 =
      s.fractions i % 2 ^ 32 := by
    intro i
    simp
  simp only [List.map_append, List.map_cons, List.map_nil, List.map_map, Function.comp_def]
  congr 1
  funext i
  rw [← hf i, List.getD_eq_getElem?_getD, List.getElem?_append_right (by simp)]
  congr 2
  simp

/-- C58. The firmware sees in each of its registers the value the host wrote to the field of the
same name. -/
theorem C58_layout (s : MotionSegment) (h : s.WF) : firmwareLoad (hostBytes s) = s := by
  rw [load_host]
  unfold truncated
  rw [Nat.mod_eq_of_lt h.dir, Nat.mod_eq_of_lt h.la, Nat.mod_eq_of_lt h.lt, Nat.mod_eq_of_lt h.ld,
    Nat.mod_eq_of_lt h.aux, Nat.mod_eq_of_lt h.idx, Nat.mod_eq_of_lt h.cyc, Nat.mod_eq_of_lt h.del]
  have : (fun i => s.fractions i % 2 ^ 32) = s.fractions := by
    funext i; exact Nat.mod_eq_of_lt (h.fr i)
  rw [this]

/-- Every byte fits a byte. -/
theorem C58_bytes (s : MotionSegment) : ∀ b ∈ hostBytes s, b < 256 := by
  have hle : ∀ w n, ∀ b ∈ le w n, b < 256 := by
    intro w
    induction w with
    | zero => intro n b hb; simp [le] at hb
    | succ w ih =>
      intro n b hb
      simp only [le, List.mem_cons] at hb
      rcases hb with rfl | hb
      · exact Nat.mod_lt _ (by decide)
      · exact ih _ _ hb
  intro b hb
  simp only [hostBytes, List.mem_flatMap] at hb
  obtain ⟨f, -, hb⟩ := hb
  exact hle _ _ _ hb

/-- Non-vacuity: a segment with distinct values in all fields. -/
example : hostBytes ⟨0x81, 0x0102, 0x0304, 0x0506, 0x0708, 0x090a0b0c, 0x0d0e0f10, 0x11121314,
      fun i => 0x20 + i.val⟩ =
    [0x81, 2, 1, 4, 3, 6, 5, 8, 7, 0x0c, 0x0b, 0x0a, 9, 0x10, 0x0f, 0x0e, 0x0d, 0x14, 0x13, 0x12,
     0x11] ++ [0x20, 0, 0, 0, 0x21, 0, 0, 0, 0x22, 0, 0, 0, 0x23, 0, 0, 0, 0x24, 0, 0, 0, 0x25, 0, 0,
     0, 0x26, 0, 0, 0, 0x27, 0, 0, 0] := by decide

end BeagleG.EndToEnd
