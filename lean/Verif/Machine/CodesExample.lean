import Verif.Machine.CodesProps
import Verif.Machine.Example
/-!
# C92: witnesses

Pin 941 is auxiliary output 1 of the example machine, pin 922 is output 2.
-/
namespace BeagleG.Machine

open Planner (intArith intConfig xy)
open Hardware

/-- What can be seen of the outputs 1 and 2: the pins, and the bits. -/
def pins (s : State Int (Rec Int) Unit) : Bool × Bool × BitVec 16 :=
  (s.hw.level (cramps.aux 0), s.hw.level (cramps.aux 1), s.hw.auxBits)

/-- **C92, not satisfied by the code.** M62 P1, a move, M63 P1, end of the program, and waiting until all is done: the bit
is off, but the output stays on. -/
theorem C92_stays_on : (run (exEnv exRead exClock) exState
    [.home all, .unprocessed 'M' 62 [('P', 1)], .coordinated 10 (xy 5 5), .unprocessed 'M' 63 [('P', 1)],
      .finished true, .dwell]).map pins = some (true, false, 0#16) := by decide +kernel

/-- **C92, not satisfied by the code.** M62 P1 is to wait for the next move; an M64 for another output publishes it. -/
theorem C92_early : (run (exEnv exRead exClock) exState [.home all, .unprocessed 'M' 62 [('P', 1)]]).map pins =
      some (false, false, 1#16) ∧
    (run (exEnv exRead exClock) exState
      [.home all, .unprocessed 'M' 62 [('P', 1)], .unprocessed 'M' 64 [('P', 2)]]).map pins =
      some (true, true, 3#16) := by decide +kernel

/-- **C92, not satisfied by the code.** M64 P2 is to be independent of moves in the queue; these switch the output off
again when they are executed. -/
theorem C92_overwritten : (run (exEnv exRead exClock) exState
      [.home all, .coordinated 10 (xy 5 5), .unprocessed 'M' 64 [('P', 2)]]).map pins = some (false, true, 2#16) ∧
    (run (exEnv exRead exClock) exState
      [.home all, .coordinated 10 (xy 5 5), .unprocessed 'M' 64 [('P', 2)], .dwell]).map pins =
      some (false, false, 2#16) := by decide +kernel

/-- The words of `M42 P3 S1 P4 X5`. -/
example : Words ['P', 'S'] [('P', (3 : Int)), ('S', 1), ('P', 4), ('X', 5)] [('P', 3), ('S', 1), ('P', 4)] [('X', 5)] :=
  ⟨rfl, by decide, by decide⟩

example : lastWord (exEnv exRead exClock) 'P' [('P', (3 : Int)), ('S', 1), ('P', 4)] (-1) = 4 := by decide

/-- M9 with mist on output 1 and flood on 2. -/
example : ((special (exEnv exRead exClock) 'M' 9 [('X', 5)] (exState.setHw
    { exState.hw with auxBits := 7, auxOf := fun o => if o = .mist then 1 else if o = .flood then 2 else 0 })).map
    fun r => (r.1, r.2.hw.auxBits)) = some (some [('X', 5)], 4#16) := by decide +kernel

end BeagleG.Machine
