import Mathlib.Data.Rat.Floor
import Mathlib.Algebra.Order.Field.Basic
import Verif.Hershey.Font

/-!
# Text in the Hershey font

Model of /repo/src/hershey.cc lines 38-88: `TextWidth` and `DrawText`.

Simplifications: `float` is ℚ (exact).  A character is an integer, so that both signs of `char` are
covered: a byte from 128 on is negative or above 126 and skipped in both cases.  The function `draw`
that is called for every point is replaced by the list of its calls.  A read outside of
`hershey_simplex` or of `operations` is `none`.
-/

namespace BeagleG.Hershey

/-- `hershey_simplex[c - 32]` (hershey.cc lines 50 and 72). -/
def glyphAt (c : Int) : Option Glyph :=
  if 0 ≤ c - 32 then simplex[(c - 32).toNat]? else none

/-- `glyph.operations[op]` (hershey.cc line 75): places without initialiser are zero. -/
def Glyph.operation (g : Glyph) (op : Nat) : Option (Int × Int) :=
  if op < capacity then some (g.ops.getD op (0, 0)) else none

/-- `c < 32 || c > 126` (hershey.cc lines 49 and 71). -/
def skipped (c : Int) : Bool := decide (c < 32) || decide (126 < c)

/-- One round of the loop of `TextWidth` (hershey.cc lines 43-52) on `(longest_line, w)`. -/
def widthStep (size : ℚ) (st : ℚ × ℚ) (c : Int) : Option (ℚ × ℚ) :=
  let st := if c = 10 then (max st.1 st.2, 0) else st
  if skipped c then some st
  else (glyphAt c).map fun g => (st.1, st.2 + size * g.width)

/-- `TextWidth` (hershey.cc lines 39-54). -/
def textWidth (str : List Int) (size : ℚ) : Option ℚ :=
  (str.foldlM (widthStep (size / 25)) (0, 0)).map fun st => max st.1 st.2

/-- A call of `draw` (hershey.cc line 80). -/
structure Call where
  line : Bool
  x : ℚ
  y : ℚ
deriving DecidableEq, Repr

/-- `TextAlign` (hershey.h line 31). -/
inductive Align where
  | left | center | right
deriving DecidableEq, Repr

/-- The loop over the operations of a glyph (hershey.cc lines 74-82) from operation `op` on, with
`left` operations to go.  `ox` is `tx + x + dx`, `oy` is `ty + y`. -/
def drawOps (g : Glyph) (ox oy size : ℚ) : (left op : Nat) → (penUp : Bool) → Option (List Call)
  | 0, _, _ => some []
  | left + 1, op, penUp =>
    (g.operation op).bind fun coor =>
      if coor.1 = -1 ∧ coor.2 = -1 then drawOps g ox oy size left (op + 1) true
      else
        (drawOps g ox oy size left (op + 1) false).map fun rest =>
          ⟨!penUp, ox + size * coor.1, oy + size * coor.2⟩ :: rest

/-- The loop over the characters (hershey.cc lines 65-86) from position `x`, `y` on; `size` is
already divided by 25. -/
def drawChars (ox oy size : ℚ) : (x y : ℚ) → List Int → Option (List Call)
  | _, _, [] => some []
  | x, y, c :: cs =>
    let y := if c = 10 then y - 30 * size else y
    let x := if c = 10 then 0 else x
    if skipped c then drawChars ox oy size x y cs
    else
      (glyphAt c).bind fun g =>
        (drawOps g (ox + x) (oy + y) size g.count 0 true).bind fun first =>
          (drawChars ox oy size (x + size * g.width) y cs).map fun rest => first ++ rest

/-- The displacement of the alignment (hershey.cc lines 59-63). -/
def alignBy (align : Align) (str : List Int) (size : ℚ) : Option ℚ :=
  match align with
  | .left => some 0
  | .right => (textWidth str size).map fun w => -w
  | .center => (textWidth str size).map fun w => -w / 2

/-- `DrawText` (hershey.cc lines 56-85). -/
def drawText (str : List Int) (tx ty : ℚ) (align : Align) (size : ℚ) : Option (List Call) :=
  (alignBy align str size).bind fun dx => drawChars (tx + dx) ty (size / 25) 0 0 str

end BeagleG.Hershey
