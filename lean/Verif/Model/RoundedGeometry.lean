import Verif.Model.Rounded

/-!
# Lines in rounded arithmetic

`Model/PathUtilities.lean` and `Model/BezierUtilities.lean` compute exactly; here every arithmetic operation of the functions on lines is
followed by a rounding. Comparisons, `min` and `max` do not round, so `BoundsRectangle` is taken over as it is. No overflow, no
underflow, no signed zero.
-/

namespace PathLib
namespace Rounded

open Spec

/-- PathLib/BezierUtilities.py:125-133 `lli8`. -/
noncomputable def lli8 (R : Rounding) (x1 y1 x2 y2 x3 y3 x4 y4 : ℝ) : Option (Pt ℝ) :=
  let nx := R.sub (R.mul (R.sub (R.mul x1 y2) (R.mul y1 x2)) (R.sub x3 x4))
    (R.mul (R.sub x1 x2) (R.sub (R.mul x3 y4) (R.mul y3 x4)))
  let ny := R.sub (R.mul (R.sub (R.mul x1 y2) (R.mul y1 x2)) (R.sub y3 y4))
    (R.mul (R.sub y1 y2) (R.sub (R.mul x3 y4) (R.mul y3 x4)))
  let d := R.sub (R.mul (R.sub x1 x2) (R.sub y3 y4)) (R.mul (R.sub y1 y2) (R.sub x3 x4))
  if d = 0 then none else some (R.div nx d, R.div ny d)

/-- PathLib/BezierUtilities.py:136-141 `lli4`. -/
noncomputable def lli4 (R : Rounding) (p1 p2 p3 p4 : Pt ℝ) : Option (Pt ℝ) :=
  lli8 R p1.1 p1.2 p2.1 p2.2 p3.1 p3.2 p4.1 p4.2

/-- PathLib/BezierUtilities.py:144-145 `lli`. -/
noncomputable def lli (R : Rounding) (l1 l2 : Segment ℝ) : Py (Option (Pt ℝ)) := do
  return lli4 R (← pyGet l1 0) (← pyGet l1 1) (← pyGet l2 0) (← pyGet l2 1)

/-- PathLib/PathUtilities.py:282-296 `intersectionPoint`. -/
noncomputable def intersectionPoint (R : Rounding) (l1 l2 : Segment ℝ) : Py (Option (Pt ℝ)) := do
  match ← lli R l1 l2 with
  | none => return none
  | some intersection =>
    let b1 := BoundsRectangle.new l1
    let b2 := BoundsRectangle.new l2
    return if b1.enclosesPoint intersection && b2.enclosesPoint intersection
      then some intersection else none

/-- PathLib/PathUtilities.py:217-223 `getDeltas`. -/
noncomputable def getDeltas (R : Rounding) (segment : Segment ℝ) : Py (ℝ × ℝ) := do
  let (p0x, p0y, p1x, p1y) ← PathUtilities.endPoints segment
  return (R.sub p1x p0x, R.sub p1y p0y)

/-- PathLib/PathUtilities.py:225-230 `isVerticalLine`. -/
noncomputable def isVerticalLine (R : Rounding) (segment : Segment ℝ) : Py Bool := do
  let d ← getDeltas R segment
  return decide (segment.length = 2) && decide (d.1 = 0)

/-- PathLib/PathUtilities.py:232-237 `isHorizontalLine`. -/
noncomputable def isHorizontalLine (R : Rounding) (segment : Segment ℝ) : Py Bool := do
  let d ← getDeltas R segment
  return decide (segment.length = 2) && decide (d.2 = 0)

/-- PathLib/PathUtilities.py:239-241 `isDiagonalLine`. -/
noncomputable def isDiagonalLine (R : Rounding) (segment : Segment ℝ) : Py Bool := do
  let d ← getDeltas R segment
  return decide (segment.length = 2) && decide (d.1 ≠ 0) && decide (d.2 ≠ 0)

/-- PathLib/PathUtilities.py:249-257 `slope`. -/
noncomputable def slope (R : Rounding) (segment : Segment ℝ) : Py (PathUtilities.Slope ℝ) := do
  let d ← getDeltas R segment
  if d.1 = 0 then return .inf
  return .fin (R.div d.2 d.1)

/-- PathLib/PathUtilities.py:306-315 `pointOnLine`; `and` short-circuits. -/
noncomputable def pointOnLine (R : Rounding) (point : Pt ℝ) (line : Segment ℝ) : Py Bool := do
  let bounds := BoundsRectangle.new line
  if bounds.enclosesPoint point then
    let s1 ← slope R line
    let s2 ← slope R [← pyGet line 0, point]
    return decide (s1 = s2)
  else return false

end Rounded
end PathLib
