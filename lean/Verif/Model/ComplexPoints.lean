import Verif.Model.PathUtilities
import Verif.Model.ContourPlotter

/-!
# Points given as complex numbers

PathLib/PathUtilities.py:197-200 and PathLib/ContourPlotter.py:229-275 accept points that are Python complex numbers. The other model
files have points that are pairs; here a point is one or the other, and the functions that take points apart are modelled again for such
points.
-/

namespace PathLib

/-- A point as a caller may pass it: a tuple of two numbers or a complex number. -/
inductive AnyPt (K : Type)
  | tuple (p : Pt K)
  | complex (re im : K)
  deriving DecidableEq

namespace AnyPt

section
variable {K : Type} [Field K] [LinearOrder K]

/-- PathLib/PathUtilities.py:197-200 `pointXY`. -/
def pointXY : AnyPt K → Pt K
  | .complex re im => (re, im)
  | .tuple p => p

/-- The statement `x, y = point`; a complex number cannot be unpacked. -/
def unpack : AnyPt K → Py (Pt K)
  | .complex _ _ => .error .typeError
  | .tuple p => .ok p

/-- The expressions `point.real, point.imag`; a tuple has no such attributes. -/
def realImag : AnyPt K → Py (Pt K)
  | .complex re im => .ok (re, im)
  | .tuple _ => .error .attributeError

/-- PathLib/PathUtilities.py:208-215 `endPoints`. -/
def endPoints (segment : List (AnyPt K)) : Py (K × K × K × K) := do
  let p0 := pointXY (← pyGet segment 0)
  let p1 := pointXY (← pyGet segment (-1))
  return (p0.1, p0.2, p1.1, p1.2)

/-- PathLib/PathUtilities.py:217-223 `getDeltas`. -/
def getDeltas (segment : List (AnyPt K)) : Py (K × K) := do
  let (p0x, p0y, p1x, p1y) ← endPoints segment
  return (p1x - p0x, p1y - p0y)

/-- PathLib/PathUtilities.py:225-230 `isVerticalLine`. -/
def isVerticalLine (segment : List (AnyPt K)) : Py Bool := do
  let d ← getDeltas segment
  return decide (segment.length = 2) && decide (d.1 = 0)

/-- PathLib/PathUtilities.py:232-237 `isHorizontalLine`. -/
def isHorizontalLine (segment : List (AnyPt K)) : Py Bool := do
  let d ← getDeltas segment
  return decide (segment.length = 2) && decide (d.2 = 0)

/-- PathLib/PathUtilities.py:239-241 `isDiagonalLine`. -/
def isDiagonalLine (segment : List (AnyPt K)) : Py Bool := do
  let d ← getDeltas segment
  return decide (segment.length = 2) && decide (d.1 ≠ 0) && decide (d.2 ≠ 0)

/-- PathLib/PathUtilities.py:249-257 `slope`. -/
def slope (segment : List (AnyPt K)) : Py (PathUtilities.Slope K) := do
  let d ← getDeltas segment
  if d.1 = 0 then return .inf
  return .fin (d.2 / d.1)

/-- PathLib/PathUtilities.py:274-280 `midpoint`. -/
def midpoint (line : List (AnyPt K)) : Py (Pt K) := do
  let (p0x, p0y, p1x, p1y) ← endPoints line
  return ((p0x + p1x) / 2, (p0y + p1y) / 2)

/-- PathLib/PathUtilities.py:28-48 `BoundsRectangle.__init__(*points)`. -/
def bounds (points : List (AnyPt K)) : Py (BoundsRectangle K) :=
  points.foldlM (fun (b : BoundsRectangle K) (point : AnyPt K) => do return b.addPoint (← unpack point)) BoundsRectangle.init

/-- PathLib/PathUtilities.py:137-143 `enclosesPoint`. -/
def enclosesPoint (b : BoundsRectangle K) (point : AnyPt K) : Py Bool := do return b.enclosesPoint (← unpack point)

/-- PathLib/BezierUtilities.py:136-141 `lli4`. -/
def lli4 (p1 p2 p3 p4 : AnyPt K) : Py (Option (Pt K)) := do
  let q1 ← unpack p1
  let q2 ← unpack p2
  let q3 ← unpack p3
  let q4 ← unpack p4
  return butils.lli8 q1.1 q1.2 q2.1 q2.2 q3.1 q3.2 q4.1 q4.2

/-- PathLib/BezierUtilities.py:144-145 `lli`. -/
def lli (l1 l2 : List (AnyPt K)) : Py (Option (Pt K)) := do
  lli4 (← pyGet l1 0) (← pyGet l1 1) (← pyGet l2 0) (← pyGet l2 1)

/-- PathLib/PathUtilities.py:290-296, the rest of `intersectionPoint` after `lli`. -/
def clip (l1 l2 : List (AnyPt K)) (intersection : Pt K) : Py (Option (Pt K)) := do
  let b1 ← bounds l1
  let b2 ← bounds l2
  return if b1.enclosesPoint intersection && b2.enclosesPoint intersection then some intersection else none

/-- PathLib/PathUtilities.py:282-296 `intersectionPoint`. -/
def intersectionPoint (l1 l2 : List (AnyPt K)) : Py (Option (Pt K)) := do
  match ← lli l1 l2 with
  | none => return none
  | some intersection => clip l1 l2 intersection

/-- PathLib/PathUtilities.py:306-315 `pointOnLine`. -/
def pointOnLine (point : AnyPt K) (line : List (AnyPt K)) : Py Bool := do
  let b ← bounds line
  if ← enclosesPoint b point then
    let s1 ← slope line
    let s2 ← slope [← pyGet line 0, point]
    return decide (s1 = s2)
  else return false

/-- PathLib/Transform.py:275-296 `applyToPoint`; the complex case is commented out in the code. -/
def applyToPoint (T : Transform K) (point : AnyPt K) : Py (Pt K) := do
  let p ← unpack point
  let rp ← Transform.multiplyRowByMatrix [p.1, p.2, 1] T.transform
  let rx ← pdiv (← pyGet rp 0) (← pyGet rp 2)
  let ry ← pdiv (← pyGet rp 1) (← pyGet rp 2)
  return (rx, ry)

/-- PathLib/Transform.py:298-306 `applyToSegment`. -/
def applyToSegment (T : Transform K) (segment : List (AnyPt K)) : Py (Segment K) :=
  segment.mapM (applyToPoint T)

end

section real

/-- PathLib/PathUtilities.py:243-247 `length`. -/
noncomputable def length (segment : List (AnyPt ℝ)) : Py ℝ := do
  let d ← getDeltas segment
  return butils.hypot d.1 d.2

/-- PathLib/PathUtilities.py:259-264 `slopeAngle`. -/
noncomputable def slopeAngle (segment : List (AnyPt ℝ)) : Py ℝ := do
  let d ← getDeltas segment
  return PathUtilities.degrees (butils.atan2 |d.1| |d.2|)

/-- PathLib/PathUtilities.py:270-272 `rawSlopeAngle`. -/
noncomputable def rawSlopeAngle (segment : List (AnyPt ℝ)) : Py ℝ := do
  let d ← getDeltas segment
  return PathUtilities.degrees (butils.atan2 d.2 d.1)

end real

section plot
variable {K C : Type} [Field K] [LinearOrder K]
open ContourPlotter

/-- PathLib/ContourPlotter.py:246-251 and 268-272: the colour of the `i`-th circle is made the current one. -/
def setColor (colors : List C) (fill : Bool) (i : Nat) (s : ContourPlotter K C) : ContourPlotter K C :=
  match colors[i % colors.length]? with
  | some c => if fill then { s with fill := { s.fill with color := c } } else { s with stroke := { s.stroke with color := c } }
  | none => s

/-- PathLib/ContourPlotter.py:252 and 273, `drawCircle` at a point. -/
def drawCircle (radius : K) (fill : Bool) (p : Pt K) (s : ContourPlotter K C) : ContourPlotter K C :=
  { s with content := s.content ++ [if fill then Item.disc p radius s.fill else Item.circle p radius s.stroke] }

/-- PathLib/ContourPlotter.py:244-252: the loop of `drawPointsAsCircles`; the point is taken apart before its colour is set. -/
def circlesLoop (getXY : AnyPt K → Py (Pt K)) (radius : K) (colors : List C) (fill : Bool) (i : Nat) (points : List (AnyPt K))
    (s : ContourPlotter K C) : Py Unit × ContourPlotter K C :=
  match points with
  | [] => (.ok (), s)
  | point :: points =>
    match getXY point with
    | .error e => (.error e, s)
    | .ok p => circlesLoop getXY radius colors fill (i + 1) points (drawCircle radius fill p (setColor colors fill i s))

/-- PathLib/ContourPlotter.py:266-273: the loop of `drawComplexPointsAsCircles`; the colour is set before the point is taken apart. -/
def complexCirclesLoop (radius : K) (colors : List C) (fill : Bool) (i : Nat) (points : List (AnyPt K)) (s : ContourPlotter K C) :
    Py Unit × ContourPlotter K C :=
  match points with
  | [] => (.ok (), s)
  | point :: points =>
    match realImag point with
    | .error e => (.error e, setColor colors fill i s)
    | .ok p => complexCirclesLoop radius colors fill (i + 1) points (drawCircle radius fill p (setColor colors fill i s))

/-- PathLib/ContourPlotter.py:235-239 and 257-261: the first colour is set before the loop. -/
def firstColor (colors : List C) (fill : Bool) (s : ContourPlotter K C) : ContourPlotter K C :=
  match colors with
  | [] => s
  | c :: _ => if fill then { s with fill := { s.fill with color := c } } else pushStrokeAttributes none (some c) none none s

/-- PathLib/ContourPlotter.py:254 and 275; not reached when the loop raises. -/
def finish (colors : List C) (fill : Bool) (r : Py Unit × ContourPlotter K C) : Py Unit × ContourPlotter K C :=
  match r with
  | (.error e, s) => (.error e, s)
  | (.ok (), s) => if colors ≠ [] ∧ fill = false then popStrokeAtributes s else (.ok (), s)

/-- PathLib/ContourPlotter.py:230-233: the first point decides how all points are taken apart. -/
def getXY : AnyPt K → AnyPt K → Py (Pt K)
  | .complex _ _ => realImag
  | .tuple _ => unpack

/-- PathLib/ContourPlotter.py:229-254 `drawPointsAsCircles`; `colors=None` is the empty list. -/
def drawPointsAsCircles (points : List (AnyPt K)) (radius : K) (colors : List C) (fill : Bool) (s : ContourPlotter K C) :
    Py Unit × ContourPlotter K C :=
  match points with
  | [] => (.error .indexError, s)
  | first :: _ => finish colors fill (circlesLoop (getXY first) radius colors fill 0 points (firstColor colors fill s))

/-- PathLib/ContourPlotter.py:256-275 `drawComplexPointsAsCircles`. -/
def drawComplexPointsAsCircles (points : List (AnyPt K)) (radius : K) (colors : List C) (fill : Bool) (s : ContourPlotter K C) :
    Py Unit × ContourPlotter K C :=
  finish colors fill (complexCirclesLoop radius colors fill 0 points (firstColor colors fill s))

end plot

end AnyPt

end PathLib
