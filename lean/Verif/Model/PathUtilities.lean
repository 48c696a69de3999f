import Verif.Model.Transform
import Verif.Model.BezierUtilities

/-!
# Model of PathLib/PathUtilities.py

Points are tuples; points given as complex numbers (lines 197-200) are in `Model/ComplexPoints.lean`.
-/

namespace PathLib

/-- PathLib/PathUtilities.py:18-48: the four attributes of a `BoundsRectangle`. -/
structure BoundsRectangle (K : Type) where
  left : K
  bottom : K
  right : K
  top : K
  deriving DecidableEq

/-- PathLib/PathUtilities.py:23-26, the values returned by `relationTo`. -/
inductive Relation
  | encloses
  | enclosed
  | intersects
  | separate
  deriving DecidableEq, Repr

namespace BoundsRectangle
variable {K : Type} [Field K] [LinearOrder K]

/-- PathLib/PathUtilities.py:35-36, the initial values. -/
def init : BoundsRectangle K := { left := 32768, bottom := 32768, right := -32768, top := -32768 }

/-- PathLib/PathUtilities.py:39-43, one iteration of the loop. -/
def addPoint (b : BoundsRectangle K) (p : Pt K) : BoundsRectangle K :=
  { left := pyMin b.left p.1
    right := pyMax b.right p.1
    bottom := pyMin b.bottom p.2
    top := pyMax b.top p.2 }

/-- PathLib/PathUtilities.py:28-48 `BoundsRectangle.__init__(*points)`. -/
def new (points : List (Pt K)) : BoundsRectangle K := points.foldl addPoint init

/-- PathLib/PathUtilities.py:76-80 `width`. -/
def width (b : BoundsRectangle K) : K := b.right - b.left

/-- PathLib/PathUtilities.py:83-87 `height`. -/
def height (b : BoundsRectangle K) : K := b.top - b.bottom

/-- PathLib/PathUtilities.py:90-94 `area`. -/
def area (b : BoundsRectangle K) : K := b.width * b.height

/-- PathLib/PathUtilities.py:97-101 `diagonal`. -/
def diagonal (b : BoundsRectangle K) : Segment K := [(b.left, b.bottom), (b.right, b.top)]

/-- PathLib/PathUtilities.py:104-109 `contour`. -/
def contour (b : BoundsRectangle K) : Contour K :=
  let p0 := (b.left, b.bottom)
  let p1 := (b.left, b.top)
  let p2 := (b.right, b.top)
  let p3 := (b.right, b.bottom)
  [[p0, p1], [p1, p2], [p2, p3], [p3, p0]]

/-- PathLib/PathUtilities.py:119-123 `points`. -/
def points (b : BoundsRectangle K) : K × K × K × K := (b.left, b.bottom, b.right, b.top)

/-- PathLib/PathUtilities.py:125-129 `yFromBottom`. -/
def yFromBottom (b : BoundsRectangle K) (percent : K) : K := b.bottom + b.height * percent

/-- PathLib/PathUtilities.py:131-135 `xFromLeft`. -/
def xFromLeft (b : BoundsRectangle K) (percent : K) : K := b.left + b.width * percent

/-- PathLib/PathUtilities.py:137-143 `enclosesPoint`. -/
def enclosesPoint (b : BoundsRectangle K) (point : Pt K) : Bool :=
  (decide (b.left ≤ point.1) && decide (point.1 ≤ b.right)) &&
  (decide (b.bottom ≤ point.2) && decide (point.2 ≤ b.top))

/-- PathLib/PathUtilities.py:145-150 `encloses` (tests the two ends of the other diagonal). -/
def encloses (b other : BoundsRectangle K) : Bool :=
  b.enclosesPoint (other.left, other.bottom) && b.enclosesPoint (other.right, other.top)

/-- PathLib/PathUtilities.py:152-156 `crossesX`. -/
def crossesX (b : BoundsRectangle K) (x : K) : Bool := decide (b.left ≤ x) && decide (x ≤ b.right)

/-- PathLib/PathUtilities.py:158-162 `crossesY`. -/
def crossesY (b : BoundsRectangle K) (y : K) : Bool := decide (b.bottom ≤ y) && decide (y ≤ b.top)

/-- PathLib/PathUtilities.py:164-173 `union`. -/
def union (b other : BoundsRectangle K) : BoundsRectangle K :=
  let newLeft := pyMin b.left other.left
  let newTop := pyMax b.top other.top
  let newRight := pyMax b.right other.right
  let newBottom := pyMin b.bottom other.bottom
  new [(newLeft, newBottom), (newRight, newTop)]

/-- PathLib/PathUtilities.py:175-185 `intersection`. -/
def intersection (b other : BoundsRectangle K) : Option (BoundsRectangle K) :=
  let newLeft := pyMax b.left other.left
  let newTop := pyMin b.top other.top
  let newRight := pyMin b.right other.right
  let newBottom := pyMax b.bottom other.bottom
  if newRight < newLeft ∨ newTop < newBottom then none
  else some (new [(newLeft, newBottom), (newRight, newTop)])

/-- PathLib/PathUtilities.py:187-195 `relationTo`. The truth value of `self.intersection(other)` is
"is not None", because `BoundsRectangle` defines neither `__bool__` nor `__len__`. -/
def relationTo (b other : BoundsRectangle K) : Relation :=
  if b.encloses other then .encloses
  else if other.encloses b then .enclosed
  else if (b.intersection other).isSome then .intersects
  else .separate

/-- PathLib/PathUtilities.py:51-59 `fromContour`. -/
def fromContour (contour : Contour K) : BoundsRectangle K :=
  contour.foldl (fun bounds segment => bounds.union (new segment)) (new [])

/-- PathLib/PathUtilities.py:62-70 `fromCoutours` (sic). -/
def fromContours (contours : List (Contour K)) : BoundsRectangle K :=
  contours.foldl (fun bounds contour => bounds.union (fromContour contour)) (new [])

end BoundsRectangle

namespace PathUtilities

section field
variable {K : Type} [Field K] [LinearOrder K]

/-- PathLib/PathUtilities.py:202-206 `minMax`. -/
def minMax (a b : K) : K × K := if a ≤ b then (a, b) else (b, a)

/-- PathLib/PathUtilities.py:208-215 `endPoints`: (p0x, p0y, p1x, p1y). -/
def endPoints (segment : Segment K) : Py (K × K × K × K) := do
  let p0 ← pyGet segment 0
  let p1 ← pyGet segment (-1)
  return (p0.1, p0.2, p1.1, p1.2)

/-- PathLib/PathUtilities.py:217-223 `getDeltas`. -/
def getDeltas (segment : Segment K) : Py (K × K) := do
  let (p0x, p0y, p1x, p1y) ← endPoints segment
  return (p1x - p0x, p1y - p0y)

/-- PathLib/PathUtilities.py:225-230 `isVerticalLine`. -/
def isVerticalLine (segment : Segment K) : Py Bool := do
  let d ← getDeltas segment
  return decide (segment.length = 2) && decide (d.1 = 0)

/-- PathLib/PathUtilities.py:232-237 `isHorizontalLine`. -/
def isHorizontalLine (segment : Segment K) : Py Bool := do
  let d ← getDeltas segment
  return decide (segment.length = 2) && decide (d.2 = 0)

/-- PathLib/PathUtilities.py:239-241 `isDiagonalLine`. -/
def isDiagonalLine (segment : Segment K) : Py Bool := do
  let d ← getDeltas segment
  return decide (segment.length = 2) && decide (d.1 ≠ 0) && decide (d.2 ≠ 0)

/-- The values of `slope`: a number, or `math.inf`. -/
inductive Slope (K : Type)
  | fin (k : K)
  | inf
  deriving DecidableEq

/-- PathLib/PathUtilities.py:249-257 `slope`. -/
def slope (segment : Segment K) : Py (Slope K) := do
  let d ← getDeltas segment
  if d.1 = 0 then return .inf
  return .fin (d.2 / d.1)

/-- PathLib/PathUtilities.py:274-280 `midpoint`. -/
def midpoint (line : Segment K) : Py (Pt K) := do
  let (p0x, p0y, p1x, p1y) ← endPoints line
  return ((p0x + p1x) / 2, (p0y + p1y) / 2)

/-- PathLib/PathUtilities.py:282-296 `intersectionPoint`. -/
def intersectionPoint (l1 l2 : Segment K) : Py (Option (Pt K)) := do
  match ← butils.lli l1 l2 with
  | none => return none
  | some intersection =>
    let b1 := BoundsRectangle.new l1
    let b2 := BoundsRectangle.new l2
    return if b1.enclosesPoint intersection && b2.enclosesPoint intersection
      then some intersection else none

/-- PathLib/PathUtilities.py:299-303 `flatten`. -/
def flatten (contours : List (Contour K)) : Contour K :=
  contours.flatMap fun contour => contour.map fun segment => segment

/-- PathLib/PathUtilities.py:306-315 `pointOnLine`; `and` short-circuits. -/
def pointOnLine (point : Pt K) (line : Segment K) : Py Bool := do
  let bounds := BoundsRectangle.new line
  if bounds.enclosesPoint point then
    let s1 ← slope line
    let s2 ← slope [← pyGet line 0, point]
    return decide (s1 = s2)
  else return false

/-- PathLib/PathUtilities.py:354-358 `toMicros`. -/
def toMicros (funits : K) (unitsPerEM : Int) : Py K := pdiv (funits * 1000) (unitsPerEM : K)

end field

/-- PathLib/PathUtilities.py:111-116 `BoundsRectangle.centerPoint`. -/
def centerPoint {K : Type} [Field K] [LinearOrder K] (b : BoundsRectangle K) : Py (Pt K) :=
  midpoint b.diagonal

section real

/-- PathLib/PathUtilities.py:243-247 `length`. -/
noncomputable def length (segment : Segment ℝ) : Py ℝ := do
  let d ← getDeltas segment
  return butils.hypot d.1 d.2

/-- `math.degrees`. -/
noncomputable def degrees (x : ℝ) : ℝ := x * 180 / Real.pi

/-- PathLib/PathUtilities.py:259-264 `slopeAngle`. -/
noncomputable def slopeAngle (segment : Segment ℝ) : Py ℝ := do
  let d ← getDeltas segment
  return degrees (butils.atan2 |d.1| |d.2|)

/-- PathLib/PathUtilities.py:270-272 `rawSlopeAngle`. -/
noncomputable def rawSlopeAngle (segment : Segment ℝ) : Py ℝ := do
  let d ← getDeltas segment
  return degrees (butils.atan2 d.2 d.1)

/-- PathLib/PathUtilities.py:318-325 `rotatePointAbout`. -/
noncomputable def rotatePointAbout (point about : Pt ℝ) (deg : ℝ) (ccw : Bool) : Py (Pt ℝ) := do
  let rt ← Transform.rotationAbout about deg ccw
  rt.applyToPoint point

/-- PathLib/PathUtilities.py:327-334 `rotateSegmentAbout`. -/
noncomputable def rotateSegmentAbout (segment : Segment ℝ) (about : Pt ℝ) (deg : ℝ) (ccw : Bool) :
    Py (Segment ℝ) := do
  let rt ← Transform.rotationAbout about deg ccw
  rt.applyToSegment segment

/-- PathLib/PathUtilities.py:336-343 `rotateContourAbout`. -/
noncomputable def rotateContourAbout (contour : Contour ℝ) (about : Pt ℝ) (deg : ℝ) (ccw : Bool) :
    Py (Contour ℝ) := do
  let rt ← Transform.rotationAbout about deg ccw
  rt.applyToContour contour

/-- PathLib/PathUtilities.py:345-352 `rotateContoursAbout`. -/
noncomputable def rotateContoursAbout (contours : List (Contour ℝ)) (about : Pt ℝ) (deg : ℝ)
    (ccw : Bool) : Py (List (Contour ℝ)) := do
  let rt ← Transform.rotationAbout about deg ccw
  rt.applyToContours contours

end real

end PathUtilities

end PathLib
