import Verif.Py
import Mathlib.Analysis.SpecialFunctions.Trigonometric.Basic
import Mathlib.Algebra.Order.Floor.Ring
import Mathlib.Algebra.Order.Round

/-!
# Model of PathLib/Transform.py

Matrices are lists of rows, as in the code (`Row = list[float]`, `Matrix = list[Row]`,
PathLib/Transform.py:12-13). Everything that needs only field operations is stated over an
arbitrary field `K`; rotations are over `ℝ`.
-/

namespace PathLib

/-- PathLib/Transform.py:12 -/
abbrev Row (K : Type) := List K
/-- PathLib/Transform.py:13 -/
abbrev Mat (K : Type) := List (Row K)

/-- A `Transform` object: its only attribute is `_transform` (PathLib/Transform.py:72-76). -/
structure Transform (K : Type) where
  transform : Mat K
  deriving DecidableEq

namespace Transform

section field
variable {K : Type} [Field K]

/-- PathLib/Transform.py:20-30 `multiplyRowByMatrix`. The tuple unpackings raise `ValueError`
unless the row has 3 entries and the matrix is 3x3. -/
def multiplyRowByMatrix (row : Row K) (matrix : Mat K) : Py (Row K) :=
  match row, matrix with
  | [r1, r2, r3], [[m11, m12, m13], [m21, m22, m23], [m31, m32, m33]] =>
    .ok [r1 * m11 + r2 * m21 + r3 * m31,
         r1 * m12 + r2 * m22 + r3 * m32,
         r1 * m13 + r2 * m23 + r3 * m33]
  | _, _ => .error .valueError

/-- PathLib/Transform.py:33-41 `multiplyMatrixByMatrix`. -/
def multiplyMatrixByMatrix (m1 m2 : Mat K) : Py (Mat K) :=
  m1.mapM fun row => multiplyRowByMatrix row m2

/-- PathLib/Transform.py:44-52 `concatenateMatrices`; `matrices[0]` raises `IndexError` when
called without arguments. -/
def concatenateMatrices (matrices : List (Mat K)) : Py (Mat K) :=
  match matrices with
  | [] => .error .indexError
  | m :: ms => ms.foldlM multiplyMatrixByMatrix m

/-- PathLib/Transform.py:72-76 `Transform.__init__(*matrices)`. -/
def new (matrices : List (Mat K)) : Py (Transform K) := do
  return ⟨← concatenateMatrices matrices⟩

/-- PathLib/Transform.py:79-86 `_matrix` (all nine arguments explicit). -/
def matrix (a b c d m n p q s : K) : Mat K :=
  [[a, b, p],
   [c, d, q],
   [m, n, s]]

/-- PathLib/Transform.py:89-93 `_identityMatrix`: the defaults of `_matrix`. -/
def identityMatrix : Mat K := matrix 1 0 0 1 0 0 0 0 1

/-- PathLib/Transform.py:96-100 `_scaleMatrix`. -/
def scaleMatrix (sx sy : K) : Mat K := matrix sx 0 0 sy 0 0 0 0 1

/-- PathLib/Transform.py:103-112 `_translateMatrix`. -/
def translateMatrix (fromPoint toPoint : Pt K) : Mat K :=
  let tx := toPoint.1 - fromPoint.1
  let ty := toPoint.2 - fromPoint.2
  matrix 1 0 0 1 tx ty 0 0 1

/-- PathLib/Transform.py:115-119 `_shearMatrix`. -/
def shearMatrix (sx sy : K) : Mat K := matrix 1 sy sx 1 0 0 0 0 1

/-- PathLib/Transform.py:122-128 `_mirrorMatrix`. -/
def mirrorMatrix (xAxis yAxis : Bool) : Mat K :=
  let a : K := if yAxis then -1 else 1
  let d : K := if xAxis then -1 else 1
  matrix a 0 0 d 0 0 0 0 1

/-- PathLib/Transform.py:139, the matrix built by `_rotationMatrix` from `st`, `ct`. -/
def rotationMatrixOf (st ct : K) (ccw : Bool) : Mat K :=
  if ccw then matrix ct st (-st) ct 0 0 0 0 1
  else matrix ct (-st) st ct 0 0 0 0 1

/-- PathLib/Transform.py:142-146 `_perspectiveMatrix`. -/
def perspectiveMatrix (p q s : K) : Mat K := matrix 1 0 0 1 0 0 p q s

/-- PathLib/Transform.py:156-161 `translate`. -/
def translate (fromPoint toPoint : Pt K) : Py (Transform K) :=
  new [translateMatrix fromPoint toPoint]

/-- PathLib/Transform.py:164-169 `scale`. -/
def scale (sx sy : K) : Py (Transform K) := new [scaleMatrix sx sy]

/-- PathLib/Transform.py:172-177 `shear`. -/
def shear (sx sy : K) : Py (Transform K) := new [shearMatrix sx sy]

/-- PathLib/Transform.py:180-185 `mirror`. -/
def mirror (xAxis yAxis : Bool) : Py (Transform K) := new [mirrorMatrix xAxis yAxis]

/-- PathLib/Transform.py:197-202 `perspective`. -/
def perspective (p q s : K) : Py (Transform K) := new [perspectiveMatrix p q s]

/-- PathLib/Transform.py:235-254 `mirrorAround`. -/
def mirrorAround (centerPoint : Pt K) (xAxis yAxis : Bool) : Py (Transform K) :=
  let cx := centerPoint.1
  let cy := centerPoint.2
  let ty : K := if xAxis then cy else 0
  let tx : K := if yAxis then cx else 0
  let mirrorPoint : Pt K := (cx - tx, cy - ty)
  let m1 := translateMatrix centerPoint mirrorPoint
  let m2 := mirrorMatrix xAxis yAxis
  let m3 := translateMatrix mirrorPoint centerPoint
  new [m1, m2, m3]

/-- PathLib/Transform.py:257-273 `perspectiveFrom` (`_perspectiveMatrix(p, q)` has `s = 1`). -/
def perspectiveFrom (centerPoint : Pt K) (p q : K) : Py (Transform K) :=
  let origin : Pt K := (0, 0)
  let m1 := translateMatrix centerPoint origin
  let m2 := perspectiveMatrix p q 1
  let m3 := translateMatrix origin centerPoint
  new [m1, m2, m3]

variable [DecidableEq K]

/-- PathLib/Transform.py:275-296 `applyToPoint`. -/
def applyToPoint (T : Transform K) (point : Pt K) : Py (Pt K) := do
  let rp ← multiplyRowByMatrix [point.1, point.2, 1] T.transform
  let rx ← pdiv (← pyGet rp 0) (← pyGet rp 2)
  let ry ← pdiv (← pyGet rp 1) (← pyGet rp 2)
  return (rx, ry)

/-- PathLib/Transform.py:298-306 `applyToSegment`. -/
def applyToSegment (T : Transform K) (segment : Segment K) : Py (Segment K) :=
  segment.mapM T.applyToPoint

/-- PathLib/Transform.py:309-317 `applyToContour`. -/
def applyToContour (T : Transform K) (contour : Contour K) : Py (Contour K) :=
  contour.mapM T.applyToSegment

/-- PathLib/Transform.py:320-328 `applyToContours`. -/
def applyToContours (T : Transform K) (contours : List (Contour K)) : Py (List (Contour K)) :=
  contours.mapM T.applyToContour

end field

section real

/-- Python 3's `round(x)` to an integer: nearest, ties to even. -/
noncomputable def roundHalfEven (x : ℝ) : ℤ :=
  let f := ⌊x⌋
  let r := x - f
  if r < 1 / 2 then f
  else if 1 / 2 < r then f + 1
  else if f % 2 = 0 then f else f + 1

/-- Python's `round(x, 15)`, used at PathLib/Transform.py:61 and :70 (exact decimal rounding; the
subsequent conversion of the decimal to the nearest double is not modelled). -/
noncomputable def round15 (x : ℝ) : ℝ := (roundHalfEven (x * 10 ^ 15) : ℝ) / 10 ^ 15

/-- `math.radians`. -/
noncomputable def radians (degrees : ℝ) : ℝ := degrees * Real.pi / 180

/-- PathLib/Transform.py:55-61 `Transform.sin`. -/
noncomputable def sin (degrees : ℝ) : ℝ := round15 (Real.sin (radians degrees))

/-- PathLib/Transform.py:64-70 `Transform.cos`. -/
noncomputable def cos (degrees : ℝ) : ℝ := round15 (Real.cos (radians degrees))

/-- PathLib/Transform.py:131-139 `_rotationMatrix`. -/
noncomputable def rotationMatrix (degrees : ℝ) (ccw : Bool) : Mat ℝ :=
  rotationMatrixOf (sin degrees) (cos degrees) ccw

/-- PathLib/Transform.py:188-194 `rotation`. -/
noncomputable def rotation (degrees : ℝ) (ccw : Bool) : Py (Transform ℝ) :=
  new [rotationMatrix degrees ccw]

/-- PathLib/Transform.py:205-208 `moveAndRotate`. -/
noncomputable def moveAndRotate (fromPoint toPoint : Pt ℝ) (degrees : ℝ) : Py (Transform ℝ) :=
  let m1 := translateMatrix fromPoint toPoint
  let m2 := rotationMatrix degrees true
  new [m1, m2]

/-- PathLib/Transform.py:211-214 `rotateAndMove`. -/
noncomputable def rotateAndMove (fromPoint toPoint : Pt ℝ) (degrees : ℝ) : Py (Transform ℝ) :=
  let m1 := rotationMatrix degrees true
  let m2 := translateMatrix fromPoint toPoint
  new [m1, m2]

/-- PathLib/Transform.py:217-232 `rotationAbout`. -/
noncomputable def rotationAbout (about : Pt ℝ) (degrees : ℝ) (ccw : Bool) : Py (Transform ℝ) :=
  let origin : Pt ℝ := (0, 0)
  let m1 := translateMatrix about origin
  let m2 := rotationMatrix degrees ccw
  let m3 := translateMatrix origin about
  new [m1, m2, m3]

end real

end Transform

end PathLib
