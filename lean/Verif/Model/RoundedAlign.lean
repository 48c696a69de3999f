import Verif.Model.Bezier
import Verif.Model.RoundedGeometry

/-!
# Aligning and the attributes of a new curve, in rounded arithmetic

`Model/BezierCore.lean` aligns control points exactly, apart from the `round(..., 15)` of the code; here every arithmetic operation is
followed by a rounding, and the functions of the `math` module are a parameter: `Libm`. No overflow, no underflow, no signed zero.
-/

namespace PathLib

/-- The functions of Python's `math` module which `align` calls, and `math.pi`. -/
structure Libm where
  atan2 : ℝ → ℝ → ℝ
  sin : ℝ → ℝ
  cos : ℝ → ℝ
  pi : ℝ

/-- The functions themselves, without rounding. -/
noncomputable def Libm.exact : Libm := ⟨butils.atan2, Real.sin, Real.cos, Real.pi⟩

namespace Rounded

open Spec Bezier

/-- `math.degrees`: CPython multiplies by the constant `180.0 / pi`. -/
noncomputable def degrees (R : Rounding) (L : Libm) (x : ℝ) : ℝ := R.mul x (R.div 180 L.pi)

/-- `math.radians`: CPython multiplies by the constant `pi / 180.0`. -/
noncomputable def radians (R : Rounding) (L : Libm) (x : ℝ) : ℝ := R.mul x (R.div L.pi 180)

/-- PathLib/Transform.py:55-61 `Transform.sin`: the decimal that `round` chooses becomes the nearest number of the format. -/
noncomputable def sin (R : Rounding) (L : Libm) (degrees : ℝ) : ℝ := R.rnd (Transform.round15 (L.sin (radians R L degrees)))

/-- PathLib/Transform.py:64-70 `Transform.cos`. -/
noncomputable def cos (R : Rounding) (L : Libm) (degrees : ℝ) : ℝ := R.rnd (Transform.round15 (L.cos (radians R L degrees)))

/-- PathLib/Transform.py:103-112 `_translateMatrix`. -/
def translateMatrix (R : Rounding) (fromPoint toPoint : Pt ℝ) : Mat ℝ :=
  let tx := R.sub toPoint.1 fromPoint.1
  let ty := R.sub toPoint.2 fromPoint.2
  Transform.matrix 1 0 0 1 tx ty 0 0 1

/-- PathLib/Transform.py:131-139 `_rotationMatrix`. Changing the sign is exact. -/
noncomputable def rotationMatrix (R : Rounding) (L : Libm) (degrees : ℝ) (ccw : Bool) : Mat ℝ :=
  Transform.rotationMatrixOf (sin R L degrees) (cos R L degrees) ccw

/-- PathLib/Transform.py:205-208 `moveAndRotate`. -/
noncomputable def moveAndRotate (R : Rounding) (L : Libm) (fromPoint toPoint : Pt ℝ) (degrees : ℝ) : Py (Transform ℝ) := do
  let m1 := translateMatrix R fromPoint toPoint
  let m2 := rotationMatrix R L degrees true
  return ⟨← multiplyMatrixByMatrix R m1 m2⟩

/-- PathLib/PathUtilities.py:270-272 `rawSlopeAngle`. -/
noncomputable def rawSlopeAngle (R : Rounding) (L : Libm) (segment : Segment ℝ) : Py ℝ := do
  let d ← getDeltas R segment
  return degrees R L (L.atan2 d.2 d.1)

/-- PathLib/Bezier.py:295-299 `_align`; Transform.py:298-306 `applyToSegment`. -/
noncomputable def alignPoints (R : Rounding) (L : Libm) (points segment : Segment ℝ) : Py (Segment ℝ) := do
  let angle ← rawSlopeAngle R L segment
  let transform ← moveAndRotate R L (← pyGet segment 0) (0, 0) (-angle)
  points.mapM fun (p : Pt ℝ) => applyToPoint R transform p

/-- PathLib/BezierUtilities.py:211-222 `angle`. -/
noncomputable def angleOf (R : Rounding) (L : Libm) (o v1 v2 : Pt ℝ) : ℝ :=
  let dx1 := R.sub v1.1 o.1
  let dy1 := R.sub v1.2 o.2
  let dx2 := R.sub v2.1 o.1
  let dy2 := R.sub v2.2 o.2
  let cross := R.sub (R.mul dx1 dy2) (R.mul dy1 dx2)
  let dot := R.add (R.mul dx1 dx2) (R.mul dy1 dy2)
  L.atan2 cross dot

/-- PathLib/Bezier.py:41-63 `Bezier.__init__`, for control points that are floats already. The literal 0.0001 is a float, too. -/
noncomputable def new (R : Rounding) (L : Libm) (ps : Segment ℝ) : Py Bezier := do
  let direction ← computeDirection ps
  let first ← pyGet ps 0
  let last ← pyGet ps (-1)
  let aligned ← alignPoints R L ps [first, last]
  let linear := decide ((aligned.filter fun x => decide (|x.2| > R.rnd (1 / 10000))).length = 0)
  let angle := angleOf R L first last (← pyGet ps 1)
  return { controlPoints := ps, t1 := 0, t2 := 1, direction := direction, linear := linear, clockwise := decide (angle > 0) }

end Rounded
end PathLib
