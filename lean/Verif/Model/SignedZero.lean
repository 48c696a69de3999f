import Verif.Model.RoundedAlign

/-!
# Functions that see the sign of zero

Floating point has two zeros. Python's `math.atan2` tells them apart, and so does everything that asks for the sign of
`BezierUtilities.angle`: `clockwise` and `simple`. Here a number carries a sign of its own. No overflow, no underflow. This is
about coordinates of type `float`: for those of type `int` there is one zero, and `Model/Rounded.lean` is the model.
-/

namespace PathLib

/-- A floating point number: its value and its sign bit. -/
structure Signed where
  val : ℝ
  neg : Bool

namespace Signed

open Spec Bezier

/-- A number whose zero is the positive one. -/
noncomputable def of (x : ℝ) : Signed := ⟨x, decide (x < 0)⟩

/-- A point with such coordinates. -/
noncomputable def pt (p : Pt ℝ) : Signed × Signed := (of p.1, of p.2)

/-- IEEE 754: a difference that is zero is +0 unless it is -0 - (+0). -/
noncomputable def sub (R : Rounding) (a b : Signed) : Signed :=
  let v := R.sub a.val b.val
  ⟨v, if v = 0 then decide (a.val = 0) && decide (b.val = 0) && a.neg && !b.neg else decide (v < 0)⟩

/-- IEEE 754: a sum that is zero is +0 unless it is -0 + (-0). -/
noncomputable def add (R : Rounding) (a b : Signed) : Signed :=
  let v := R.add a.val b.val
  ⟨v, if v = 0 then decide (a.val = 0) && decide (b.val = 0) && a.neg && b.neg else decide (v < 0)⟩

/-- IEEE 754: the sign of a product is the product of the signs. -/
def mul (R : Rounding) (a b : Signed) : Signed := ⟨R.mul a.val b.val, a.neg ^^ b.neg⟩

/-- `math.atan2(y, x)`: with `y` a zero it is a zero for positive `x` and +0, and π or -π, depending on the sign of `y`, for negative
`x` and -0. The rounding is left out: only the sign of the result is used. -/
noncomputable def atan2 (y x : Signed) : ℝ :=
  if y.val = 0 then
    if x.val < 0 ∨ (x.val = 0 ∧ x.neg = true) then (if y.neg then -Real.pi else Real.pi) else 0
  else Complex.arg ⟨x.val, y.val⟩

/-- PathLib/BezierUtilities.py:211-222 `angle`. -/
noncomputable def angle (R : Rounding) (o v1 v2 : Signed × Signed) : ℝ :=
  let dx1 := sub R v1.1 o.1
  let dy1 := sub R v1.2 o.2
  let dx2 := sub R v2.1 o.1
  let dy2 := sub R v2.2 o.2
  let cross := sub R (mul R dx1 dy2) (mul R dy1 dx2)
  let dot := add R (mul R dx1 dx2) (mul R dy1 dy2)
  atan2 cross dot

/-- PathLib/Bezier.py:62-63, `_clockwise`. -/
noncomputable def clockwise (R : Rounding) (ps : Segment ℝ) : Py Bool := do
  let angle := angle R (pt (← pyGet ps 0)) (pt (← pyGet ps (-1))) (pt (← pyGet ps 1))
  return decide (angle > 0)

/-- PathLib/Bezier.py:558-567 `simple`. After the two angles the signs of zeros do not matter any more. -/
noncomputable def simple (R : Rounding) (ps : Segment ℝ) : Py Bool := do
  let early ← (if order ps = 3 then do
      let a1 := angle R (pt (← pyGet ps 0)) (pt (← pyGet ps 3)) (pt (← pyGet ps 1))
      let a2 := angle R (pt (← pyGet ps 0)) (pt (← pyGet ps 3)) (pt (← pyGet ps 2))
      return decide ((a1 > 0 ∧ a2 < 0) ∨ (a1 < 0 ∧ a2 > 0))
    else return false : Py Bool)
  if early then return false
  else
    let n1 ← Rounded.normal R ps 0
    let n2 ← Rounded.normal R ps 1
    let s := R.add (R.mul n1.1 n2.1) (R.mul n1.2 n2.2)
    return decide (|← acos s| < Real.pi / 3)

end Signed
end PathLib
