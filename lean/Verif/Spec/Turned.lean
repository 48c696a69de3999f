import Verif.Spec.Grown

/-!
# Rotating points and curves

`turnBy a b` with `a * a + b * b = 1` is the rotation about the origin that takes (1, 0) to (a, b). Direction and `linear` of a curve
depend on the axes and on a tolerance, so they are decided anew for a rotated curve; the other attributes are kept.
-/

namespace PathLib.Spec

/-- A rotated point. -/
def turnBy (a b : ℝ) (p : Pt ℝ) : Pt ℝ := (a * p.1 - b * p.2, b * p.1 + a * p.2)

/-- Rotated control points. -/
def turnedBy (a b : ℝ) (ps : Segment ℝ) : Segment ℝ := ps.map (turnBy a b)

/-- The attribute `direction` of the curve with these control points. -/
noncomputable def directionOf (ps : Segment ℝ) : Bezier.Dir :=
  match Bezier.computeDirection ps with
  | .ok d => d
  | .error _ => .mixed

/-- A rotated curve. -/
noncomputable def turned (a b : ℝ) (c : Bezier) : Bezier :=
  { c with controlPoints := turnedBy a b c.controlPoints, direction := directionOf (turnedBy a b c.controlPoints), linear := linearOf (turnedBy a b c.controlPoints) }

/-- The results of `split`, rotated. -/
noncomputable def turnedSplit (a b : ℝ) : Bezier.SplitResult → Bezier.SplitResult
  | .parts l r q => .parts (turned a b l) (turned a b r) (turnedBy a b q)
  | .piece c => .piece (turned a b c)

/-- A rotated contour object. Bounds do not rotate, they are given. -/
noncomputable def turnedContour (a b : ℝ) (r : BoundsRectangle ℝ) (c : BContour) : BContour :=
  { beziers := c.beziers.map (turned a b), bounds := r, lut := turnedBy a b c.lut, start := turnBy a b c.start, stop := turnBy a b c.stop }

end PathLib.Spec
