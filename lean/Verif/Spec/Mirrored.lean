import Verif.Spec.Turned

/-!
# Mirroring points and curves

`mirrorBy a b` with `a * a + b * b = 1` mirrors in a line through the origin: `mirrorBy 1 0` changes the sign of y, `mirrorBy (-1) 0`
that of x. Direction, `linear` and `clockwise` are decided anew for a mirrored curve; the other attributes are kept.
-/

namespace PathLib.Spec

/-- A mirrored point. -/
def mirrorBy (a b : ℝ) (p : Pt ℝ) : Pt ℝ := (a * p.1 + b * p.2, b * p.1 - a * p.2)

/-- Mirrored control points. -/
def mirroredBy (a b : ℝ) (ps : Segment ℝ) : Segment ℝ := ps.map (mirrorBy a b)

/-- The attribute `clockwise` of the curve with these control points. -/
noncomputable def clockwiseOf (ps : Segment ℝ) : Bool :=
  match Bezier.new ps with
  | .ok c => c.clockwise
  | .error _ => false

/-- A mirrored curve. -/
noncomputable def mirrored (a b : ℝ) (c : Bezier) : Bezier :=
  { c with
    controlPoints := mirroredBy a b c.controlPoints
    direction := directionOf (mirroredBy a b c.controlPoints)
    linear := linearOf (mirroredBy a b c.controlPoints)
    clockwise := clockwiseOf (mirroredBy a b c.controlPoints) }

/-- The results of `split`, mirrored. -/
noncomputable def mirroredSplit (a b : ℝ) : Bezier.SplitResult → Bezier.SplitResult
  | .parts l r q => .parts (mirrored a b l) (mirrored a b r) (mirroredBy a b q)
  | .piece c => .piece (mirrored a b c)

/-- The opposite vector. -/
def opposite (p : Pt ℝ) : Pt ℝ := (-p.1, -p.2)

/-- The distances for `scale`, to the other side. -/
noncomputable def otherSide : Bezier.Distance → Bezier.Distance
  | .const d => .const (-d)
  | .fn f => .fn fun t => -f t

/-- A mirrored contour object, with the bounds `r`. -/
noncomputable def mirroredContour (a b : ℝ) (r : BoundsRectangle ℝ) (c : BContour) : BContour :=
  { beziers := c.beziers.map (mirrored a b), bounds := r, lut := mirroredBy a b c.lut, start := mirrorBy a b c.start, stop := mirrorBy a b c.stop }

/-- A point with the signs of its coordinates changed or kept, as `Transform.mirror` does: `s` and `u` are 1 or -1. -/
def flipBy (s u : ℝ) (p : Pt ℝ) : Pt ℝ := (s * p.1, u * p.2)

/-- Control points with the signs of their coordinates changed or kept. -/
def flippedBy (s u : ℝ) (ps : Segment ℝ) : Segment ℝ := ps.map (flipBy s u)

/-- A curve with the signs of its coordinates changed or kept. -/
noncomputable def flipped (s u : ℝ) (c : Bezier) : Bezier :=
  { c with
    controlPoints := flippedBy s u c.controlPoints
    direction := directionOf (flippedBy s u c.controlPoints)
    clockwise := clockwiseOf (flippedBy s u c.controlPoints) }

/-- The direction of a curve seen upside down. -/
def upsideDown : Bezier.Dir → Bezier.Dir
  | .up => .down
  | .down => .up
  | .flat => .flat
  | .mixed => .mixed

/-- An interval, times 1 or -1: then the ends change places. -/
noncomputable def flippedRange (s : ℝ) (r : ℝ × ℝ) : ℝ × ℝ := if 0 < s then r else (-r.2, -r.1)

/-- A rectangle with the signs of its coordinates changed or kept. -/
noncomputable def flippedRect (s u : ℝ) (r : BoundsRectangle ℝ) : BoundsRectangle ℝ :=
  { left := (flippedRange s (r.left, r.right)).1, right := (flippedRange s (r.left, r.right)).2
    bottom := (flippedRange u (r.bottom, r.top)).1, top := (flippedRange u (r.bottom, r.top)).2 }

/-- A contour object with the signs of its coordinates changed or kept. -/
noncomputable def flippedContour (s u : ℝ) (c : BContour) : BContour :=
  { beziers := c.beziers.map (flipped s u), bounds := flippedRect s u c.bounds, lut := flippedBy s u c.lut, start := flipBy s u c.start, stop := flipBy s u c.stop }

/-- An outline object with the signs of its coordinates changed or kept. -/
noncomputable def flippedOutline (s u : ℝ) (o : BOutline) : BOutline := { bContours := o.bContours.map (flippedContour s u), bounds := flippedRect s u o.bounds }

end PathLib.Spec
