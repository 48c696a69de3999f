import Verif.Model.BContour
import Verif.Spec.Geometry

/-!
# Scaling points and curves

`growBy k` multiplies both coordinates by `k`. Whether a curve is `linear` is decided with an absolute tolerance, so it is decided anew
for a scaled curve; the other attributes are kept.
-/

namespace PathLib.Spec

/-- A point scaled by `k`. -/
def growBy {K : Type} [Field K] (k : K) (p : Pt K) : Pt K := (k * p.1, k * p.2)

/-- Control points scaled by `k`. -/
def grownBy {K : Type} [Field K] (k : K) (ps : Segment K) : Segment K := ps.map (growBy k)

/-- The attribute `linear` of the curve with these control points. -/
noncomputable def linearOf (ps : Segment ℝ) : Bool :=
  match Bezier.new ps with
  | .ok b => b.linear
  | .error _ => false

/-- A curve scaled by `k`. -/
noncomputable def grown (k : ℝ) (b : Bezier) : Bezier :=
  { b with controlPoints := grownBy k b.controlPoints, linear := linearOf (grownBy k b.controlPoints) }

/-- The results of `split` scaled by `k`. -/
noncomputable def grownSplit (k : ℝ) : Bezier.SplitResult → Bezier.SplitResult
  | .parts l r q => .parts (grown k l) (grown k r) (grownBy k q)
  | .piece b => .piece (grown k b)

/-- The distances for `scale`, scaled by `k`. -/
noncomputable def grownDistance (k : ℝ) : Bezier.Distance → Bezier.Distance
  | .const d => .const (k * d)
  | .fn f => .fn fun t => k * f t

/-- A rectangle scaled by `k`. -/
def grownRect {K : Type} [Field K] (k : K) (r : BoundsRectangle K) : BoundsRectangle K :=
  { left := k * r.left, bottom := k * r.bottom, right := k * r.right, top := k * r.top }

/-- The result of `bbox` scaled by `k`. -/
def grownBox (k : ℝ) (b : (ℝ × ℝ) × (ℝ × ℝ)) : (ℝ × ℝ) × (ℝ × ℝ) := ((k * b.1.1, k * b.1.2), (k * b.2.1, k * b.2.2))

/-- A contour object scaled by `k`: its curves, bounds, lookup table, start and end. -/
noncomputable def grownContour (k : ℝ) (c : BContour) : BContour :=
  { beziers := c.beziers.map (grown k), bounds := grownRect k c.bounds, lut := grownBy k c.lut, start := growBy k c.start, stop := growBy k c.stop }

/-- An outline object scaled by `k`. -/
noncomputable def grownOutline (k : ℝ) (o : BOutline) : BOutline := { bContours := o.bContours.map (grownContour k), bounds := grownRect k o.bounds }

/-- The points are in the design space (coordinates between -32768 and 32768), before and after scaling. -/
def DesignScaled (k : ℝ) (ps : Segment ℝ) : Prop := ∀ p ∈ ps, InDesignSpace p ∧ InDesignSpace (growBy k p)

end PathLib.Spec
