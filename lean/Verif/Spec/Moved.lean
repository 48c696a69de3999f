import Verif.Model.BContour
import Verif.Spec.Geometry

/-!
# Moving points and curves

`moveBy v` is the translation by `v`, which `Transform.translate` performs (C02). A moved curve has the same attributes apart from its control points.
-/

namespace PathLib.Spec

/-- A point moved by `v`. -/
def moveBy {K : Type} [Field K] (v p : Pt K) : Pt K := (p.1 + v.1, p.2 + v.2)

/-- Control points moved by `v`. -/
def movedBy {K : Type} [Field K] (v : Pt K) (ps : Segment K) : Segment K := ps.map (moveBy v)

/-- A curve moved by `v`. -/
noncomputable def moved (v : Pt ℝ) (b : Bezier) : Bezier := { b with controlPoints := movedBy v b.controlPoints }

/-- The results of `split` moved by `v`. -/
noncomputable def movedSplit (v : Pt ℝ) : Bezier.SplitResult → Bezier.SplitResult
  | .parts l r q => .parts (moved v l) (moved v r) (movedBy v q)
  | .piece b => .piece (moved v b)

/-- The results of `offset` moved by `v`; the normal in the middle stays. -/
noncomputable def movedOffset (v : Pt ℝ) : Bezier.OffsetResult → Bezier.OffsetResult
  | .points c n p => .points (moveBy v c) n (moveBy v p)
  | .curves l => .curves (l.map (moved v))

/-- A rectangle moved by `v`. -/
def movedRect {K : Type} [Field K] (v : Pt K) (r : BoundsRectangle K) : BoundsRectangle K :=
  { left := r.left + v.1, bottom := r.bottom + v.2, right := r.right + v.1, top := r.top + v.2 }

/-- The result of `bbox` moved by `v`. -/
def movedBox (v : Pt ℝ) (b : (ℝ × ℝ) × (ℝ × ℝ)) : (ℝ × ℝ) × (ℝ × ℝ) := ((b.1.1 + v.1, b.1.2 + v.1), (b.2.1 + v.2, b.2.2 + v.2))

/-- A contour object moved by `v`: its curves, bounds, lookup table, start and end. -/
noncomputable def movedContour (v : Pt ℝ) (c : BContour) : BContour :=
  { beziers := c.beziers.map (moved v), bounds := movedRect v c.bounds, lut := movedBy v c.lut, start := moveBy v c.start, stop := moveBy v c.stop }

/-- An outline object moved by `v`. -/
noncomputable def movedOutline (v : Pt ℝ) (o : BOutline) : BOutline := { bContours := o.bContours.map (movedContour v), bounds := movedRect v o.bounds }

/-- The points are in the design space (coordinates between -32768 and 32768), before and after the move. -/
def DesignBoth (v : Pt ℝ) (ps : Segment ℝ) : Prop := ∀ p ∈ ps, InDesignSpace p ∧ InDesignSpace (moveBy v p)

end PathLib.Spec
