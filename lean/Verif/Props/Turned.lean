import Verif.Lemmas.TurnedContour
import Verif.Props.BezierBounds
import Verif.Props.BezierOffset
import Verif.Props.Transform

set_option linter.unusedSectionVars false
set_option linter.unusedSimpArgs false

/-!
# Rotating a curve rotates what is computed from it: C109

Equality here is equality of results, exceptions included. `a` and `b` are the cosine and the sine of the angle.
-/

namespace PathLib
open Spec Bezier

/-- C109: `rotation` counter-clockwise rotates every point by the angle with the rounded cosine and sine, which for multiples of a quarter turn are
the exact ones. -/
theorem C109_transform (deg : ℝ) (cs : List (Contour ℝ)) :
    (∃ T, Transform.rotation deg true = .ok T ∧ T.applyToContours cs = .ok (cs.map (List.map (turnedBy (Transform.cos deg) (Transform.sin deg))))) ∧
    ∀ k : ℤ, deg = 90 * k → Transform.cos deg * Transform.cos deg + Transform.sin deg * Transform.sin deg = 1 := by
  constructor
  · refine ⟨_, rfl, ?_⟩
    have hp : ∀ p : Pt ℝ, Transform.applyToPoint ⟨Transform.rotationMatrix deg true⟩ p = .ok (turnBy (Transform.cos deg) (Transform.sin deg) p) := by
      intro p
      rw [Transform.rotationMatrix, Transform.rotationMatrixOf]
      simp only [if_true]
      rw [Transform.applyToPoint_affine]
      simp only [turnBy, Except.ok.injEq, Prod.mk.injEq]
      constructor <;> ring
    unfold Transform.applyToContours Transform.applyToContour Transform.applyToSegment
    exact mapM_ok _ _ _ fun c _ => mapM_ok _ _ _ fun s _ => mapM_ok _ _ _ fun p _ => hp p
  · intro k hk
    rw [hk, sin_quarter, cos_quarter]
    have := Real.sin_sq_add_cos_sq (90 * (k : ℝ) * Real.pi / 180)
    nlinarith

/-- A concrete case: a quarter turn. -/
example : Transform.cos 90 * Transform.cos 90 + Transform.sin 90 * Transform.sin 90 = 1 := (C109_transform 90 []).2 1 (by norm_num)

/-- C109: points, hulls, tables, the points of the raised curve and of the derivatives, and derivatives rotate along. This holds for all `a` and
`b`. -/
theorem C109_points (a b : ℝ) (ps : Segment ℝ) (t : ℝ) (n : Int) :
    Bezier.get (turnedBy a b ps) t = (Bezier.get ps t).map (turnBy a b) ∧
    hull (turnedBy a b ps) t = turnedBy a b (hull ps t) ∧
    lutOf (turnedBy a b ps) n = (lutOf ps n).map (turnedBy a b) ∧
    raiseOrderPoints (turnedBy a b ps) = (raiseOrderPoints ps).map (turnedBy a b) ∧
    dcPoints (turnedBy a b ps) = (dcPoints ps).map (turnedBy a b) ∧
    derivative (turnedBy a b ps) t = (derivative ps t).map (turnBy a b) :=
  ⟨Turned.get_turned a b ps t, Turned.hull_turned a b ps t, Turned.lutOf_turned a b ps n, Turned.raiseOrderPoints_turned a b ps, Turned.dcPoints_turned a b ps,
    Turned.derivative_turned a b ps t⟩

/-- A concrete case: an arch rotated by the angle of the triangle with sides 3, 4 and 5. -/
example : (3 / 5 : ℝ) * (3 / 5) + 4 / 5 * (4 / 5) = 1 ∧ turnedBy (3 / 5) (4 / 5) [((0 : ℝ), (0 : ℝ)), (5, 10), (10, 0)] = [(0, 0), (-5, 10), (6, 8)] ∧
    Bezier.get [((0 : ℝ), (0 : ℝ)), (5, 10), (10, 0)] (1 / 2) = .ok (5, 5) ∧ Bezier.get [((0 : ℝ), (0 : ℝ)), (-5, 10), (6, 8)] (1 / 2) = .ok (-1, 7) := by
  refine ⟨by norm_num, by norm_num [turnedBy, turnBy], ?_, ?_⟩ <;> rw [get_ok _ (by simp), curve_three] <;> norm_num

/-- C109: the constructor accepts the same points and the orientation is the same. Direction and `linear` are decided anew. -/
theorem C109_new (a b : ℝ) (h : a * a + b * b = 1) (ps : Segment ℝ) : Bezier.new (turnedBy a b ps) = (Bezier.new ps).map (turned a b) := Turned.new_turned h ps

/-- C109: a horizontal line does not keep its direction. -/
theorem C109_direction_counterexample : ∃ (a b : ℝ) (ps : Segment ℝ), a * a + b * b = 1 ∧ computeDirection ps = .ok .flat ∧ computeDirection (turnedBy a b ps) = .ok .up := by
  refine ⟨0, 1, [(0, 0), (1, 0)], by norm_num, ?_, ?_⟩
  all_goals norm_num [computeDirection, turnedBy, turnBy, pyGet, order]

/-- C109: normals and tangents rotate along; the length and whether the curve is simple do not change. -/
theorem C109_shape (a b : ℝ) (h : a * a + b * b = 1) (ps : Segment ℝ) (t : ℝ) :
    normal (turnedBy a b ps) t = (normal ps t).map (turnBy a b) ∧ tangent (turnedBy a b ps) t = (tangent ps t).map (turnBy a b) ∧
    lengthOf (turnedBy a b ps) = lengthOf ps ∧ simple (turnedBy a b ps) = simple ps ∧
    getABC (turnedBy a b ps) t = (getABC ps t).map fun (p, q, c, r, l) => (turnBy a b p, turnBy a b q, c.map (turnBy a b), r, turnedBy a b l) :=
  ⟨Turned.normal_turned h ps t, Turned.tangent_turned h ps t, Turned.lengthOf_turned h ps, Turned.simple_turned h ps, Turned.getABC_turned h ps t⟩

/-- C109: the parts of a rotated curve are the rotated parts, for the same parameters; the raised curve is the rotated raised curve; and a rotated curve of
order at most 3 scales to the rotated result. -/
theorem C109_parts (a b : ℝ) (h : a * a + b * b = 1) (c : Bezier) (t1 : ℝ) (t2 : Option ℝ) :
    split (turned a b c) t1 t2 = (split c t1 t2).map (turnedSplit a b) ∧ raiseOrder (turned a b c) = (raiseOrder c).map (turned a b) ∧
    ∀ d : Distance, c.controlPoints.length ≤ 4 → scale (turned a b c) d = (scale c d).map (turned a b) :=
  ⟨Turned.split_turned h c t1 t2, Turned.raiseOrder_turned h c, fun d hl => Turned.scale_turned h c d hl⟩

/-- C109: the point at a distance `d` from a rotated curve is the rotated point. -/
theorem C109_offset_point (a b : ℝ) (h : a * a + b * b = 1) (c : Bezier) (t d : ℝ) (hd : d ≠ 0) :
    (∀ p n q, offset c t (some d) = .ok (.points p n q) → offset (turned a b c) t (some d) = .ok (.points (turnBy a b p) (turnBy a b n) (turnBy a b q))) ∧
    (∀ e, offset c t (some d) = .error e → offset (turned a b c) t (some d) = .error e) := by
  have h1 : offset (turned a b c) t (some d) = (offsetPoint c.controlPoints t d).map fun (p, n, q) => .points (turnBy a b p) (turnBy a b n) (turnBy a b q) := by
    simp only [offset, ne_eq, hd, not_false_eq_true, if_true]
    rw [show (turned a b c).controlPoints = turnedBy a b c.controlPoints from rfl, Turned.offsetPoint_turned h, Flt.map_bind]
    cases offsetPoint c.controlPoints t d <;> rfl
  have h2 : offset c t (some d) = (offsetPoint c.controlPoints t d).map fun (p, n, q) => .points p n q := by
    simp only [offset, ne_eq, hd, not_false_eq_true, if_true]
    cases offsetPoint c.controlPoints t d <;> rfl
  rw [h1, h2]
  cases offsetPoint c.controlPoints t d with
  | error e => exact ⟨fun _ _ _ h => (by cases h), fun _ h => h⟩
  | ok z =>
    refine ⟨fun p n q h => ?_, fun _ h => (by cases h)⟩
    cases h
    rfl

/-- C109: what is taken for a line and stays one offsets to the rotated line. -/
theorem C109_offset_line (a b : ℝ) (h : a * a + b * b = 1) (c : Bezier) (t : ℝ) (hc : c.linear = true) (hr : (turned a b c).linear = true) :
    offset (turned a b c) t none = (offsetLinear c t).map (fun l => .curves [turned a b l]) ∧ offset c t none = (offsetLinear c t).map (fun l => .curves [l]) := by
  simp only [offset, offsetCurves, hc, hr, if_true, Turned.offsetLinear_turned h]
  cases offsetLinear c t <;> exact ⟨rfl, rfl⟩

/-- A concrete case: a straight quadratic and its quarter turn. -/
example : ∃ c, Bezier.new [(0, 0), (1, 0), (2, 0)] = .ok c ∧ c.linear = true ∧ (turned 0 1 c).linear = true ∧
    offset (turned 0 1 c) 3 none = (offsetLinear c 3).map (fun l => .curves [turned 0 1 l]) := by
  obtain ⟨c, hc, hp, _⟩ := new_ok [((0 : ℝ), (0 : ℝ)), (1, 0), (2, 0)] (by simp)
  obtain ⟨c', hc', _⟩ := new_ok [((0 : ℝ), (0 : ℝ)), (0, 1), (0, 2)] (by simp)
  have e : turnedBy 0 1 [((0 : ℝ), (0 : ℝ)), (1, 0), (2, 0)] = [(0, 0), (0, 1), (0, 2)] := by norm_num [turnedBy, turnBy]
  have h1 : c.linear = true := by
    obtain ⟨θ, h1, -, -, h4⟩ := C49_flat _ (by simp) c hc
    obtain ⟨h1, -⟩ := h1 (by simp)
    simp only [List.getLast_cons_cons, List.getLast_singleton, List.head_cons, signedDist, sub_zero, mul_zero, zero_sub] at h1 h4
    refine h4 fun p hp => ?_
    have hs : Real.sin θ = 0 := by linarith
    simp only [List.mem_cons, List.not_mem_nil, or_false] at hp
    rcases hp with rfl | rfl | rfl <;> norm_num [hs]
  have h2 : c'.linear = true := by
    obtain ⟨θ, h1, -, -, h4⟩ := C49_flat _ (by simp) c' hc'
    obtain ⟨h1, -⟩ := h1 (by simp)
    simp only [List.getLast_cons_cons, List.getLast_singleton, List.head_cons, signedDist, sub_zero, mul_zero] at h1 h4
    refine h4 fun p hp => ?_
    have hs : Real.cos θ = 0 := by linarith
    simp only [List.mem_cons, List.not_mem_nil, or_false] at hp
    rcases hp with rfl | rfl | rfl <;> norm_num [hs]
  have h3 : (turned 0 1 c).linear = true := by
    simp only [turned, linearOf, hp, e, hc', h2]
  exact ⟨c, hc, h1, h3, (C109_offset_line 0 1 (by norm_num) c 3 h1 h3).1⟩

/-- C109: the object for a rotated contour consists of the rotated curves, with rotated ends; its bounds are computed anew. It exists when the
object for the contour does. -/
theorem C109_contour (a b : ℝ) (h : a * a + b * b = 1) (c : Contour ℝ) :
    (∀ bc, BContour.new c = .ok bc → ∃ r, BContour.new (c.map (turnedBy a b)) = .ok (turnedContour a b r bc)) ∧
    ∀ e, BContour.new c = .error e → BContour.new (c.map (turnedBy a b)) = .error e :=
  Turned.contour_turned h c

/-- C109: the bounds do not rotate along: the rectangle of a rotated horizontal line has a positive height. -/
theorem C109_bounds_counterexample : ∃ (a b : ℝ) (ps : Segment ℝ) (r r' : BoundsRectangle ℝ), a * a + b * b = 1 ∧
    boundsRectangle ps = .ok r ∧ boundsRectangle (turnedBy a b ps) = .ok r' ∧ r.height = 0 ∧ 4 / 5 ≤ r'.height ∧ 3 / 5 ≤ r'.width := by
  obtain ⟨r, hr, -, -, -, ⟨u, -, -, hu⟩, ⟨w, -, -, hw⟩⟩ := C37_tight_of_curve [((0 : ℝ), (0 : ℝ)), (1, 0)] (by simp) (by
    intro t h0 h1
    rw [curve_two]
    simp only [mul_zero, mul_one, zero_add, abs_zero]
    rw [abs_of_nonneg h0]
    constructor <;> linarith)
  obtain ⟨r', hr', -, he⟩ := boundsRectangle_ok (turnedBy (3 / 5) (4 / 5) [((0 : ℝ), (0 : ℝ)), (1, 0)]) (by simp [turnedBy])
  refine ⟨3 / 5, 4 / 5, _, r, r', by norm_num, hr, hr', ?_, ?_⟩
  · simp only [curve_two, mul_zero, add_zero] at hu hw
    simp only [BoundsRectangle.height, ← hu, ← hw, sub_zero]
  · have e0 := he (by simp [turnedBy]) 0 le_rfl zero_le_one
    have e1 := he (by simp [turnedBy]) 1 zero_le_one le_rfl
    rw [BoundsRectangle.enclosesPoint_iff] at e0 e1
    simp only [turnedBy, turnBy, List.map_cons, List.map_nil, curve_two] at e0 e1
    norm_num [InBox] at e0 e1
    simp only [BoundsRectangle.height, BoundsRectangle.width]
    constructor <;> linarith

/-- C109: the closest point on a rotated contour to a rotated point is the rotated point, at the same distance; the tables kept are the rotated ones. -/
theorem C109_closest (a b : ℝ) (h : a * a + b * b = 1) (p : Pt ℝ) (r : BoundsRectangle ℝ) (steps : Int) (c : BContour) :
    BContour.findClosestPoint (turnBy a b p) steps (turnedContour a b r c) =
      ((BContour.findClosestPoint p steps c).1.map (fun z => (z.1, turnBy a b z.2)), turnedContour a b r (BContour.findClosestPoint p steps c).2) :=
  Turned.findClosestPoint_turned h p r steps c

end PathLib
