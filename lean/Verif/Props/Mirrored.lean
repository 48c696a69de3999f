import Verif.Lemmas.FlippedContour
import Verif.Props.BezierOffset
import Verif.Props.Transform

set_option linter.unusedSectionVars false
set_option linter.unusedSimpArgs false

/-!
# Mirroring a curve mirrors what is computed from it: C113

Equality here is equality of results, exceptions included. `mirrorBy a b` with `a * a + b * b = 1` mirrors in a line through the origin. `flipBy s u`
with `s` and `u` equal to 1 or -1 is what `Transform.mirror` does.
-/

namespace PathLib
open Spec Bezier

/-- C113: `mirror` changes the sign of y (`xAxis`), of x (`yAxis`), or of both. -/
theorem C113_transform (xAxis yAxis : Bool) (cs : List (Contour ℝ)) :
    ∃ T, Transform.mirror xAxis yAxis = .ok T ∧
      T.applyToContours cs = .ok (cs.map (List.map (flippedBy (if yAxis then -1 else 1) (if xAxis then -1 else 1)))) := by
  refine ⟨_, rfl, ?_⟩
  have hp : ∀ p : Pt ℝ, Transform.applyToPoint ⟨Transform.mirrorMatrix xAxis yAxis⟩ p = .ok (flipBy (if yAxis then -1 else 1) (if xAxis then -1 else 1) p) := by
    intro p
    rw [Transform.mirrorMatrix]
    rw [Transform.applyToPoint_affine]
    simp only [flipBy, Except.ok.injEq, Prod.mk.injEq]
    constructor <;> ring
  unfold Transform.applyToContours Transform.applyToContour Transform.applyToSegment
  exact mapM_ok _ _ _ fun c _ => mapM_ok _ _ _ fun s _ => mapM_ok _ _ _ fun p _ => hp p

/-- C113: points, hulls, tables, the points of the raised curve and of the derivatives, and derivatives are mirrored along. This holds for all `a` and
`b`. -/
theorem C113_points (a b : ℝ) (ps : Segment ℝ) (t : ℝ) (n : Int) :
    Bezier.get (mirroredBy a b ps) t = (Bezier.get ps t).map (mirrorBy a b) ∧
    hull (mirroredBy a b ps) t = mirroredBy a b (hull ps t) ∧
    lutOf (mirroredBy a b ps) n = (lutOf ps n).map (mirroredBy a b) ∧
    raiseOrderPoints (mirroredBy a b ps) = (raiseOrderPoints ps).map (mirroredBy a b) ∧
    dcPoints (mirroredBy a b ps) = (dcPoints ps).map (mirroredBy a b) ∧
    derivative (mirroredBy a b ps) t = (derivative ps t).map (mirrorBy a b) :=
  ⟨Mirrored.get_mirrored a b ps t, Mirrored.hull_mirrored a b ps t, Mirrored.lutOf_mirrored a b ps n, Mirrored.raiseOrderPoints_mirrored a b ps,
    Mirrored.dcPoints_mirrored a b ps, Mirrored.derivative_mirrored a b ps t⟩

/-- A concrete case: a point of an arch mirrored in the diagonal. -/
example : Bezier.get (mirroredBy 0 1 [((0 : ℝ), (0 : ℝ)), (1, 2), (2, 0)]) (1 / 2) = .ok (1, 1) := by
  rw [(C113_points 0 1 [((0 : ℝ), (0 : ℝ)), (1, 2), (2, 0)] (1 / 2) 0).1, get_ok _ (by simp), curve_three]
  simp only [Except.map, mirrorBy, Except.ok.injEq, Prod.mk.injEq]
  constructor <;> norm_num

/-- C113: the object for mirrored points has the mirrored points and the same range of parameters; direction, `linear` and `clockwise` are those of the
mirrored points. It exists when the object for the points does. -/
theorem C113_new (a b : ℝ) (ps : Segment ℝ) : Bezier.new (mirroredBy a b ps) = (Bezier.new ps).map (mirrored a b) := Mirrored.new_mirrored a b ps

/-- C113: `clockwise` changes if the second control point is not on the line through the ends. -/
theorem C113_clockwise (a b : ℝ) (h : a * a + b * b = 1) (ps : Segment ℝ) (c : Bezier) (hc : Bezier.new ps = .ok c) (x p y : Pt ℝ) (hx : pyGet ps 0 = .ok x)
    (hy : pyGet ps (-1) = .ok y) (hp : pyGet ps 1 = .ok p) (ho : cross (vec x y) (vec x p) ≠ 0) : (mirrored a b c).clockwise = !c.clockwise := by
  have h' : Bezier.new (mirroredBy a b ps) = .ok (mirrored a b c) := by rw [C113_new, hc]; rfl
  have e1 := C49_clockwise ps c hc x y p hx hy hp
  have e2 := C49_clockwise _ _ h' (mirrorBy a b x) (mirrorBy a b y) (mirrorBy a b p) (by rw [Mirrored.pyGet_mirrored, hx]; rfl)
    (by rw [Mirrored.pyGet_mirrored, hy]; rfl) (by rw [Mirrored.pyGet_mirrored, hp]; rfl)
  simp only [LeftOf, Mirrored.cross_mirrored h, neg_eq_zero, ho, false_and, or_false, Left.neg_pos_iff] at e1 e2
  rcases lt_or_gt_of_ne ho with k | k
  · rw [e2.mpr k]
    cases hh : c.clockwise
    · rfl
    · exact absurd (e1.mp hh) (by linarith)
  · rw [e1.mpr k]
    cases hh : (mirrored a b c).clockwise
    · rfl
    · exact absurd (e2.mp hh) (by linarith)

/-- A concrete case: an arch is clockwise in the sense of the code, its image below the line is not. -/
example : ∃ c, Bezier.new [(0, 0), (1, 1), (2, 0)] = .ok c ∧ c.clockwise = true ∧ (mirrored 1 0 c).clockwise = false := by
  obtain ⟨c, hc, -⟩ := new_ok [((0 : ℝ), (0 : ℝ)), (1, 1), (2, 0)] (by simp)
  have h1 : c.clockwise = true := (C49_clockwise _ c hc (0, 0) (2, 0) (1, 1) rfl rfl rfl).mpr (.inl (by unfold cross vec; norm_num))
  refine ⟨c, hc, h1, ?_⟩
  rw [C113_clockwise 1 0 (by norm_num) _ c hc (0, 0) (1, 1) (2, 0) rfl rfl rfl (by unfold cross vec; norm_num), h1]
  rfl

/-- C113: without the hypothesis it may not change: a curve whose second control point is on the base line behind its start is clockwise, and so is its
image. -/
theorem C113_clockwise_counterexample : ∃ (ps : Segment ℝ) (c c' : Bezier), Bezier.new ps = .ok c ∧ Bezier.new (mirroredBy 1 0 ps) = .ok c' ∧
    c.clockwise = true ∧ c'.clockwise = true := by
  obtain ⟨c, hc, -⟩ := new_ok [((0 : ℝ), (0 : ℝ)), (-1, 0), (5, 1), (3, 0)] (by simp)
  obtain ⟨c', hc', -⟩ := new_ok (mirroredBy 1 0 [((0 : ℝ), (0 : ℝ)), (-1, 0), (5, 1), (3, 0)]) (by simp [mirroredBy])
  refine ⟨_, c, c', hc, hc', ?_, ?_⟩
  · exact (C49_clockwise _ c hc (0, 0) (3, 0) (-1, 0) rfl rfl rfl).mpr (.inr (by unfold cross dot vec; norm_num))
  · exact (C49_clockwise _ c' hc' (mirrorBy 1 0 (0, 0)) (mirrorBy 1 0 (3, 0)) (mirrorBy 1 0 (-1, 0)) rfl rfl rfl).mpr
      (.inr (by unfold cross dot vec mirrorBy; norm_num))

/-- C113: tangents are mirrored along, normals point to the other side, and the length does not change. -/
theorem C113_shape (a b : ℝ) (h : a * a + b * b = 1) (ps : Segment ℝ) (t : ℝ) :
    normal (mirroredBy a b ps) t = (normal ps t).map (fun n => mirrorBy a b (opposite n)) ∧ tangent (mirroredBy a b ps) t = (tangent ps t).map (mirrorBy a b) ∧
    lengthOf (mirroredBy a b ps) = lengthOf ps ∧
    getABC (mirroredBy a b ps) t = (getABC ps t).map fun (p, q, c, r, l) => (mirrorBy a b p, mirrorBy a b q, c.map (mirrorBy a b), r, mirroredBy a b l) :=
  ⟨Mirrored.normal_mirrored h ps t, Mirrored.tangent_mirrored h ps t, Mirrored.lengthOf_mirrored h ps, Mirrored.getABC_mirrored h ps t⟩

/-- C113: whether the curve is simple does not change, unless an inner control point of a cubic is on the base line behind its start. -/
theorem C113_simple (a b : ℝ) (h : a * a + b * b = 1) (ps : Segment ℝ)
    (hb : ∀ x p q y, ps = [x, p, q, y] → ∀ r, r = p ∨ r = q → cross (vec x y) (vec x r) = 0 → 0 ≤ dot (vec x y) (vec x r)) :
    simple (mirroredBy a b ps) = simple ps := by
  refine Mirrored.simple_mirrored h ps fun x p q y e => ?_
  have k : ∀ r, r = p ∨ r = q → (LeftOf x y r ↔ 0 < cross (vec x y) (vec x r)) ∧
      (LeftOf (mirrorBy a b x) (mirrorBy a b y) (mirrorBy a b r) ↔ cross (vec x y) (vec x r) < 0) ∧
      (RightOf x y r ↔ cross (vec x y) (vec x r) < 0) ∧ (RightOf (mirrorBy a b x) (mirrorBy a b y) (mirrorBy a b r) ↔ 0 < cross (vec x y) (vec x r)) := by
    intro r hr
    have := hb x p q y e r hr
    simp only [LeftOf, RightOf, Mirrored.cross_mirrored h, Mirrored.dot_mirrored h, neg_eq_zero, Left.neg_pos_iff, Left.neg_neg_iff]
    refine ⟨⟨fun w => w.elim id fun w => absurd (this w.1) (by linarith [w.2]), Or.inl⟩, ⟨fun w => w.elim id fun w => absurd (this w.1) (by linarith [w.2]), Or.inl⟩,
      trivial, trivial⟩
  obtain ⟨p1, p2, p3, p4⟩ := k p (Or.inl rfl)
  obtain ⟨q1, q2, q3, q4⟩ := k q (Or.inr rfl)
  simp only [SShaped, p1, p2, p3, p4, q1, q2, q3, q4]
  tauto

/-- A concrete case: a cubic arch. -/
example : simple (mirroredBy 1 0 [((0 : ℝ), (0 : ℝ)), (1, 1), (2, 1), (3, 0)]) = simple [((0 : ℝ), (0 : ℝ)), (1, 1), (2, 1), (3, 0)] := by
  refine C113_simple 1 0 (by norm_num) _ fun x p q y e r hr => ?_
  simp only [List.cons.injEq] at e
  obtain ⟨rfl, rfl, rfl, rfl, -⟩ := e
  rcases hr with rfl | rfl <;> norm_num [cross, dot, vec]

/-- C113: a cubic with an inner control point behind its start that is simple, while its image is not. -/
theorem C113_simple_counterexample : ∃ ps : Segment ℝ, simple ps = .ok true ∧ simple (mirroredBy 1 0 ps) = .ok false := by
  refine ⟨[(0, 0), (-1, 0), (5, 1), (3, 0)], ?_, ?_⟩
  · rw [C71_simple _ (by simp), if_neg, if_neg]
    · have h5 : Real.sqrt 5 < 4 := by
        rw [Real.sqrt_lt' (by norm_num)]; norm_num
      norm_num [legs, norm2, dot, vec]
      exact h5
    · norm_num [legs, vec]
    · norm_num [SShaped, LeftOf, RightOf, cross, dot, vec]
  · rw [C71_simple _ (by simp [mirroredBy]), if_pos]
    norm_num [mirroredBy, mirrorBy, SShaped, LeftOf, RightOf, cross, dot, vec]

/-- C113: the parts of a mirrored curve are the mirrored parts, for the same parameters; the raised curve is the mirrored raised curve; and a mirrored
curve of order at most 3 scales to the mirrored result of scaling to the other side. -/
theorem C113_parts (a b : ℝ) (c : Bezier) (t1 : ℝ) (t2 : Option ℝ) :
    split (mirrored a b c) t1 t2 = (split c t1 t2).map (mirroredSplit a b) ∧ raiseOrder (mirrored a b c) = (raiseOrder c).map (mirrored a b) ∧
    ∀ d : Distance, a * a + b * b = 1 → c.controlPoints.length ≤ 4 → (mirrored a b c).clockwise = !c.clockwise →
      scale (mirrored a b c) d = (scale c (otherSide d)).map (mirrored a b) :=
  ⟨Mirrored.split_mirrored a b c t1 t2, Mirrored.raiseOrder_mirrored a b c, fun d h hl hw => Mirrored.scale_mirrored h c d hl hw⟩

/-- A concrete case: an arch and its image, scaled. -/
example : ∃ c, Bezier.new [(0, 0), (1, 1), (2, 0)] = .ok c ∧ scale (mirrored 1 0 c) (.const 1) = (scale c (.const (-1))).map (mirrored 1 0) := by
  obtain ⟨c, hc, hp, -⟩ := new_ok [((0 : ℝ), (0 : ℝ)), (1, 1), (2, 0)] (by simp)
  refine ⟨c, hc, ?_⟩
  exact (C113_parts 1 0 c 0 none).2.2 (.const 1) (by norm_num) (by rw [hp]; simp)
    (C113_clockwise 1 0 (by norm_num) _ c hc (0, 0) (1, 1) (2, 0) rfl rfl rfl (by unfold cross vec; norm_num))

/-- C113: the point at a distance `d` from a mirrored curve is the image of the point at the distance `-d`. -/
theorem C113_offset_point (a b : ℝ) (h : a * a + b * b = 1) (c : Bezier) (t d : ℝ) (hd : d ≠ 0) :
    (∀ p n q, offset c t (some (-d)) = .ok (.points p n q) →
      offset (mirrored a b c) t (some d) = .ok (.points (mirrorBy a b p) (mirrorBy a b (opposite n)) (mirrorBy a b q))) ∧
    (∀ e, offset c t (some (-d)) = .error e → offset (mirrored a b c) t (some d) = .error e) := by
  have h1 : offset (mirrored a b c) t (some d) =
      (offsetPoint c.controlPoints t (-d)).map fun (p, n, q) => .points (mirrorBy a b p) (mirrorBy a b (opposite n)) (mirrorBy a b q) := by
    simp only [offset, ne_eq, hd, not_false_eq_true, if_true]
    rw [show (mirrored a b c).controlPoints = mirroredBy a b c.controlPoints from rfl, Mirrored.offsetPoint_mirrored h, Flt.map_bind]
    cases offsetPoint c.controlPoints t (-d) <;> rfl
  have h2 : offset c t (some (-d)) = (offsetPoint c.controlPoints t (-d)).map fun (p, n, q) => .points p n q := by
    simp only [offset, ne_eq, neg_eq_zero, hd, not_false_eq_true, if_true]
    cases offsetPoint c.controlPoints t (-d) <;> rfl
  rw [h1, h2]
  cases offsetPoint c.controlPoints t (-d) with
  | error e => exact ⟨fun _ _ _ hh => (by cases hh), fun e' hh => (by cases hh; rfl)⟩
  | ok z =>
    refine ⟨fun p n q hh => ?_, fun e hh => by cases hh⟩
    simp only [Except.map, Except.ok.injEq, OffsetResult.points.injEq] at hh ⊢
    obtain ⟨e1, e2, e3⟩ := hh
    rw [e1, e2, e3]
    exact ⟨rfl, rfl, rfl⟩

/-- C113: a mirrored straight curve, offset by `t`, is the image of the curve offset by `-t`. -/
theorem C113_offset_line (a b : ℝ) (h : a * a + b * b = 1) (c : Bezier) (t : ℝ) (hc : c.linear = true) (hr : (mirrored a b c).linear = true) :
    offset (mirrored a b c) t none = (offsetLinear c (-t)).map (fun l => .curves [mirrored a b l]) ∧ offset c (-t) none = (offsetLinear c (-t)).map (fun l => .curves [l]) := by
  simp only [offset, offsetCurves, hc, hr, if_true, Mirrored.offsetLinear_mirrored h]
  cases offsetLinear c (-t) <;> exact ⟨rfl, rfl⟩

/-- A concrete case: a straight quadratic and its image in the diagonal. -/
example : ∃ c, Bezier.new [(0, 0), (1, 0), (2, 0)] = .ok c ∧ c.linear = true ∧ (mirrored 0 1 c).linear = true ∧
    offset (mirrored 0 1 c) 3 none = (offsetLinear c (-3)).map (fun l => .curves [mirrored 0 1 l]) := by
  obtain ⟨c, hc, hp, _⟩ := new_ok [((0 : ℝ), (0 : ℝ)), (1, 0), (2, 0)] (by simp)
  obtain ⟨c', hc', _⟩ := new_ok [((0 : ℝ), (0 : ℝ)), (0, 1), (0, 2)] (by simp)
  have e : mirroredBy 0 1 [((0 : ℝ), (0 : ℝ)), (1, 0), (2, 0)] = [(0, 0), (0, 1), (0, 2)] := by norm_num [mirroredBy, mirrorBy]
  have h1 : c.linear = true := by
    obtain ⟨θ, h1, -, -, h4⟩ := C49_flat _ (by simp) c hc
    obtain ⟨h1, -⟩ := h1 (by simp)
    simp only [List.getLast_cons_cons, List.getLast_singleton, List.head_cons, signedDist, sub_zero, mul_zero, zero_sub] at h1 h4
    refine h4 fun p hp => ?_
    have hs : Real.sin θ = 0 := by linarith
    simp only [List.mem_cons, List.not_mem_nil, or_false] at hp
    rcases hp with rfl | rfl | rfl <;> norm_num [hs]
  have h2 : c'.linear = true := by
    obtain ⟨θ, h1, -, -, h4⟩ := C49_flat _ (by simp) c' hc'
    obtain ⟨h1, -⟩ := h1 (by simp)
    simp only [List.getLast_cons_cons, List.getLast_singleton, List.head_cons, signedDist, sub_zero, mul_zero] at h1 h4
    refine h4 fun p hp => ?_
    have hs : Real.cos θ = 0 := by linarith
    simp only [List.mem_cons, List.not_mem_nil, or_false] at hp
    rcases hp with rfl | rfl | rfl <;> norm_num [hs]
  have h3 : (mirrored 0 1 c).linear = true := by
    simp only [mirrored, linearOf, hp, e, hc', h2]
  exact ⟨c, hc, h1, h3, (C113_offset_line 0 1 (by norm_num) c 3 h1 h3).1⟩

/-- C113: the object for a mirrored contour consists of the mirrored curves, with mirrored ends; its bounds are computed anew. It exists when the
object for the contour does. -/
theorem C113_contour (a b : ℝ) (h : a * a + b * b = 1) (c : Contour ℝ) :
    (∀ bc, BContour.new c = .ok bc → ∃ r, BContour.new (c.map (mirroredBy a b)) = .ok (mirroredContour a b r bc)) ∧
    ∀ e, BContour.new c = .error e → BContour.new (c.map (mirroredBy a b)) = .error e :=
  Mirrored.contour_mirrored h c

/-- C113: the closest point of a mirrored contour to a mirrored point is the image of the closest point, on the same curve. -/
theorem C113_closest (a b : ℝ) (h : a * a + b * b = 1) (p : Pt ℝ) (r : BoundsRectangle ℝ) (steps : Int) (c : BContour) :
    BContour.findClosestPoint (mirrorBy a b p) steps (mirroredContour a b r c) =
      ((BContour.findClosestPoint p steps c).1.map (fun z => (z.1, mirrorBy a b z.2)), mirroredContour a b r (BContour.findClosestPoint p steps c).2) :=
  Mirrored.findClosestPoint_mirrored h p r steps c

/-! ### Changing the signs of coordinates -/

/-- C113: a curve with changed signs is straight exactly when the curve is. Its points and range of parameters are those of the curve, with changed
signs; direction and `clockwise` are those of the new points. -/
theorem C113_flipped (s u : ℝ) (hs : s = 1 ∨ s = -1) (hu : u = 1 ∨ u = -1) (ps : Segment ℝ) : Bezier.new (flippedBy s u ps) = (Bezier.new ps).map (flipped s u) :=
  Flipped.new_flipped hs hu ps

/-- C113: changing the sign of x keeps the direction; changing the sign of y exchanges up and down, if the heights are not all the same. -/
theorem C113_direction (s : ℝ) (ps : Segment ℝ) : computeDirection (flippedBy s 1 ps) = computeDirection ps ∧
    ((∃ p ∈ ps, ∃ q ∈ ps, p.2 ≠ q.2) → computeDirection (flippedBy s (-1) ps) = (computeDirection ps).map upsideDown) := by
  constructor
  · unfold computeDirection
    simp only [Flipped.pyGet_flipped, Flt.map_bind, flipBy, one_mul, Flipped.flippedBy_order]
  · rintro ⟨p, hp, q, hq, hne⟩
    match ps with
    | [] => simp at hp
    | [x] => rfl
    | [x, y] =>
      simp only [List.mem_cons, List.not_mem_nil, or_false] at hp hq
      have : x.2 ≠ y.2 := by
        rcases hp with rfl | rfl <;> rcases hq with rfl | rfl
        exacts [absurd rfl hne, hne, hne.symm, absurd rfl hne]
      rcases lt_or_gt_of_ne this with k | k
      all_goals simp [computeDirection, flippedBy, flipBy, order, pyGet, this, k, k.le, not_lt_of_gt k, upsideDown, Except.map]
    | [x, y, z] =>
      simp only [List.mem_cons, List.not_mem_nil, or_false] at hp hq
      have k : ¬ ((x.2 ≤ y.2 ∧ y.2 ≤ z.2) ∧ (x.2 ≥ y.2 ∧ y.2 ≥ z.2)) := by
        rintro ⟨⟨a1, a2⟩, a3, a4⟩
        apply hne
        rcases hp with rfl | rfl | rfl <;> rcases hq with rfl | rfl | rfl <;> linarith
      have e : ∀ w : Segment ℝ, ∀ x y z, w = [x, y, z] → computeDirection w =
          if x.2 ≤ y.2 ∧ y.2 ≤ z.2 then .ok .up else if x.2 ≥ y.2 ∧ y.2 ≥ z.2 then .ok .down else .ok .mixed := by
        rintro w x y z rfl
        simp [computeDirection, order, pyGet]
      rw [e _ _ _ _ rfl, e (flippedBy s (-1) _) (flipBy s (-1) x) (flipBy s (-1) y) (flipBy s (-1) z) rfl]
      simp only [flipBy, neg_mul, one_mul, neg_le_neg_iff, ge_iff_le] at k ⊢
      split_ifs <;> first | rfl | (exfalso; tauto)
    | [x, y, z, w] =>
      simp only [List.mem_cons, List.not_mem_nil, or_false] at hp hq
      have k : ¬ ((x.2 ≤ y.2 ∧ y.2 ≤ z.2 ∧ z.2 ≤ w.2) ∧ (x.2 ≥ y.2 ∧ y.2 ≥ z.2 ∧ z.2 ≥ w.2)) := by
        rintro ⟨⟨a1, a2, a3⟩, a4, a5, a6⟩
        apply hne
        rcases hp with rfl | rfl | rfl | rfl <;> rcases hq with rfl | rfl | rfl | rfl <;> linarith
      have e : ∀ v : Segment ℝ, ∀ x y z w, v = [x, y, z, w] → computeDirection v =
          if x.2 ≤ y.2 ∧ y.2 ≤ z.2 ∧ z.2 ≤ w.2 then .ok .up else if x.2 ≥ y.2 ∧ y.2 ≥ z.2 ∧ z.2 ≥ w.2 then .ok .down else .ok .mixed := by
        rintro v x y z w rfl
        simp [computeDirection, order, pyGet]
      rw [e _ _ _ _ _ rfl, e (flippedBy s (-1) _) (flipBy s (-1) x) (flipBy s (-1) y) (flipBy s (-1) z) (flipBy s (-1) w) rfl]
      simp only [flipBy, neg_mul, one_mul, neg_le_neg_iff, ge_iff_le] at k ⊢
      split_ifs <;> first | rfl | (exfalso; tauto)
    | x :: y :: z :: w :: v :: l =>
      have e : ∀ (x y z w v : Pt ℝ) l, computeDirection (x :: y :: z :: w :: v :: l) = .ok .mixed := by
        intro x y z w v l
        unfold computeDirection
        have : order (x :: y :: z :: w :: v :: l) = l.length + 4 := by simp [order]; ring
        simp only [pyGet_zero_cons, pyGet_one_cons, pyGet_two_cons, pyGet_three_cons, ok_bind, this]
        rw [if_neg (by omega), if_neg (by omega), if_neg (by omega)]
        rfl
      rw [e, flippedBy]
      simp only [List.map_cons]
      rw [e]
      rfl

/-- A concrete case: a rising quadratic turned upside down. -/
example : computeDirection (flippedBy 1 (-1) [((0 : ℝ), (0 : ℝ)), (1, 1), (2, 5)]) = .ok .down := by
  rw [(C113_direction 1 _).2 ⟨(0, 0), by simp, (1, 1), by simp, by norm_num⟩]
  simp only [computeDirection, order, pyGet_zero_cons, pyGet_one_cons, pyGet_two_cons, ok_bind]
  norm_num [Except.map, upsideDown]

/-- C113: a level quadratic goes up, and so does its image. -/
theorem C113_direction_counterexample : computeDirection [((0 : ℝ), (1 : ℝ)), (1, 1), (2, 1)] = .ok .up ∧
    computeDirection (flippedBy 1 (-1) [((0 : ℝ), (1 : ℝ)), (1, 1), (2, 1)]) = .ok .up := by
  constructor <;> simp only [computeDirection, order, flippedBy, List.map_cons, List.map_nil, pyGet_zero_cons, pyGet_one_cons, pyGet_two_cons, ok_bind] <;>
    norm_num [flipBy]

/-- C113: the parameters of the extrema do not change when signs are changed; only their order per coordinate may. -/
theorem C113_extrema (s u : ℝ) (hs : s = 1 ∨ s = -1) (hu : u = 1 ∨ u = -1) (ps : Segment ℝ) :
    (∃ e, extrema (flippedBy s u ps) = .error e ∧ extrema ps = .error e) ∨
    ∃ e e', extrema (flippedBy s u ps) = .ok e' ∧ extrema ps = .ok e ∧ e'.all = e.all ∧ e'.x.Perm e.x ∧ e'.y.Perm e.y :=
  Flipped.extrema_flipped hs hu ps

/-- C113: the bounds of a curve with changed signs are those of the curve, with the signs changed and the sides exchanged. There is no restriction to the
design space. -/
theorem C113_bounds (s u : ℝ) (hs : s = 1 ∨ s = -1) (hu : u = 1 ∨ u = -1) (ps : Segment ℝ) :
    bbox (flippedBy s u ps) = (bbox ps).map (fun z => (flippedRange s z.1, flippedRange u z.2)) ∧
    boundsRectangle (flippedBy s u ps) = (boundsRectangle ps).map (flippedRect s u) :=
  ⟨Flipped.bbox_flipped hs hu ps, Flipped.boundsRectangle_flipped hs hu ps⟩

/-- C113: unions and intersections of rectangles with changed signs. -/
theorem C113_rectangles (s u : ℝ) (hs : s = 1 ∨ s = -1) (hu : u = 1 ∨ u = -1) (a b : BoundsRectangle ℝ) (ps : List (Pt ℝ)) :
    (flippedRect s u a).union (flippedRect s u b) = flippedRect s u (a.union b) ∧
    (flippedRect s u a).intersection (flippedRect s u b) = (a.intersection b).map (flippedRect s u) ∧
    BoundsRectangle.new (ps.map (flipBy s u)) = flippedRect s u (BoundsRectangle.new ps) :=
  ⟨Flipped.union_flipped hs hu a b, Flipped.intersection_flipped hs hu a b, Flipped.rect_new_flipped hs hu ps⟩

/-- A concrete case: a rectangle mirrored in the y axis. -/
example : BoundsRectangle.new [((-1 : ℝ), (2 : ℝ)), (-3, 5)] = ⟨-3, 2, -1, 5⟩ := by
  rw [show [((-1 : ℝ), (2 : ℝ)), (-3, 5)] = [((1 : ℝ), (2 : ℝ)), (3, 5)].map (flipBy (-1) 1) by norm_num [flipBy],
    (C113_rectangles (-1) 1 (by simp) (by simp) ⟨0, 0, 0, 0⟩ ⟨0, 0, 0, 0⟩ _).2.2]
  norm_num [flippedRect, flippedRange, BoundsRectangle.new, BoundsRectangle.init, BoundsRectangle.addPoint]

/-- C113: curves with changed signs overlap when the curves do, and meet at the same parameters. -/
theorem C113_meet (s u : ℝ) (hs : s = 1 ∨ s = -1) (hu : u = 1 ∨ u = -1) (b c : Bezier) (depth : Nat) (θ : ℝ) :
    overlaps (flipped s u b) (flipped s u c) = overlaps b c ∧
    (QuadOrCubic b → QuadOrCubic c → pairiteration depth (flipped s u b) (flipped s u c) θ = pairiteration depth b c θ) ∧
    (b.controlPoints.length = 3 ∨ s = u ∧ b.controlPoints.length = 4 → reduce (flipped s u b) = (reduce b).map (List.map (flipped s u))) ∧
    (b.controlPoints.length = 3 ∨ s = u ∧ b.controlPoints.length = 4 → intersects depth (flipped s u b) none θ = intersects depth b none θ) ∧
    (b.controlPoints.length = 3 ∨ s = u ∧ b.controlPoints.length = 4 → c.controlPoints.length = 3 ∨ s = u ∧ c.controlPoints.length = 4 →
      intersects depth (flipped s u b) (some (flipped s u c)) θ = intersects depth b (some c) θ) := by
  have k : ∀ b : Bezier, b.controlPoints.length = 3 ∨ s = u ∧ b.controlPoints.length = 4 → QuadOrCubic b ∧ Flipped.Even s u b := by
    rintro b (h | ⟨h, h'⟩)
    · exact ⟨Or.inl h, Or.inr h⟩
    · exact ⟨Or.inr h', Or.inl h⟩
  exact ⟨Flipped.overlaps_flipped hs hu b c, fun h1 h2 => Flipped.pairiteration_flipped hs hu depth b c h1 h2 θ, fun h => Flipped.reduce_flipped hs hu b (k b h).2,
    fun h => Flipped.intersects_flipped hs hu depth b none (k b h) (by simp) θ,
    fun h h' => Flipped.intersects_flipped hs hu depth b (some c) (k b h) (by rintro _ ⟨⟩; exact k c h') θ⟩

/-- A concrete case: a quadratic arch mirrored in the y axis. -/
example : ∃ b, Bezier.new [(0, 0), (1, 4), (2, 0)] = .ok b ∧ reduce (flipped (-1) 1 b) = (reduce b).map (List.map (flipped (-1) 1)) := by
  obtain ⟨b, hb, hp, -⟩ := new_ok [((0 : ℝ), (0 : ℝ)), (1, 4), (2, 0)] (by simp)
  exact ⟨b, hb, (C113_meet (-1) 1 (by simp) (by simp) b b 0 0).2.2.1 (Or.inl (by rw [hp]; rfl))⟩

/-- C113: contours and outlines with changed signs, bounds included; tables and edits of contours. -/
theorem C113_outline (s u : ℝ) (hs : s = 1 ∨ s = -1) (hu : u = 1 ∨ u = -1) (cs : List (Contour ℝ)) (c : Contour ℝ) (bc : BContour) (i steps : Int) (ps : Segment ℝ) :
    BOutline.new (cs.map (List.map (flippedBy s u))) = (BOutline.new cs).map (flippedOutline s u) ∧
    BContour.new (c.map (flippedBy s u)) = (BContour.new c).map (flippedContour s u) ∧
    BContour.getLUT steps (flippedContour s u bc) = ((BContour.getLUT steps bc).1.map (flippedBy s u), flippedContour s u (BContour.getLUT steps bc).2) ∧
    BContour.setitem i (flippedBy s u ps) (flippedContour s u bc) = ((BContour.setitem i ps bc).1, flippedContour s u (BContour.setitem i ps bc).2) ∧
    BContour.delitem i (flippedContour s u bc) = ((BContour.delitem i bc).1, flippedContour s u (BContour.delitem i bc).2) :=
  ⟨Flipped.outline_flipped hs hu cs, Flipped.contour_flipped hs hu c, Flipped.getLUT_flipped hs hu steps bc, Flipped.setitem_flipped hs hu i ps bc,
    Flipped.delitem_flipped s u i bc⟩

end PathLib
