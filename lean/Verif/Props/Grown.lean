import Verif.Lemmas.GrownContour
import Verif.Lemmas.GrownOffset
import Verif.Props.BezierRoots
import Verif.Props.BezierShape
import Verif.Props.Transform

set_option linter.unusedSectionVars false
set_option linter.unusedSimpArgs false

/-!
# Scaling a curve scales what is computed from it: C106

Equality here is equality of results, exceptions included. `k` is a positive number.
-/

namespace PathLib
open Spec Bezier

section field
variable {K : Type} [Field K] [LinearOrder K] [IsStrictOrderedRing K]

/-- C106: scaling by `k` in both directions multiplies every coordinate by `k`. -/
theorem C106_transform (k : K) (cs : List (Contour K)) :
    ∃ T, Transform.scale k k = .ok T ∧ T.applyToContours cs = .ok (cs.map (List.map (grownBy k))) := by
  refine ⟨_, rfl, ?_⟩
  have hp : ∀ p : Pt K, Transform.applyToPoint ⟨Transform.scaleMatrix k k⟩ p = .ok (growBy k p) := by
    intro p
    rw [Transform.scaleMatrix, Transform.applyToPoint_affine]
    simp [growBy]
  unfold Transform.applyToContours Transform.applyToContour Transform.applyToSegment
  exact mapM_ok _ _ _ fun c _ => mapM_ok _ _ _ fun s _ => mapM_ok _ _ _ fun p _ => hp p

/-- C106: points, hulls, tables, the points of the raised curve and of the derivatives, and derivatives scale along. -/
theorem C106_points (k : K) (ps : Segment K) (t : K) (n : Int) :
    Bezier.get (grownBy k ps) t = (Bezier.get ps t).map (growBy k) ∧
    hull (grownBy k ps) t = grownBy k (hull ps t) ∧
    lutOf (grownBy k ps) n = (lutOf ps n).map (grownBy k) ∧
    raiseOrderPoints (grownBy k ps) = (raiseOrderPoints ps).map (grownBy k) ∧
    dcPoints (grownBy k ps) = (dcPoints ps).map (grownBy k) ∧
    derivative (grownBy k ps) t = (derivative ps t).map (growBy k) :=
  ⟨Grown.get_grown k ps t, Grown.hull_grown k ps t, Grown.lutOf_grown k ps n, Grown.raiseOrderPoints_grown k ps, Grown.dcPoints_grown k ps,
    Grown.derivative_grown k ps t⟩

/-- C106: the direction does not change, and the projections `A`, `B`, `C` scale along while their ratio is kept. -/
theorem C106_projection (k : K) (hk : 0 < k) (ps : Segment K) (t : K) :
    computeDirection (grownBy k ps) = computeDirection ps ∧
    getABC (grownBy k ps) t = (getABC ps t).map fun (a, b, c, r, h) => (growBy k a, growBy k b, c.map (growBy k), r, grownBy k h) :=
  ⟨Grown.computeDirection_grown hk ps, Grown.getABC_grown hk ps t⟩

/-- A concrete case: the middle and the derivative there of the arch (0, 0), (1, 2), (2, 0) and of the same arch three times as large. -/
example : Bezier.get [((0 : ℚ), (0 : ℚ)), (1, 2), (2, 0)] (1/2) = .ok (1, 1) ∧ Bezier.get [((0 : ℚ), (0 : ℚ)), (3, 6), (6, 0)] (1/2) = .ok (3, 3) ∧
    derivative [((0 : ℚ), (0 : ℚ)), (1, 2), (2, 0)] (1/4) = .ok (2, 2) ∧ derivative [((0 : ℚ), (0 : ℚ)), (3, 6), (6, 0)] (1/4) = .ok (6, 6) ∧
    grownBy (3 : ℚ) [((0 : ℚ), (0 : ℚ)), (1, 2), (2, 0)] = [(0, 0), (3, 6), (6, 0)] := by
  decide +kernel

/-- C106: with a negative factor the direction changes. -/
theorem C106_direction_counterexample :
    ∃ ps : Segment ℚ, computeDirection (grownBy (-1) ps) ≠ computeDirection ps := by
  refine ⟨[(0, 0), (0, 1)], ?_⟩
  decide +kernel

end field

/-- C106: the constructor accepts the same points, and direction and orientation are the same. Whether the curve is taken for a line
is decided anew. -/
theorem C106_new (k : ℝ) (hk : 0 < k) (ps : Segment ℝ) : Bezier.new (grownBy k ps) = (Bezier.new ps).map (grown k) := Grown.new_grown hk ps

/-- C106: a curve that is not taken for a line can be taken for a line after scaling, because the tolerance does not scale. -/
theorem C106_linear_counterexample :
    ∃ (k : ℝ) (ps : Segment ℝ) (b b' : Bezier), 0 < k ∧ Bezier.new ps = .ok b ∧ Bezier.new (grownBy k ps) = .ok b' ∧ b.linear = false ∧ b'.linear = true := by
  obtain ⟨b, hb, -⟩ := new_ok [((0:ℝ), (0:ℝ)), (3, 2), (6, 0)] (by simp)
  obtain ⟨b', hb', -⟩ := new_ok (grownBy (1 / 1000000) [((0:ℝ), (0:ℝ)), (3, 2), (6, 0)]) (by simp)
  refine ⟨1 / 1000000, _, b, b', by norm_num, hb, hb', ?_, ?_⟩
  · obtain ⟨θ, h1, -, h3, -⟩ := C49_flat _ (by simp) b hb
    obtain ⟨h1, h1'⟩ := h1 (by simp)
    by_contra hc
    have := h3 (by simpa using hc) (3, 2) (by simp)
    simp only [List.getLast_cons_cons, List.getLast_singleton, List.head_cons, signedDist, along, sub_zero] at h1 h1' this
    have hs : Real.sin θ = 0 := by linarith
    have hc1 : Real.cos θ = 1 := by
      have := Real.sin_sq_add_cos_sq θ
      rw [hs] at this
      nlinarith
    rw [hs, hc1] at this
    norm_num at this
  · obtain ⟨θ, -, -, -, h4⟩ := C49_flat _ (by simp [grownBy]) b' hb'
    refine h4 fun p hp => ?_
    have hx : ∀ x y : ℝ, 0 ≤ x → 0 ≤ y → x ≤ 1 / 100000 → y ≤ 1 / 100000 → |Real.cos θ * y - Real.sin θ * x| + 5e-16 * (|x| + |y|) ≤ 1 / 10000 := by
      intro x y x0 y0 x1 y1
      have c := abs_le.mp (Real.abs_cos_le_one θ)
      have s := abs_le.mp (Real.abs_sin_le_one θ)
      have : |Real.cos θ * y - Real.sin θ * x| ≤ y + x := by
        rw [abs_le]; constructor <;> nlinarith
      rw [abs_of_nonneg x0, abs_of_nonneg y0]
      linarith
    simp only [grownBy, growBy, List.map_cons, List.map_nil, List.mem_cons, List.not_mem_nil, or_false] at hp
    simp only [grownBy, growBy, List.map_cons, List.map_nil, List.head_cons, signedDist]
    rcases hp with rfl | rfl | rfl <;> refine hx _ _ ?_ ?_ ?_ ?_ <;> norm_num

/-- C106: normals, tangents, the parameters of the extrema and whether the curve is simple do not change; the length scales along. -/
theorem C106_shape (k : ℝ) (hk : 0 < k) (ps : Segment ℝ) (t : ℝ) :
    normal (grownBy k ps) t = normal ps t ∧ tangent (grownBy k ps) t = tangent ps t ∧ extrema (grownBy k ps) = extrema ps ∧
    lengthOf (grownBy k ps) = (lengthOf ps).map (k * ·) ∧ simple (grownBy k ps) = simple ps :=
  ⟨Grown.normal_grown hk ps t, Grown.tangent_grown hk ps t, Grown.extrema_grown hk ps, Grown.lengthOf_grown hk ps, Grown.simple_grown hk ps⟩

/-- C106: the parts of a scaled curve are the scaled parts, for one or two parameters. -/
theorem C106_split (k : ℝ) (hk : 0 < k) (b : Bezier) (t1 : ℝ) (t2 : Option ℝ) : split (grown k b) t1 t2 = (split b t1 t2).map (grownSplit k) :=
  Grown.split_grown hk b t1 t2

/-- C106: the reduction of a scaled curve consists of the scaled pieces, for the same parameters. -/
theorem C106_reduce (k : ℝ) (hk : 0 < k) (b : Bezier) : reduce (grown k b) = (reduce b).map (List.map (grown k)) := Grown.reduce_grown hk b

/-- C106: a scaled curve raises to the scaled raised curve, and of order at most 3 it scales, for the scaled number or function, to the scaled
result. -/
theorem C106_scale (k : ℝ) (hk : 0 < k) (b : Bezier) :
    raiseOrder (grown k b) = (raiseOrder b).map (grown k) ∧
    ∀ d : Distance, b.controlPoints.length ≤ 4 → scale (grown k b) (grownDistance k d) = (scale b d).map (grown k) :=
  ⟨Grown.raiseOrder_grown hk b, fun d h => Grown.scale_grown hk b d h⟩

/-- C106: the point at `k` times the distance `d`, next to a point of the scaled curve. -/
theorem C106_offset_point (k : ℝ) (hk : 0 < k) (b : Bezier) (t d : ℝ) (hd : d ≠ 0) :
    (∀ c n p, offset b t (some d) = .ok (.points c n p) → offset (grown k b) t (some (k * d)) = .ok (.points (growBy k c) n (growBy k p))) ∧
    (∀ e, offset b t (some d) = .error e → offset (grown k b) t (some (k * d)) = .error e) := by
  have h : offset (grown k b) t (some (k * d)) = (offsetPoint b.controlPoints t d).map fun (c, n, p) => .points (growBy k c) n (growBy k p) := by
    simp only [offset, ne_eq, mul_eq_zero, hk.ne', hd, or_self, not_false_eq_true, if_true, show (grown k b).controlPoints = grownBy k b.controlPoints from rfl,
      Grown.offsetPoint_grown hk]
    cases offsetPoint b.controlPoints t d <;> rfl
  rw [h]
  simp only [offset, ne_eq, hd, not_false_eq_true, if_true]
  cases offsetPoint b.controlPoints t d with
  | error e => exact ⟨fun _ _ _ h => (by cases h), fun e' h => (by cases h; rfl)⟩
  | ok z => exact ⟨fun _ _ _ h => (by cases h; rfl), fun e' h => (by cases h)⟩

/-- C106: the offset curves of a scaled curve at `k` times the distance are the scaled offset curves, when the same pieces are taken for lines. -/
theorem C106_offset (k : ℝ) (hk : 0 < k) (b : Bezier) (t : ℝ) (hl : linearOf (grownBy k b.controlPoints) = b.linear)
    (hr : b.linear = false → ∀ l, reduce b = .ok l → ∀ r ∈ l, linearOf (grownBy k r.controlPoints) = r.linear) :
    offsetCurves (grown k b) (k * t) = (offsetCurves b t).map (List.map (grown k)) := by
  unfold offsetCurves
  simp only [show (grown k b).linear = linearOf (grownBy k b.controlPoints) from rfl, hl]
  split_ifs with hb
  · simp only [Grown.offsetLinear_grown hk, Flt.map_bind, Moved.map_do, pure_eq_ok, Moved.map_eq_ok, List.map_cons, List.map_nil]
  · rw [Grown.reduce_grown hk]
    cases hl : reduce b with
    | error e => rfl
    | ok l =>
      simp only [Moved.map_eq_ok, ok_bind]
      rw [List.mapM_map]
      refine Moved.map_mapM _ _ _ _ fun r hm => ?_
      simp only [Function.comp_apply, show (grown k r).linear = linearOf (grownBy k r.controlPoints) from rfl, hr (by simpa using hb) l hl r hm]
      split_ifs
      · exact Grown.offsetLinear_grown hk r t
      · exact Grown.scale_grown hk r (.const t) (Moved.reduce_short b l hl r hm)

/-- A concrete case: a straight curve stays straight when it is three times as large. -/
example : ∃ b, Bezier.new [(0, 0), (1, 0), (2, 0)] = .ok b ∧ b.linear = true ∧ linearOf (grownBy 3 b.controlPoints) = b.linear := by
  obtain ⟨b, h, hb, _⟩ := new_ok [((0 : ℝ), (0 : ℝ)), (1, 0), (2, 0)] (by simp)
  obtain ⟨b', h', _, _⟩ := new_ok (grownBy 3 [((0 : ℝ), (0 : ℝ)), (1, 0), (2, 0)]) (by simp)
  have e : b.linear = true := by
    obtain ⟨θ, h1, -, -, h4⟩ := C49_flat _ (by simp) b h
    obtain ⟨h1, -⟩ := h1 (by simp)
    simp only [List.getLast_cons_cons, List.getLast_singleton, List.head_cons, signedDist, sub_zero, mul_zero, zero_sub] at h1 h4
    refine h4 fun p hp => ?_
    have hs : Real.sin θ = 0 := by linarith
    simp only [List.mem_cons, List.not_mem_nil, or_false] at hp
    rcases hp with rfl | rfl | rfl <;> norm_num [hs]
  have e' : b'.linear = true := by
    obtain ⟨θ, h1, -, -, h4⟩ := C49_flat _ (by simp [grownBy]) b' h'
    obtain ⟨h1, -⟩ := h1 (by simp [grownBy, growBy])
    simp only [grownBy, growBy, List.map_cons, List.map_nil, List.getLast_cons_cons, List.getLast_singleton, List.head_cons, signedDist, sub_zero, mul_zero, zero_sub] at h1 h4
    refine h4 fun p hp => ?_
    have hs : Real.sin θ = 0 := by linarith
    simp only [List.mem_cons, List.not_mem_nil, or_false] at hp
    rcases hp with rfl | rfl | rfl <;> norm_num [hs]
  refine ⟨b, h, e, ?_⟩
  unfold linearOf
  rw [hb, h', e]
  exact e'

/-- C106: a scaled quadratic meets a scaled line, or the axis, at the same parameters. -/
theorem C106_roots (k : ℝ) (hk : 0 < k) (ps : Segment ℝ) (h3 : ps.length = 3) (segment : Option (Segment ℝ)) :
    roots (grownBy k ps) (segment.map (grownBy k)) = roots ps segment :=
  Grown.roots_grown hk ps h3 segment

/-- C106: a small cubic has no roots: the ordinates -1/2, -1/6, 1/6, 1/2 give the root 1/2, the same ordinates divided by ten million none,
because the tolerances do not scale. -/
theorem C106_roots_counterexample :
    ∃ (k : ℝ) (ps : Segment ℝ), 0 < k ∧ roots ps none = .ok [1 / 2] ∧ roots (grownBy k ps) none = .ok [] := by
  refine ⟨1 / 10000000, [(0, -1/2), (1, -1/6), (2, 1/6), (3, 1/2)], by norm_num, ?_, ?_⟩
  · simp only [roots, order, List.length_cons, List.length_nil, pure_eq_ok, ok_bind, pyGet_zero_cons, pyGet_one_cons, pyGet_two_cons, pyGet_three_cons, cubicRoots]
    norm_num [butils.approximately, butils.epsilon, pdiv, keepRoots, ok_bind]
    rw [List.filterMap_cons_some (b := 1 / 2) (by rw [Option.filter_some, if_pos (by norm_num)]), List.filterMap_nil]
  · simp only [roots, order, grownBy, growBy, List.map_cons, List.map_nil, List.length_cons, List.length_nil, pure_eq_ok, ok_bind, pyGet_zero_cons, pyGet_one_cons,
      pyGet_two_cons, pyGet_three_cons, cubicRoots]
    norm_num [butils.approximately, butils.epsilon, pdiv, keepRoots, ok_bind]

/-- C106: the bounds of a curve scale along while the curve is in the design space. -/
theorem C106_bounds (k : ℝ) (hk : 0 < k) (ps : Segment ℝ) (h2 : 2 ≤ ps.length) (h : DesignScaled k ps) :
    bbox (grownBy k ps) = (bbox ps).map (grownBox k) ∧ boundsRectangle (grownBy k ps) = (boundsRectangle ps).map (grownRect k) :=
  ⟨Grown.bbox_grown hk ps (Grown.inside_fits h h2), Grown.boundsRectangle_grown hk ps (Grown.inside_fits h h2)⟩

/-- A concrete case: an arch scaled from 50 to 2000 units. -/
theorem arch_scales : DesignScaled 40 [(0, 0), (30, 40), (50, 0)] := by
  intro p hp
  simp only [List.mem_cons, List.not_mem_nil, or_false] at hp
  rcases hp with rfl | rfl | rfl <;> norm_num [InDesignSpace, growBy]

/-- C106: two quadratics or cubics scaled together, in the design space, overlap as before, and `intersects` with the scaled threshold finds the
same pairs of parameters (or fails in the same way), also for a curve with itself. -/
theorem C106_intersects (k : ℝ) (hk : 0 < k) (depth : Nat) (b : Bezier) (curve : Option Bezier) (hb : QuadOrCubic b) (db : DesignScaled k b.controlPoints)
    (hc : ∀ c ∈ curve, QuadOrCubic c ∧ DesignScaled k c.controlPoints) (θ : ℝ) :
    intersects depth (grown k b) (curve.map (grown k)) (k * θ) = intersects depth b curve θ ∧
    ∀ c ∈ curve, overlaps (grown k b) (grown k c) = overlaps b c := by
  have two : ∀ c : Bezier, QuadOrCubic c → 2 ≤ c.controlPoints.length := by
    intro c h; unfold QuadOrCubic at h; omega
  refine ⟨Grown.intersects_grown hk depth b curve ⟨hb, Grown.inside_fits db (two b hb)⟩
    (fun c h => ⟨(hc c h).1, Grown.inside_fits (hc c h).2 (two c (hc c h).1)⟩) θ, fun c h => ?_⟩
  exact Grown.overlaps_grown hk b c (Grown.inside_fits db (two b hb)) (Grown.inside_fits (hc c h).2 (two c (hc c h).1))

/-- A concrete case: the curve of the arch above. -/
example : ∃ b, Bezier.new [(0, 0), (30, 40), (50, 0)] = .ok b ∧ QuadOrCubic b ∧ DesignScaled 40 b.controlPoints := by
  obtain ⟨b, h, hb, _⟩ := new_ok [((0 : ℝ), (0 : ℝ)), (30, 40), (50, 0)] (by simp)
  exact ⟨b, h, by rw [QuadOrCubic, hb]; simp, by rw [hb]; exact arch_scales⟩

/-- C106: in the design space the object for a scaled contour is the scaled object: curves, bounds, start and end. -/
theorem C106_contour (k : ℝ) (hk : 0 < k) (c : Contour ℝ) (h : ∀ s ∈ c, DesignScaled k s) : BContour.new (c.map (grownBy k)) = (BContour.new c).map (grownContour k) :=
  Grown.contour_grown hk c h

/-- A concrete case: the arch closed by a line. -/
example : ∃ bc, BContour.new [[(0, 0), (30, 40), (50, 0)], [(50, 0), (0, 0)]] = .ok bc ∧
    BContour.new [[(0, 0), (1200, 1600), (2000, 0)], [(2000, 0), (0, 0)]] = .ok (grownContour 40 bc) := by
  obtain ⟨bc, h⟩ := (C52_new [[((0 : ℝ), (0 : ℝ)), (30, 40), (50, 0)], [(50, 0), (0, 0)]]).mpr ⟨by simp, by simp⟩
  refine ⟨bc, h, ?_⟩
  have := C106_contour 40 (by norm_num) [[((0 : ℝ), (0 : ℝ)), (30, 40), (50, 0)], [(50, 0), (0, 0)]] (by
    intro s hs p hp
    have hp' : p ∈ [((0 : ℝ), (0 : ℝ)), (30, 40), (50, 0)] := by
      simp only [List.mem_cons, List.not_mem_nil, or_false] at hs
      rcases hs with rfl | rfl
      · exact hp
      · simp only [List.mem_cons, List.not_mem_nil, or_false] at hp ⊢
        tauto
    exact arch_scales p hp')
  rw [h] at this
  rw [← Moved.map_eq_ok, ← this]
  norm_num [grownBy, growBy]

/-- C106: in the design space the object for a scaled, non-empty list of contours is the scaled object. -/
theorem C106_outline (k : ℝ) (hk : 0 < k) (cs : List (Contour ℝ)) (hne : cs ≠ []) (h : ∀ c ∈ cs, ∀ s ∈ c, DesignScaled k s) :
    BOutline.new (cs.map (List.map (grownBy k))) = (BOutline.new cs).map (grownOutline k) :=
  Grown.outline_grown hk cs hne h

/-- C106: what is done to a scaled contour object, with scaled segments, has the scaled effect: changes, deletions, tables. -/
theorem C106_edits (k : ℝ) (hk : 0 < k) (c : BContour) (i : Int) (s : Segment ℝ) (steps : Int) :
    BContour.setitem i (grownBy k s) (grownContour k c) = ((BContour.setitem i s c).1, grownContour k (BContour.setitem i s c).2) ∧
    BContour.delitem i (grownContour k c) = ((BContour.delitem i c).1, grownContour k (BContour.delitem i c).2) ∧
    BContour.getLUT steps (grownContour k c) = ((BContour.getLUT steps c).1.map (grownBy k), grownContour k (BContour.getLUT steps c).2) :=
  ⟨Grown.setitem_grown hk i s c, Grown.delitem_grown k i c, Grown.getLUT_grown k steps c⟩

end PathLib
