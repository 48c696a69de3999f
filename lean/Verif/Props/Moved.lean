import Verif.Lemmas.MovedContour
import Verif.Props.BezierRoots
import Verif.Props.Transform

set_option linter.unusedSectionVars false
set_option linter.unusedSimpArgs false

/-!
# Moving a curve moves everything computed from it: C102

Equality here is equality of results, exceptions included.
-/

namespace PathLib
open Spec Bezier

section field
variable {K : Type} [Field K] [LinearOrder K] [IsStrictOrderedRing K]

/-- C102: the translation from `a` to `b` moves every point of every contour by `b - a`. -/
theorem C102_translate (a b : Pt K) (cs : List (Contour K)) :
    ∃ T, Transform.translate a b = .ok T ∧ T.applyToContours cs = .ok (cs.map (List.map (movedBy (b.1 - a.1, b.2 - a.2)))) := by
  refine ⟨_, rfl, ?_⟩
  have hp : ∀ p : Pt K, Transform.applyToPoint ⟨Transform.translateMatrix a b⟩ p = .ok (moveBy (b.1 - a.1, b.2 - a.2) p) := by
    intro p
    obtain ⟨T, h, h'⟩ := C02_translate a b p
    cases h
    exact h'
  unfold Transform.applyToContours Transform.applyToContour Transform.applyToSegment
  exact mapM_ok _ _ _ fun c _ => mapM_ok _ _ _ fun s _ => mapM_ok _ _ _ fun p _ => hp p

/-- C102: points, hulls, tables, projections and the points of the raised curve move along; derivatives do not change. -/
theorem C102_points (v : Pt K) (ps : Segment K) (t : K) (n : Int) :
    Bezier.get (movedBy v ps) t = (Bezier.get ps t).map (moveBy v) ∧
    hull (movedBy v ps) t = movedBy v (hull ps t) ∧
    lutOf (movedBy v ps) n = (lutOf ps n).map (movedBy v) ∧
    raiseOrderPoints (movedBy v ps) = (raiseOrderPoints ps).map (movedBy v) ∧
    dcPoints (movedBy v ps) = dcPoints ps ∧
    derivative (movedBy v ps) t = derivative ps t ∧
    computeDirection (movedBy v ps) = computeDirection ps :=
  ⟨Moved.get_moved v ps t, Moved.hull_moved v ps t, Moved.lutOf_moved v ps n, Moved.raiseOrderPoints_moved v ps, Moved.dcPoints_moved v ps,
    Moved.derivative_moved v ps t, Moved.computeDirection_moved v ps⟩

/-- A concrete case: the middle of the arch (0, 0), (1, 2), (2, 0) and of the same arch moved by (10, 20). -/
example : Bezier.get [((0 : ℚ), (0 : ℚ)), (1, 2), (2, 0)] (1/2) = .ok (1, 1) ∧ Bezier.get [((10 : ℚ), (20 : ℚ)), (11, 22), (12, 20)] (1/2) = .ok (11, 21) := by
  decide +kernel

end field

/-- C102: the constructor accepts the same points, and the attributes other than the points (direction, whether the curve is straight,
whether it is clockwise) are the same. -/
theorem C102_new (v : Pt ℝ) (ps : Segment ℝ) : Bezier.new (movedBy v ps) = (Bezier.new ps).map (moved v) := Moved.new_moved v ps

/-- C102: normals, tangents, the parameters of the extrema, the length and whether the curve is simple do not change. -/
theorem C102_shape (v : Pt ℝ) (ps : Segment ℝ) (t : ℝ) :
    normal (movedBy v ps) t = normal ps t ∧ tangent (movedBy v ps) t = tangent ps t ∧ extrema (movedBy v ps) = extrema ps ∧
    lengthOf (movedBy v ps) = lengthOf ps ∧ simple (movedBy v ps) = simple ps :=
  ⟨Moved.normal_moved v ps t, Moved.tangent_moved v ps t, Moved.extrema_moved v ps, Moved.lengthOf_moved v ps, Moved.simple_moved v ps⟩

/-- C102: the parts of a moved curve are the moved parts, for one or two parameters. -/
theorem C102_split (v : Pt ℝ) (b : Bezier) (t1 : ℝ) (t2 : Option ℝ) : split (moved v b) t1 t2 = (split b t1 t2).map (movedSplit v) :=
  Moved.split_moved v b t1 t2

/-- C102: the reduction of a moved curve consists of the moved pieces, for the same parameters. -/
theorem C102_reduce (v : Pt ℝ) (b : Bezier) : reduce (moved v b) = (reduce b).map (List.map (moved v)) := Moved.reduce_moved v b

/-- C102: a moved curve raises to the moved raised curve, and its offset is the moved offset. -/
theorem C102_offset (v : Pt ℝ) (b : Bezier) (t : ℝ) (d : Option ℝ) :
    raiseOrder (moved v b) = (raiseOrder b).map (moved v) ∧ offset (moved v b) t d = (offset b t d).map (movedOffset v) :=
  ⟨Moved.raiseOrder_moved v b, Moved.offset_moved v b t d⟩

/-- C102: a moved curve of order at most 3 scales to the moved scaled curve, for a number and for a function. -/
theorem C102_scale (v : Pt ℝ) (b : Bezier) (d : Distance) (h : b.controlPoints.length ≤ 4) : scale (moved v b) d = (scale b d).map (moved v) :=
  Moved.scale_moved v b d h

/-- C102: aligning forgets where the curve was, and the tight box moves along, wherever the curve is. -/
theorem C102_tight (v : Pt ℝ) (b : Bezier) :
    align (moved v b) none = align b none ∧ tightbbox (moved v b) = (tightbbox b).map (List.map (movedBy v)) :=
  ⟨Moved.align_moved v b, Moved.tightbbox_moved v b⟩

/-- C102: a moved curve meets a moved line at the same parameters, and the point where it meets the line moves along. -/
theorem C102_lines (v : Pt ℝ) (ps line : Segment ℝ) (hl : line ≠ []) (p1 p2 : Pt ℝ) :
    roots (movedBy v ps) (some (movedBy v line)) = roots ps (some line) ∧
    lineIntersects (movedBy v ps) (moveBy v p1) (moveBy v p2) = lineIntersects ps p1 p2 ∧
    intersectWithLine (movedBy v ps) (movedBy v line) = (intersectWithLine ps line).map (Option.map (moveBy v)) := by
  refine ⟨?_, Moved.lineIntersects_moved v ps p1 p2, Moved.intersectWithLine_moved v ps line hl⟩
  obtain ⟨s, rest, rfl⟩ := List.exists_cons_of_ne_nil hl
  exact Moved.roots_moved v ps s rest

/-- C102: `roots()` without a line means the horizontal axis, which does not move. -/
theorem C102_roots_counterexample :
    ∃ (v : Pt ℝ) (ps : Segment ℝ) (l l' : List ℝ), roots ps none = .ok l ∧ roots (movedBy v ps) none = .ok l' ∧ (1 / 2 : ℝ) ∈ l ∧ l' = [] := by
  obtain ⟨l, h, hl⟩ := C43_quadratic [(0, -1), (1, 0), (2, 1)] rfl
  obtain ⟨l', h', hl'⟩ := C43_quadratic (movedBy (0, 5) [(0, -1), (1, 0), (2, 1)]) rfl
  refine ⟨(0, 5), _, l, l', h, h', ?_, ?_⟩
  · rw [hl]
    refine ⟨by unfold NearUnit; norm_num, ⟨0, ?_⟩, ?_⟩ <;> simp only [curve_three] <;> norm_num
  · refine List.eq_nil_iff_forall_not_mem.mpr fun t ht => ?_
    obtain ⟨⟨h1, h2⟩, _, h3⟩ := (hl' t).mp ht
    beta_reduce at h3
    rw [Moved.curve_moved _ _ (by simp)] at h3
    simp only [moveBy, curve_three] at h3
    norm_num at h1 h2
    nlinarith

/-- C102: the bounds of a curve move along while the curve is in the design space. -/
theorem C102_bounds (v : Pt ℝ) (ps : Segment ℝ) (h2 : 2 ≤ ps.length) (h : DesignBoth v ps) :
    bbox (movedBy v ps) = (bbox ps).map (movedBox v) ∧ boundsRectangle (movedBy v ps) = (boundsRectangle ps).map (movedRect v) :=
  ⟨Moved.bbox_moved v ps (Moved.inside_fits h h2), Moved.boundsRectangle_moved v ps (Moved.inside_fits h h2)⟩

/-- A concrete case: an arch and a move to the right. -/
theorem arch_fits : DesignBoth (100, 0) [(0, 0), (30, 40), (50, 0)] := by
  intro p hp
  simp only [List.mem_cons, List.not_mem_nil, or_false] at hp
  rcases hp with rfl | rfl | rfl <;> norm_num [InDesignSpace, moveBy]

/-- C102: the rectangle of a curve outside the design space does not move along: it reaches back to 32768. -/
theorem C102_bounds_counterexample :
    ∃ (v : Pt ℝ) (ps : Segment ℝ) (r r' : BoundsRectangle ℝ), boundsRectangle ps = .ok r ∧ boundsRectangle (movedBy v ps) = .ok r' ∧ r'.left ≠ r.left + v.1 := by
  obtain ⟨r, hr, hp, _⟩ := boundsRectangle_ok [(40000, 0), (40001, 1)] (by simp)
  obtain ⟨r', hr', _, ⟨t, h0, h1, ht⟩, _⟩ := C37_tight (movedBy (-40000, 0) [(40000, 0), (40001, 1)]) (by simp) (by
    intro p hp
    simp only [movedBy, List.map_cons, List.map_nil, List.mem_cons, List.not_mem_nil, or_false] at hp
    rcases hp with rfl | rfl <;> norm_num [InDesignSpace, moveBy])
  refine ⟨(-40000, 0), _, r, r', hr, hr', fun e => ?_⟩
  have h3 := hp.hl
  rw [Moved.curve_moved _ _ (by simp)] at ht
  simp only [moveBy, curve_two] at ht
  simp only at e
  nlinarith

/-- C102: two quadratics or cubics moved together, in the design space, overlap as before, and `intersects` finds the same pairs of parameters
(or fails in the same way), also for a curve with itself. -/
theorem C102_intersects (v : Pt ℝ) (depth : Nat) (b : Bezier) (curve : Option Bezier) (hb : QuadOrCubic b) (db : DesignBoth v b.controlPoints)
    (hc : ∀ c ∈ curve, QuadOrCubic c ∧ DesignBoth v c.controlPoints) (θ : ℝ) :
    intersects depth (moved v b) (curve.map (moved v)) θ = intersects depth b curve θ ∧
    ∀ c ∈ curve, overlaps (moved v b) (moved v c) = overlaps b c := by
  have two : ∀ c : Bezier, QuadOrCubic c → 2 ≤ c.controlPoints.length := by
    intro c h; unfold QuadOrCubic at h; omega
  refine ⟨Moved.intersects_moved v depth b curve ⟨hb, Moved.inside_fits db (two b hb)⟩
    (fun c h => ⟨(hc c h).1, Moved.inside_fits (hc c h).2 (two c (hc c h).1)⟩) θ, fun c h => ?_⟩
  exact Moved.overlaps_moved v b c (Moved.inside_fits db (two b hb)) (Moved.inside_fits (hc c h).2 (two c (hc c h).1))

/-- A concrete case: the curve of the arch above. -/
example : ∃ b, Bezier.new [(0, 0), (30, 40), (50, 0)] = .ok b ∧ QuadOrCubic b ∧ DesignBoth (100, 0) b.controlPoints := by
  obtain ⟨b, h, hb, _⟩ := new_ok [((0 : ℝ), (0 : ℝ)), (30, 40), (50, 0)] (by simp)
  exact ⟨b, h, by rw [QuadOrCubic, hb]; simp, by rw [hb]; exact arch_fits⟩

/-- C102: in the design space the object for a moved contour is the moved object: curves, bounds, start and end. -/
theorem C102_contour (v : Pt ℝ) (c : Contour ℝ) (h : ∀ s ∈ c, DesignBoth v s) : BContour.new (c.map (movedBy v)) = (BContour.new c).map (movedContour v) :=
  Moved.contour_moved v c h

/-- A concrete case: the arch closed by a line. -/
example : ∃ bc, BContour.new [[(0, 0), (30, 40), (50, 0)], [(50, 0), (0, 0)]] = .ok bc ∧
    BContour.new [[(100, 0), (130, 40), (150, 0)], [(150, 0), (100, 0)]] = .ok (movedContour (100, 0) bc) := by
  obtain ⟨bc, h⟩ := (C52_new [[((0 : ℝ), (0 : ℝ)), (30, 40), (50, 0)], [(50, 0), (0, 0)]]).mpr ⟨by simp, by simp⟩
  refine ⟨bc, h, ?_⟩
  have := C102_contour (100, 0) [[((0 : ℝ), (0 : ℝ)), (30, 40), (50, 0)], [(50, 0), (0, 0)]] (by
    intro s hs p hp
    have hp' : p ∈ [((0 : ℝ), (0 : ℝ)), (30, 40), (50, 0)] := by
      simp only [List.mem_cons, List.not_mem_nil, or_false] at hs
      rcases hs with rfl | rfl
      · exact hp
      · simp only [List.mem_cons, List.not_mem_nil, or_false] at hp ⊢
        tauto
    exact arch_fits p hp')
  rw [h] at this
  rw [← Moved.map_eq_ok, ← this]
  norm_num [movedBy, moveBy]

/-- C102: in the design space the object for a moved, non-empty list of contours is the moved object. -/
theorem C102_outline (v : Pt ℝ) (cs : List (Contour ℝ)) (hne : cs ≠ []) (h : ∀ c ∈ cs, ∀ s ∈ c, DesignBoth v s) :
    BOutline.new (cs.map (List.map (movedBy v))) = (BOutline.new cs).map (movedOutline v) :=
  Moved.outline_moved v cs hne h

/-- C102: the empty outline has the same bounds, the start values, everywhere. -/
theorem C102_empty_outline_counterexample (v : Pt ℝ) (hv : v.1 ≠ 0) :
    ∃ o o', BOutline.new [] = .ok o ∧ BOutline.new (([] : List (Contour ℝ)).map (List.map (movedBy v))) = .ok o' ∧ o' ≠ movedOutline v o := by
  refine ⟨_, _, rfl, rfl, fun e => hv ?_⟩
  have := congrArg (fun o : BOutline => o.bounds.left) e
  simp only [movedOutline, movedRect] at this
  linarith

/-- C102: what is done to a moved contour object, with moved segments, has the moved effect: changes, deletions, tables. -/
theorem C102_edits (v : Pt ℝ) (c : BContour) (i : Int) (s : Segment ℝ) (steps : Int) :
    BContour.setitem i (movedBy v s) (movedContour v c) = ((BContour.setitem i s c).1, movedContour v (BContour.setitem i s c).2) ∧
    BContour.delitem i (movedContour v c) = ((BContour.delitem i c).1, movedContour v (BContour.delitem i c).2) ∧
    BContour.getLUT steps (movedContour v c) = ((BContour.getLUT steps c).1.map (movedBy v), movedContour v (BContour.getLUT steps c).2) :=
  ⟨Moved.setitem_moved v i s c, Moved.delitem_moved v i c, Moved.getLUT_moved v steps c⟩

/-- C102: `findClosestPoint` finds the same distance from the moved point to the moved contour, and the moved point, unless it found no point closer
than 2^53 - 1. It fails in the same way, and leaves the moved object. -/
theorem C102_closest (v p : Pt ℝ) (steps : Int) (c : BContour) :
    (∀ e, (BContour.findClosestPoint (moveBy v p) steps (movedContour v c)).1 = .error e ↔ (BContour.findClosestPoint p steps c).1 = .error e) ∧
    (∀ d q, (BContour.findClosestPoint p steps c).1 = .ok (d, q) →
      ∃ q', (BContour.findClosestPoint (moveBy v p) steps (movedContour v c)).1 = .ok (d, q') ∧ (d < 9007199254740991 → q' = moveBy v q)) ∧
    (BContour.findClosestPoint (moveBy v p) steps (movedContour v c)).2 = movedContour v (BContour.findClosestPoint p steps c).2 := by
  obtain ⟨h1, h2⟩ := Moved.findClosestPoint_moved v p steps c
  have hm : (maxSafe : ℝ) = 9007199254740991 := by norm_num [maxSafe]
  refine ⟨fun e => ?_, fun d q h => ?_, h2⟩
  · cases hx : (BContour.findClosestPoint p steps c).1 <;> cases hy : (BContour.findClosestPoint (moveBy v p) steps (movedContour v c)).1 <;>
      rw [hx, hy] at h1 <;> simp_all [Moved.Both]
  · rw [h] at h1
    cases hy : (BContour.findClosestPoint (moveBy v p) steps (movedContour v c)).1 with
    | error e => rw [hy] at h1; exact h1.elim
    | ok z =>
      rw [hy] at h1
      obtain ⟨d', q'⟩ := z
      obtain ⟨rfl, hq⟩ := h1
      exact ⟨q', rfl, fun hd => hq (by rw [hm]; exact hd)⟩

end PathLib
