import Verif.Model.ComplexPoints
import Verif.Props.Plotting

set_option linter.unusedSectionVars false
set_option linter.unusedSimpArgs false

/-!
# Points given as complex numbers: C94
-/

namespace PathLib
open Spec

/-- The point is a complex number. -/
def Spec.IsComplex {K : Type} : AnyPt K → Prop
  | .complex _ _ => True
  | .tuple _ => False

/-- The position a point stands for: its coordinates, or the real and the imaginary part. -/
def Spec.position {K : Type} : AnyPt K → Pt K
  | .complex re im => (re, im)
  | .tuple p => p

section
variable {K : Type} [Field K] [LinearOrder K]

private theorem pyGet_map' {α β : Type} (f : α → β) (l : List α) (i : Int) : pyGet (l.map f) i = (pyGet l i).map f := by
  unfold pyGet
  simp only [List.length_map, List.getElem?_map]
  split_ifs
  · rfl
  · cases l[(if i < 0 then i + (l.length : Int) else i).toNat]? <;> simp_all [Except.map]
  · cases l[i.toNat]? <;> rfl

private theorem xy_eq (p : AnyPt K) : p.pointXY = position p := by cases p <;> rfl

private theorem endPoints_xy (segment : List (AnyPt K)) :
    AnyPt.endPoints segment = PathUtilities.endPoints (segment.map position) := by
  unfold AnyPt.endPoints PathUtilities.endPoints
  simp only [pyGet_map', xy_eq]
  cases pyGet segment 0 with
  | error e => rfl
  | ok p => cases pyGet segment (-1) <;> rfl

private theorem getDeltas_xy (segment : List (AnyPt K)) :
    AnyPt.getDeltas segment = PathUtilities.getDeltas (segment.map position) := by
  unfold AnyPt.getDeltas PathUtilities.getDeltas
  rw [endPoints_xy]

/-- C94: whatever mixture of tuples and complex numbers a segment consists of, the functions on its end points give what they give for the
positions. -/
theorem C94_measures (segment : List (AnyPt K)) : let s := segment.map position
    AnyPt.endPoints segment = PathUtilities.endPoints s ∧ AnyPt.getDeltas segment = PathUtilities.getDeltas s ∧
    AnyPt.isVerticalLine segment = PathUtilities.isVerticalLine s ∧ AnyPt.isHorizontalLine segment = PathUtilities.isHorizontalLine s ∧
    AnyPt.isDiagonalLine segment = PathUtilities.isDiagonalLine s ∧ AnyPt.slope segment = PathUtilities.slope s ∧
    AnyPt.midpoint segment = PathUtilities.midpoint s := by
  refine ⟨endPoints_xy segment, getDeltas_xy segment, ?_, ?_, ?_, ?_, ?_⟩
  · unfold AnyPt.isVerticalLine PathUtilities.isVerticalLine; rw [getDeltas_xy, List.length_map]
  · unfold AnyPt.isHorizontalLine PathUtilities.isHorizontalLine; rw [getDeltas_xy, List.length_map]
  · unfold AnyPt.isDiagonalLine PathUtilities.isDiagonalLine; rw [getDeltas_xy, List.length_map]
  · unfold AnyPt.slope PathUtilities.slope; rw [getDeltas_xy]
  · unfold AnyPt.midpoint PathUtilities.midpoint; rw [endPoints_xy]

/-- C94: the same for the functions with values in the real numbers. -/
theorem C94_angles (segment : List (AnyPt ℝ)) : let s := segment.map position
    AnyPt.length segment = PathUtilities.length s ∧ AnyPt.slopeAngle segment = PathUtilities.slopeAngle s ∧
    AnyPt.rawSlopeAngle segment = PathUtilities.rawSlopeAngle s := by
  refine ⟨?_, ?_, ?_⟩
  · unfold AnyPt.length PathUtilities.length; rw [getDeltas_xy]
  · unfold AnyPt.slopeAngle PathUtilities.slopeAngle; rw [getDeltas_xy]
  · unfold AnyPt.rawSlopeAngle PathUtilities.rawSlopeAngle; rw [getDeltas_xy]

private theorem unpack_tuple {p : AnyPt K} (h : ¬ IsComplex p) : p.unpack = .ok (position p) := by
  cases p with
  | tuple p => rfl
  | complex a b => exact absurd trivial h

private theorem unpack_complex {p : AnyPt K} (h : IsComplex p) : p.unpack = .error .typeError := by
  cases p with
  | tuple p => exact absurd h id
  | complex a b => rfl

private theorem bounds_tuples (points : List (AnyPt K)) (h : ∀ p ∈ points, ¬ IsComplex p) (b : BoundsRectangle K) :
    points.foldlM (fun (b : BoundsRectangle K) (point : AnyPt K) => do return b.addPoint (← point.unpack)) b =
      (Except.ok ((points.map position).foldl BoundsRectangle.addPoint b) : Py _) := by
  induction points generalizing b with
  | nil => rfl
  | cons p ps ih =>
    rw [List.foldlM_cons, unpack_tuple (h p (by simp))]
    exact ih (fun q hq => h q (by simp [hq])) _

private theorem bounds_complex (points : List (AnyPt K)) (h : ∃ p ∈ points, IsComplex p) (b : BoundsRectangle K) :
    points.foldlM (fun (b : BoundsRectangle K) (point : AnyPt K) => do return b.addPoint (← point.unpack)) b =
      (Except.error PyErr.typeError : Py _) := by
  induction points generalizing b with
  | nil => simp at h
  | cons p ps ih =>
    rw [List.foldlM_cons]
    by_cases hp : IsComplex p
    · rw [unpack_complex hp]; rfl
    · rw [unpack_tuple hp]
      refine ih ?_ _
      obtain ⟨q, hq, hc⟩ := h
      rcases List.mem_cons.mp hq with rfl | hq
      · exact absurd hc hp
      · exact ⟨q, hq, hc⟩

/-- C94: rectangles are made from tuples only: with a complex number among the points, `TypeError` is raised. -/
theorem C94_bounds (points : List (AnyPt K)) :
    ((∀ p ∈ points, ¬ IsComplex p) → AnyPt.bounds points = .ok (BoundsRectangle.new (points.map position))) ∧
    ((∃ p ∈ points, IsComplex p) → AnyPt.bounds points = .error .typeError) :=
  ⟨fun h => bounds_tuples points h _, fun h => bounds_complex points h _⟩

/-- C94: `enclosesPoint` takes tuples only. -/
theorem C94_enclosesPoint (b : BoundsRectangle K) (p : AnyPt K) :
    (¬ IsComplex p → AnyPt.enclosesPoint b p = .ok (b.enclosesPoint (position p))) ∧
    (IsComplex p → AnyPt.enclosesPoint b p = .error .typeError) := by
  refine ⟨fun h => ?_, fun h => ?_⟩
  · unfold AnyPt.enclosesPoint; rw [unpack_tuple h]; rfl
  · unfold AnyPt.enclosesPoint; rw [unpack_complex h]; rfl

/-- C94: `pointOnLine` takes tuples only: it raises `TypeError` when the point or any point of the line is a complex number, although
`slope`, which it uses, would accept these. -/
theorem C94_pointOnLine (point : AnyPt K) (line : List (AnyPt K)) :
    ((∀ p ∈ point :: line, ¬ IsComplex p) → AnyPt.pointOnLine point line = PathUtilities.pointOnLine (position point) (line.map position)) ∧
    ((∃ p ∈ point :: line, IsComplex p) → AnyPt.pointOnLine point line = .error .typeError) := by
  refine ⟨fun h => ?_, fun h => ?_⟩
  · unfold AnyPt.pointOnLine PathUtilities.pointOnLine
    rw [(C94_bounds line).1 fun p hp => h p (by simp [hp])]
    simp only [ok_bind, (C94_enclosesPoint _ point).1 (h point (by simp)), (C94_measures _).2.2.2.2.2.1, pyGet_map']
    cases pyGet line 0 <;> rfl
  · unfold AnyPt.pointOnLine
    by_cases hl : ∃ p ∈ line, IsComplex p
    · rw [(C94_bounds line).2 hl]; rfl
    · push Not at hl
      have hp : IsComplex point := by
        obtain ⟨q, hq, hc⟩ := h
        rcases List.mem_cons.mp hq with rfl | hq
        · exact hc
        · exact absurd hc (hl q hq)
      rw [(C94_bounds line).1 hl, ok_bind, (C94_enclosesPoint _ point).2 hp]
      rfl

/-- C94: `intersectionPoint` of tuples. -/
theorem C94_intersectionPoint_tuples (l1 l2 : List (AnyPt K)) (h1 : ∀ p ∈ l1, ¬ IsComplex p) (h2 : ∀ p ∈ l2, ¬ IsComplex p) :
    AnyPt.intersectionPoint l1 l2 = PathUtilities.intersectionPoint (l1.map position) (l2.map position) := by
  have hl : AnyPt.lli l1 l2 = butils.lli (l1.map position) (l2.map position) := by
    unfold AnyPt.lli butils.lli
    simp only [pyGet_map']
    rcases l1 with _ | ⟨a, _ | ⟨b, l1⟩⟩
    · rfl
    · rfl
    rcases l2 with _ | ⟨c, _ | ⟨d, l2⟩⟩
    · rfl
    · rfl
    simp only [pyGet_zero_cons, pyGet_one_cons, ok_bind, AnyPt.lli4, unpack_tuple (h1 a (by simp)), unpack_tuple (h1 b (by simp)),
      unpack_tuple (h2 c (by simp)), unpack_tuple (h2 d (by simp))]
    rfl
  unfold AnyPt.intersectionPoint PathUtilities.intersectionPoint
  rw [hl]
  cases butils.lli (l1.map position) (l2.map position) with
  | error e => rfl
  | ok r =>
    cases r with
    | none => rfl
    | some p =>
      simp only [ok_bind, AnyPt.clip, (C94_bounds l1).1 h1, (C94_bounds l2).1 h2]

/-- C94: `intersectionPoint` raises `TypeError` for two lines of two points of which one is a complex number. -/
theorem C94_intersectionPoint_complex (a b c d : AnyPt K) (h : ∃ p ∈ [a, b, c, d], IsComplex p) :
    AnyPt.intersectionPoint [a, b] [c, d] = .error .typeError := by
  have hl : AnyPt.lli [a, b] [c, d] = .error .typeError := by
    simp only [AnyPt.lli, pyGet_zero_cons, pyGet_one_cons, ok_bind, AnyPt.lli4]
    rcases a with a | ⟨a, a'⟩
    · rcases b with b | ⟨b, b'⟩
      · rcases c with c | ⟨c, c'⟩
        · rcases d with d | ⟨d, d'⟩
          · simp [IsComplex] at h
          · rfl
        · rfl
      · rfl
    · rfl
  unfold AnyPt.intersectionPoint
  rw [hl]; rfl

/-- C94: transforms apply to tuples only. -/
theorem C94_transform (T : Transform K) (segment : List (AnyPt K)) :
    ((∀ p ∈ segment, ¬ IsComplex p) → AnyPt.applyToSegment T segment = T.applyToSegment (segment.map position)) ∧
    (∀ p, IsComplex p → AnyPt.applyToPoint T p = .error .typeError) ∧
    ((∃ p ∈ segment, IsComplex p) → ∀ r, AnyPt.applyToSegment T segment ≠ .ok r) := by
  have hp : ∀ p : AnyPt K, IsComplex p → AnyPt.applyToPoint T p = .error .typeError := by
    intro p h
    unfold AnyPt.applyToPoint; rw [unpack_complex h]; rfl
  have ht : ∀ p : AnyPt K, ¬ IsComplex p → AnyPt.applyToPoint T p = T.applyToPoint (position p) := by
    intro p h
    unfold AnyPt.applyToPoint Transform.applyToPoint; rw [unpack_tuple h]; rfl
  refine ⟨fun h => ?_, hp, fun h => ?_⟩
  · unfold AnyPt.applyToSegment Transform.applyToSegment
    induction segment with
    | nil => rfl
    | cons p ps ih => rw [List.map_cons, List.mapM_cons, List.mapM_cons, ht p (h p (by simp)), ih fun q hq => h q (by simp [hq])]
  · unfold AnyPt.applyToSegment
    induction segment with
    | nil => simp at h
    | cons p ps ih =>
      intro r hr
      rw [List.mapM_cons] at hr
      by_cases hc : IsComplex p
      · rw [hp p hc] at hr; exact absurd hr (by simp [error_bind])
      · rw [bind_eq_ok] at hr
        obtain ⟨x, -, hr⟩ := hr
        rw [bind_eq_ok] at hr
        obtain ⟨y, hy, -⟩ := hr
        refine ih ?_ y hy
        obtain ⟨q, hq, hqc⟩ := h
        rcases List.mem_cons.mp hq with rfl | hq
        · exact absurd hqc hc
        · exact ⟨q, hq, hqc⟩

end

section plot
variable {K C : Type} [Field K] [LinearOrder K]

private theorem loop_prefix (get : AnyPt K → Py (Pt K)) (radius : K) (colors : List C) (fill : Bool) (i : Nat) (pre rest : List (AnyPt K))
    (h : ∀ p ∈ pre, get p = .ok (position p)) (s : ContourPlotter K C) :
    AnyPt.circlesLoop get radius colors fill i (pre ++ rest) s = AnyPt.circlesLoop get radius colors fill (i + pre.length) rest
      (ContourPlotter.circlesLoop radius colors fill i (pre.map position) s) := by
  induction pre generalizing i s with
  | nil => simp [ContourPlotter.circlesLoop]
  | cons p ps ih =>
    rw [List.cons_append, AnyPt.circlesLoop, h p (by simp)]
    simp only
    rw [ih _ (fun q hq => h q (by simp [hq])), List.map_cons, ContourPlotter.circlesLoop, List.length_cons,
      Nat.add_right_comm, Nat.add_assoc]
    rfl

private theorem complex_prefix (radius : K) (colors : List C) (fill : Bool) (i : Nat) (pre rest : List (AnyPt K))
    (h : ∀ p ∈ pre, IsComplex p) (s : ContourPlotter K C) :
    AnyPt.complexCirclesLoop radius colors fill i (pre ++ rest) s = AnyPt.complexCirclesLoop radius colors fill (i + pre.length) rest
      (ContourPlotter.circlesLoop radius colors fill i (pre.map position) s) := by
  induction pre generalizing i s with
  | nil => simp [ContourPlotter.circlesLoop]
  | cons p ps ih =>
    have hp : p.realImag = .ok (position p) := by
      cases p with
      | tuple p => exact absurd (h (.tuple p) (by simp)) id
      | complex a b => rfl
    rw [List.cons_append, AnyPt.complexCirclesLoop, hp]
    simp only
    rw [ih _ (fun q hq => h q (by simp [hq])), List.map_cons, ContourPlotter.circlesLoop, List.length_cons,
      Nat.add_right_comm, Nat.add_assoc]
    rfl

private theorem get_same {first p : AnyPt K} (h : IsComplex first ↔ IsComplex p) : AnyPt.getXY first p = .ok (position p) := by
  cases first <;> cases p <;> simp_all [IsComplex, AnyPt.getXY, AnyPt.realImag, AnyPt.unpack, position]

/-- C94: with points that are all tuples or all complex numbers, `drawPointsAsCircles` does what it does for the positions. -/
theorem C94_circles (points : List (AnyPt K)) (h : (∀ p ∈ points, IsComplex p) ∨ ∀ p ∈ points, ¬ IsComplex p) (radius : K)
    (colors : List C) (fill : Bool) (s : ContourPlotter K C) :
    AnyPt.drawPointsAsCircles points radius colors fill s =
      ContourPlotter.drawPointsAsCircles (points.map position) radius colors fill s := by
  rcases points with _ | ⟨p, ps⟩
  · rfl
  have hg : ∀ q ∈ p :: ps, AnyPt.getXY p q = .ok (position q) := by
    intro q hq
    refine get_same ?_
    rcases h with h | h
    · exact iff_of_true (h p (by simp)) (h q hq)
    · exact iff_of_false (h p (by simp)) (h q hq)
  have := loop_prefix (AnyPt.getXY p) radius colors fill 0 (p :: ps) [] hg (AnyPt.firstColor colors fill s)
  rw [List.append_nil] at this
  unfold AnyPt.drawPointsAsCircles
  simp only [this]
  rfl

/-- C94: with complex numbers, `drawComplexPointsAsCircles` does what `drawPointsAsCircles` does, except that it accepts no points at all. -/
theorem C94_complexCircles (points : List (AnyPt K)) (h : ∀ p ∈ points, IsComplex p) (radius : K)
    (colors : List C) (fill : Bool) (s : ContourPlotter K C) :
    AnyPt.drawComplexPointsAsCircles points radius colors fill s =
      ContourPlotter.drawComplexPointsAsCircles (points.map position) radius colors fill s := by
  have := complex_prefix radius colors fill 0 points [] h (AnyPt.firstColor colors fill s)
  rw [List.append_nil] at this
  simp only [AnyPt.drawComplexPointsAsCircles, this, AnyPt.complexCirclesLoop, AnyPt.finish]
  rfl

/-- The state reached when the drawing of circles stops after some of them with an exception: the circles drawn so far are there and a
pushed stroke is not popped. -/
private theorem stopped (radius : K) (colors : List C) (fill : Bool) (ps : List (Pt K)) (s : ContourPlotter K C) :
    let s' := ContourPlotter.circlesLoop radius colors fill 0 ps (AnyPt.firstColor colors fill s)
    s'.content = s.content ++ circles s radius colors fill ps ∧
      s'.strokeStack = (if colors ≠ [] ∧ fill = false then s.strokeStack ++ [s.stroke] else s.strokeStack) ∧
      s'.fillStack = s.fillStack := by
  intro s'
  cases fill with
  | true =>
    simp only [s', circlesLoop_fill]
    rcases colors with _ | ⟨c, cs⟩
    · simp [AnyPt.firstColor]
    · have hcyc : ∀ i, cycle (c :: cs) c i = cycle (c :: cs) s.fill.color i := fun i => cycle_fix (c :: cs) s.fill.color 0 i
      simp [AnyPt.firstColor, circles, hcyc]
  | false =>
    simp only [s', circlesLoop_stroke]
    rcases colors with _ | ⟨c, cs⟩
    · simp [AnyPt.firstColor]
    · have hcyc : ∀ i, cycle (c :: cs) c i = cycle (c :: cs) s.stroke.color i := fun i => cycle_fix (c :: cs) s.stroke.color 0 i
      simp [AnyPt.firstColor, circles, hcyc, ContourPlotter.pushStrokeAttributes]

/-- C94: the first point decides how `drawPointsAsCircles` reads all points. At the first point of the other kind it raises
`AttributeError` (the first point was a complex number) or `TypeError` (it was a tuple). The circles before it stay in the drawing, and
stroke attributes that were pushed are not popped. -/
theorem C94_mixed (first : AnyPt K) (pre : List (AnyPt K)) (q : AnyPt K) (post : List (AnyPt K))
    (h : ∀ p ∈ pre, IsComplex p ↔ IsComplex first) (hq : IsComplex q ↔ ¬ IsComplex first) (radius : K) (colors : List C) (fill : Bool)
    (s : ContourPlotter K C) :
    ∃ e s', AnyPt.drawPointsAsCircles (first :: pre ++ q :: post) radius colors fill s = (.error e, s') ∧
      (IsComplex first → e = .attributeError) ∧ (¬ IsComplex first → e = .typeError) ∧
      s'.content = s.content ++ circles s radius colors fill ((first :: pre).map position) ∧
      s'.strokeStack = (if colors ≠ [] ∧ fill = false then s.strokeStack ++ [s.stroke] else s.strokeStack) ∧
      s'.fillStack = s.fillStack := by
  have hg : ∀ p ∈ first :: pre, AnyPt.getXY first p = .ok (position p) := by
    intro p hp
    rcases List.mem_cons.mp hp with rfl | hp
    · exact get_same Iff.rfl
    · exact get_same (h p hp).symm
  have hl := loop_prefix (AnyPt.getXY first) radius colors fill 0 (first :: pre) (q :: post) hg (AnyPt.firstColor colors fill s)
  have hs := stopped radius colors fill ((first :: pre).map position) s
  cases first with
  | tuple f =>
    cases q with
    | tuple q => simp [IsComplex] at hq
    | complex a b =>
      refine ⟨.typeError, _, ?_, by simp [IsComplex], by simp, hs⟩
      unfold AnyPt.drawPointsAsCircles
      simp only [List.cons_append] at hl ⊢
      rw [hl]
      rfl
  | complex f f' =>
    cases q with
    | complex a b => simp [IsComplex] at hq
    | tuple q =>
      refine ⟨.attributeError, _, ?_, by simp, by simp [IsComplex], hs⟩
      unfold AnyPt.drawPointsAsCircles
      simp only [List.cons_append] at hl ⊢
      rw [hl]
      rfl

/-- C94: `drawComplexPointsAsCircles` raises `AttributeError` at the first tuple, after drawing the circles before it. -/
theorem C94_complexCircles_tuple (pre : List (AnyPt K)) (q : Pt K) (post : List (AnyPt K)) (h : ∀ p ∈ pre, IsComplex p) (radius : K)
    (colors : List C) (fill : Bool) (s : ContourPlotter K C) :
    ∃ s', AnyPt.drawComplexPointsAsCircles (pre ++ .tuple q :: post) radius colors fill s = (.error .attributeError, s') ∧
      s'.content = s.content ++ circles s radius colors fill (pre.map position) ∧
      s'.strokeStack = (if colors ≠ [] ∧ fill = false then s.strokeStack ++ [s.stroke] else s.strokeStack) ∧
      s'.fillStack = s.fillStack := by
  have hl := complex_prefix radius colors fill 0 pre (.tuple q :: post) h (AnyPt.firstColor colors fill s)
  have hs := stopped radius colors fill (pre.map position) s
  refine ⟨AnyPt.setColor colors fill (0 + pre.length)
    (ContourPlotter.circlesLoop radius colors fill 0 (pre.map position) (AnyPt.firstColor colors fill s)), ?_, ?_⟩
  · unfold AnyPt.drawComplexPointsAsCircles
    rw [hl]
    rfl
  · simp only at hs ⊢
    unfold AnyPt.setColor
    split
    · cases fill <;> exact hs
    · exact hs

end plot

/-- A line from a complex number to a tuple: its measures exist, `pointOnLine` does not. -/
example : AnyPt.slope ([.complex 0 0, .tuple (2, 4)] : List (AnyPt ℚ)) = .ok (.fin 2) ∧
    AnyPt.midpoint ([.complex 0 0, .tuple (2, 4)] : List (AnyPt ℚ)) = .ok (1, 2) ∧
    AnyPt.pointOnLine (.tuple (1, 2)) ([.tuple (0, 0), .tuple (2, 4)] : List (AnyPt ℚ)) = .ok true ∧
    AnyPt.pointOnLine (.complex 1 2) ([.tuple (0, 0), .tuple (2, 4)] : List (AnyPt ℚ)) = .error .typeError := by
  decide +kernel

/-- Two crossing lines of tuples. -/
example : AnyPt.intersectionPoint ([.tuple (0, 0), .tuple (2, 2)] : List (AnyPt ℚ)) [.tuple (0, 2), .tuple (2, 0)] = .ok (some (1, 1)) ∧
    AnyPt.intersectionPoint ([.tuple (0, 0), .complex 2 2] : List (AnyPt ℚ)) [.tuple (0, 2), .tuple (2, 0)] = .error .typeError := by
  decide +kernel

/-- Two complex numbers and a tuple: two circles are drawn. -/
example (s : ContourPlotter ℚ Nat) : ∃ e s', AnyPt.drawPointsAsCircles [.complex 1 2, .complex 3 4, .tuple (5, 6)] 1 [7] true s =
      (.error e, s') ∧ s'.content = s.content ++ circles s 1 [7] true [(1, 2), (3, 4)] := by
  obtain ⟨e, s', h, -, -, hc, -⟩ := C94_mixed (.complex 1 2) [.complex 3 4] (.tuple (5, 6)) []
    (by simp [IsComplex]) (by simp [IsComplex]) 1 [7] true s
  exact ⟨e, s', h, hc⟩

end PathLib
