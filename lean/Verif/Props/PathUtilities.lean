import Verif.Lemmas.Bounds
import Verif.Props.BezierUtilities

/-!
# Property theorems about the line functions of `PathUtilities` (C15-C18)
-/

set_option linter.unusedSectionVars false
set_option linter.unusedSimpArgs false

namespace PathLib
open Spec BoundsRectangle PathUtilities

variable {K : Type} [Field K] [LinearOrder K] [IsStrictOrderedRing K]

/-! ## C15 -/

private theorem box_two (a b p : Pt K) (ha : InDesignSpace a) :
    (BoundsRectangle.new [a, b]).enclosesPoint p = true ↔
      InBox (min a.1 b.1) (min a.2 b.2) (max a.1 b.1) (max a.2 b.2) p := by
  have e : BoundsRectangle.new [a, b] = 
      (⟨min a.1 b.1, min a.2 b.2, max a.1 b.1, max a.2 b.2⟩ : BoundsRectangle K) := by
    apply ext'
    · apply eq_of_forall_le_iff; intro x; rw [BoundsRectangle.le_left_iff]; simp
      intro h1 _; exact h1.trans ha.1.2
    · apply eq_of_forall_le_iff; intro x; rw [BoundsRectangle.le_bottom_iff]; simp
      intro h1 _; exact h1.trans ha.2.2
    · apply eq_of_forall_ge_iff; intro x; rw [BoundsRectangle.right_le_iff]; simp
      intro h1 _; exact ha.1.1.trans h1
    · apply eq_of_forall_ge_iff; intro x; rw [BoundsRectangle.top_le_iff]; simp
      intro h1 _; exact ha.2.1.trans h1
  rw [enclosesPoint_iff, e]

private theorem onSegment_inBox (a b p : Pt K) (h : OnSegment a b p) :
    InBox (min a.1 b.1) (min a.2 b.2) (max a.1 b.1) (max a.2 b.2) p := by
  obtain ⟨s, h0, h1, hx, hy⟩ := h
  have := ((C29_lerp s a b).2.2.2.2 h0 h1).2
  have e : p = butils.lerp s a b := Prod.ext hx hy
  rwa [e]

private theorem param_range {x y s : K} (h : x ≠ y)
    (h1 : min x y ≤ x + s * (y - x)) (h2 : x + s * (y - x) ≤ max x y) : 0 ≤ s ∧ s ≤ 1 := by
  rcases lt_or_gt_of_ne h with h | h
  · rw [min_eq_left h.le] at h1; rw [max_eq_right h.le] at h2
    constructor
    · by_contra hs; push Not at hs; nlinarith
    · by_contra hs; push Not at hs; nlinarith
  · rw [min_eq_right h.le] at h1; rw [max_eq_left h.le] at h2
    constructor
    · by_contra hs; push Not at hs; nlinarith
    · by_contra hs; push Not at hs; nlinarith

private theorem onSegment_of_line_box (a b p : Pt K) (hl : OnLine a b p)
    (h : InBox (min a.1 b.1) (min a.2 b.2) (max a.1 b.1) (max a.2 b.2) p) : OnSegment a b p := by
  obtain ⟨s, hx, hy⟩ := hl
  obtain ⟨⟨b1, b2⟩, ⟨b3, b4⟩⟩ := h
  rw [hx] at b1 b2; rw [hy] at b3 b4
  by_cases h1 : a.1 = b.1
  · by_cases h2 : a.2 = b.2
    · exact ⟨0, le_rfl, zero_le_one, by rw [hx, h1]; ring, by rw [hy, h2]; ring⟩
    · obtain ⟨s0, s1⟩ := param_range h2 b3 b4
      exact ⟨s, s0, s1, hx, hy⟩
  · obtain ⟨s0, s1⟩ := param_range h1 b1 b2
    exact ⟨s, s0, s1, hx, hy⟩

private theorem onSegment_onLine {a b p : Pt K} (h : OnSegment a b p) : OnLine a b p := by
  obtain ⟨s, _, _, hx, hy⟩ := h; exact ⟨s, hx, hy⟩

/-- C15: when the first point of each segment is in the design space, the returned point is exactly the common point of the two segments. -/
theorem C15_intersectionPoint_iff (a b c d p : Pt K) (ha : InDesignSpace a)
    (hc : InDesignSpace c) :
    intersectionPoint [a, b] [c, d] = .ok (some p) ↔
      ¬ Parallel a b c d ∧ OnSegment a b p ∧ OnSegment c d p := by
  unfold intersectionPoint
  constructor
  · intro h
    cases hl : butils.lli [a, b] [c, d] with
    | error e => simp [butils.lli] at hl
    | ok o =>
      rw [hl, ok_bind] at h
      cases o with
      | none => simp at h
      | some q =>
        simp only [pure_eq_ok, Except.ok.injEq, Bool.and_eq_true] at h
        split_ifs at h with hq
        simp only [Option.some.injEq] at h
        subst h
        rw [box_two _ _ _ ha, box_two _ _ _ hc] at hq
        obtain ⟨l1, l2⟩ := C28_sound a b c d q hl
        refine ⟨?_, onSegment_of_line_box _ _ _ l1 hq.1, onSegment_of_line_box _ _ _ l2 hq.2⟩
        intro hp
        rw [(C28_none_iff a b c d).mpr hp] at hl; simp at hl
  · rintro ⟨hn, h1, h2⟩
    rw [C28_complete a b c d p hn (onSegment_onLine h1) (onSegment_onLine h2), ok_bind]
    have e1 := (box_two a b p ha).mpr (onSegment_inBox _ _ _ h1)
    have e2 := (box_two c d p hc).mpr (onSegment_inBox _ _ _ h2)
    simp [e1, e2]

/-- C15: `None` exactly when parallel or without a common point; two-point segments never raise. -/
theorem C15_none_iff (a b c d : Pt K) (ha : InDesignSpace a)
    (hc : InDesignSpace c) :
    intersectionPoint [a, b] [c, d] = .ok none ↔
      Parallel a b c d ∨ ¬ ∃ p, OnSegment a b p ∧ OnSegment c d p := by
  have tot : ∃ o, intersectionPoint [a, b] [c, d] = .ok o := by
    unfold intersectionPoint
    cases hl : butils.lli [a, b] [c, d] with
    | error e => simp [butils.lli] at hl
    | ok o => cases o <;> simp
  obtain ⟨o, ho⟩ := tot
  have key := fun p => C15_intersectionPoint_iff a b c d p ha hc
  rw [ho] at key ⊢
  cases o with
  | none =>
    simp only [Except.ok.injEq, reduceCtorEq, false_iff, not_and] at key
    simp only [true_iff]
    by_cases hp : Parallel a b c d
    · exact .inl hp
    · right; rintro ⟨p, h1, h2⟩; exact key p hp h1 h2
  | some q =>
    obtain ⟨h1, h2, h3⟩ := (key q).mp rfl
    simp only [Except.ok.injEq, reduceCtorEq, false_iff, not_or, not_not]
    exact ⟨h1, q, h2, h3⟩

omit [IsStrictOrderedRing K] in
/-- C15: parallel lines give `None`, wherever they are. -/
theorem C15_parallel (a b c d : Pt K) (h : Parallel a b c d) :
    intersectionPoint [a, b] [c, d] = .ok none := by
  unfold intersectionPoint
  rw [(C28_none_iff a b c d).mpr h, ok_bind]; rfl

/-- C15: without any hypothesis on the range, a common point of non-parallel segments is returned. -/
theorem C15_complete (a b c d p : Pt K) (hn : ¬ Parallel a b c d)
    (h1 : OnSegment a b p) (h2 : OnSegment c d p) :
    intersectionPoint [a, b] [c, d] = .ok (some p) := by
  have enc : ∀ x y : Pt K, OnSegment x y p → (BoundsRectangle.new [x, y]).enclosesPoint p = true := by
    intro x y h
    obtain ⟨⟨b1, b2⟩, ⟨b3, b4⟩⟩ := onSegment_inBox _ _ _ h
    rw [enclosesPoint_iff]
    have m1 : x ∈ [x, y] := by simp
    have m2 : y ∈ [x, y] := by simp
    exact ⟨⟨(le_min (left_le_of_mem m1) (left_le_of_mem m2)).trans b1,
        b2.trans (max_le (le_right_of_mem m1) (le_right_of_mem m2))⟩,
      ⟨(le_min (bottom_le_of_mem m1) (bottom_le_of_mem m2)).trans b3,
        b4.trans (max_le (le_top_of_mem m1) (le_top_of_mem m2))⟩⟩
  unfold intersectionPoint
  rw [C28_complete a b c d p hn (onSegment_onLine h1) (onSegment_onLine h2), ok_bind]
  simp [enc a b h1, enc c d h2]

/-- C15: outside the design space a point that is not on the first segment is reported. -/
theorem C15_outside_design_space_counterexample :
    intersectionPoint [((40000 : ℚ), 0), (50000, 0)] [(35000, -1), (35000, 1)]
      = .ok (some (35000, 0)) ∧ ¬ OnSegment ((40000 : ℚ), 0) (50000, 0) (35000, 0) := by
  constructor
  · decide +kernel
  · rintro ⟨s, h0, h1, hx, _⟩
    simp only at hx; linarith

example : intersectionPoint [((0:ℚ), 0), (4, 4)] [(0, 2), (2, 0)] = .ok (some (1, 1)) := by
  decide +kernel

/-! ## C16 -/

omit [IsStrictOrderedRing K] in
private theorem slope_two (a b : Pt K) : slope [a, b] =
    .ok (if b.1 - a.1 = 0 then .inf else .fin ((b.2 - a.2) / (b.1 - a.1))) := by
  have : pyGet [a, b] (-1) = .ok b := rfl
  unfold slope getDeltas endPoints
  simp only [pyGet_zero_cons, ok_bind, this, pure_eq_ok]
  split_ifs <;> rfl

/-- C16: when does `pointOnLine` answer `True`? One would expect: when `p` is on the segment. What holds:
it is `True` iff `p` is on the segment and is not the start point of a non-vertical segment. -/
theorem C16_pointOnLine (a b p : Pt K) (ha : InDesignSpace a) :
    pointOnLine p [a, b] = .ok true ↔ OnSegment a b p ∧ (p = a → a.1 = b.1) := by
  unfold pointOnLine
  simp only [pyGet_zero_cons, ok_bind, slope_two, pure_eq_ok]
  by_cases hbox : (BoundsRectangle.new [a, b]).enclosesPoint p = true
  · simp only [hbox, if_true, Except.ok.injEq, decide_eq_true_eq]
    rw [box_two _ _ _ ha] at hbox
    by_cases hv : b.1 - a.1 = 0
    · have hab : a.1 = b.1 := by linarith
      have hpx : p.1 = a.1 := by
        have := hbox.1; rw [hab] at this ⊢; simp at this; exact le_antisymm this.2 this.1
      have hpx' : p.1 - a.1 = 0 := by linarith
      rw [if_pos hv, if_pos hpx']
      simp only [hab, implies_true, and_true, true_iff]
      apply onSegment_of_line_box _ _ _ _ hbox
      by_cases hy : b.2 - a.2 = 0
      · have := hbox.2
        have hab2 : a.2 = b.2 := by linarith
        rw [hab2] at this; simp at this
        exact ⟨0, by rw [hpx]; ring, by rw [le_antisymm this.2 this.1, hab2]; ring⟩
      · exact ⟨(p.2 - a.2) / (b.2 - a.2), by rw [hv, hpx]; ring, by field_simp; ring⟩
    · have hab : a.1 ≠ b.1 := fun h => hv (by rw [h]; ring)
      rw [if_neg hv]
      by_cases hp : p.1 - a.1 = 0
      · rw [if_pos hp]
        simp only [reduceCtorEq, false_iff, not_and, Classical.not_imp]
        rintro ⟨s, _, _, hx, hy⟩
        refine ⟨?_, hab⟩
        have : s * (b.1 - a.1) = 0 := by linear_combination hp - hx
        have hs := (mul_eq_zero.mp this).resolve_right hv
        subst hs
        apply Prod.ext
        · rw [hx]; ring
        · rw [hy]; ring
      · rw [if_neg hp]
        have hpa : p ≠ a := fun h => hp (by rw [h]; ring)
        simp only [Slope.fin.injEq, hpa, false_implies, and_true]
        rw [div_eq_div_iff hv hp]
        constructor
        · intro h
          apply onSegment_of_line_box _ _ _ _ hbox
          refine ⟨(p.1 - a.1) / (b.1 - a.1), by field_simp; ring, ?_⟩
          field_simp
          linear_combination -h
        · rintro ⟨s, _, _, hx, hy⟩
          rw [hx, hy]; ring
  · simp only [hbox, if_false, Except.ok.injEq, Bool.false_eq_true, false_iff, not_and]
    intro h
    exact absurd ((box_two _ _ _ ha).mpr (onSegment_inBox _ _ _ h)) hbox

/-- C16: in the design space `pointOnLine` never answers `True` for a point off the segment. -/
theorem C16_sound (a b p : Pt K) (ha : InDesignSpace a)
    (h : pointOnLine p [a, b] = .ok true) : OnSegment a b p :=
  ((C16_pointOnLine a b p ha).mp h).1

omit [IsStrictOrderedRing K] in
/-- C16: the answer for a two-point line is always a truth value. -/
theorem C16_total (a b p : Pt K) : ∃ r, pointOnLine p [a, b] = .ok r := by
  unfold pointOnLine
  simp only [pyGet_zero_cons, ok_bind, slope_two, pure_eq_ok]
  split_ifs <;> exact ⟨_, rfl⟩

/-- C16: the start point of every non-vertical segment is reported as not on the line. -/
theorem C16_start_point_counterexample (a b : Pt K) (ha : InDesignSpace a)
    (h : a.1 ≠ b.1) : pointOnLine a [a, b] = .ok false ∧ OnSegment a b a := by
  refine ⟨?_, ⟨0, le_rfl, zero_le_one, by ring, by ring⟩⟩
  obtain ⟨r, hr⟩ := C16_total a b a
  cases r with
  | false => exact hr
  | true => exact absurd (((C16_pointOnLine a b a ha).mp hr).2 rfl) h

/-- C16: outside the design space a point beyond the end is accepted. -/
theorem C16_outside_design_space_counterexample :
    pointOnLine ((35000 : ℚ), 0) [(40000, 0), (50000, 0)] = .ok true ∧
    ¬ OnSegment ((40000 : ℚ), 0) (50000, 0) (35000, 0) := by
  constructor
  · decide +kernel
  · rintro ⟨s, h0, h1, hx, _⟩
    simp only at hx; linarith

example : pointOnLine ((1 : ℚ), 1) [(0, 0), (4, 4)] = .ok true := by decide +kernel
example : pointOnLine ((0 : ℚ), 0) [(0, 0), (4, 4)] = .ok false := by decide +kernel

/-! ## C17 -/

section
omit [IsStrictOrderedRing K]

theorem deltas_of (s : Segment K) (h : s ≠ []) :
    getDeltas s = .ok ((s.getLast h).1 - (s.head h).1, (s.getLast h).2 - (s.head h).2) := by
  unfold getDeltas endPoints
  rw [pyGet_neg_one s h]
  match s, h with
  | a :: l, _ => simp

/-- C17: `slope` is infinite iff the ends are above each other, and `dy/dx` otherwise. -/
theorem C17_slope (s : Segment K) (h : s ≠ []) :
    (slope s = .ok .inf ↔ (s.getLast h).1 = (s.head h).1) ∧
    (∀ m, slope s = .ok (.fin m) ↔ (s.getLast h).1 ≠ (s.head h).1 ∧
      m * ((s.getLast h).1 - (s.head h).1) = (s.getLast h).2 - (s.head h).2) := by
  unfold slope
  rw [deltas_of s h, ok_bind]
  simp only [pure_eq_ok]
  by_cases hx : (s.getLast h).1 - (s.head h).1 = 0
  · simp [hx, sub_eq_zero.mp hx]
  · have hx' : (s.getLast h).1 ≠ (s.head h).1 := sub_ne_zero.mp hx
    simp only [hx, if_false, Except.ok.injEq, reduceCtorEq, hx', Slope.fin.injEq, ne_eq,
      not_false_eq_true, true_and]
    intro m
    rw [div_eq_iff hx, eq_comm]

/-- C17: an empty segment raises `IndexError` in every one of these functions. -/
theorem C17_empty : slope ([] : Segment K) = .error .indexError ∧
    isVerticalLine ([] : Segment K) = .error .indexError ∧
    isHorizontalLine ([] : Segment K) = .error .indexError ∧
    isDiagonalLine ([] : Segment K) = .error .indexError := by
  simp [slope, isVerticalLine, isHorizontalLine, isDiagonalLine, getDeltas, endPoints]

private theorem neg_div_neg_sub (a b c d : K) : (a - b) / (c - d) = (b - a) / (d - c) := by
  rw [← neg_sub b a, ← neg_sub d c, neg_div_neg_eq]

/-- C17: reversing a segment changes none of the answers. -/
theorem C17_reverse (s : Segment K) :
    slope s.reverse = slope s ∧ isVerticalLine s.reverse = isVerticalLine s ∧
    isHorizontalLine s.reverse = isHorizontalLine s ∧
    isDiagonalLine s.reverse = isDiagonalLine s := by
  by_cases h : s = []
  · subst h; simp
  · have h' : s.reverse ≠ [] := by simpa using h
    have d1 := deltas_of s h
    have d2 := deltas_of s.reverse h'
    rw [List.getLast_reverse, List.head_reverse] at d2
    have ex : (s.head h).1 - (s.getLast h).1 = 0 ↔ (s.getLast h).1 - (s.head h).1 = 0 := by
      rw [sub_eq_zero, sub_eq_zero, eq_comm]
    have ey : (s.head h).2 - (s.getLast h).2 = 0 ↔ (s.getLast h).2 - (s.head h).2 = 0 := by
      rw [sub_eq_zero, sub_eq_zero, eq_comm]
    unfold slope isVerticalLine isHorizontalLine isDiagonalLine
    rw [d1, d2]
    simp only [ok_bind, List.length_reverse, ex, ey, ne_eq, neg_div_neg_sub (s.head h).2,
      and_self]

/-- C17: a line with distinct ends is exactly one of vertical, horizontal and diagonal. -/
theorem C17_trichotomy (a b : Pt K) (h : a ≠ b) :
    ∃ v hz d, isVerticalLine [a, b] = .ok v ∧ isHorizontalLine [a, b] = .ok hz ∧
      isDiagonalLine [a, b] = .ok d ∧
      (v = true ↔ a.1 = b.1) ∧ (hz = true ↔ a.2 = b.2) ∧ (d = true ↔ v = false ∧ hz = false) ∧
      ¬ (v = true ∧ hz = true) := by
  have hd : getDeltas [a, b] = .ok (b.1 - a.1, b.2 - a.2) := deltas_of [a, b] (by simp)
  unfold isVerticalLine isHorizontalLine isDiagonalLine
  rw [hd]
  refine ⟨_, _, _, rfl, rfl, rfl, ?_, ?_, ?_, ?_⟩
  · simp [sub_eq_zero, eq_comm]
  · simp [sub_eq_zero, eq_comm]
  · simp
  · simp only [List.length_cons, List.length_nil, sub_eq_zero, Bool.and_eq_true, decide_eq_true_eq]
    rintro ⟨⟨_, h1⟩, ⟨_, h2⟩⟩
    exact h (Prod.ext h1.symm h2.symm)

/-- C17: curves (and single points) are none of the three kinds. -/
theorem C17_curves (s : Segment K) (h : s ≠ []) (h2 : s.length ≠ 2) :
    isVerticalLine s = .ok false ∧ isHorizontalLine s = .ok false ∧
    isDiagonalLine s = .ok false := by
  unfold isVerticalLine isHorizontalLine isDiagonalLine
  rw [deltas_of s h]
  simp [h2]

/-- C17: horizontal lines have slope 0; vertical lines are the two-point segments of infinite slope. -/
theorem C17_kinds_slope (a b : Pt K) :
    (isVerticalLine [a, b] = .ok true ↔ slope [a, b] = .ok .inf) ∧
    (a.1 ≠ b.1 → (isHorizontalLine [a, b] = .ok true ↔ slope [a, b] = .ok (.fin 0))) := by
  have hd : getDeltas [a, b] = .ok (b.1 - a.1, b.2 - a.2) := deltas_of [a, b] (by simp)
  unfold isVerticalLine isHorizontalLine
  rw [hd, slope_two]
  constructor
  · by_cases h : b.1 - a.1 = 0 <;> simp [h]
  · intro h
    have h' : b.1 - a.1 ≠ 0 := sub_ne_zero.mpr (Ne.symm h)
    simp [h', div_eq_zero_iff]

end

/-- C17: `slopeAngle` lies in [0, 90] and measures the deviation from the vertical: its sine and cosine are
`|dx|/length`, `|dy|/length`. -/
theorem C17_slopeAngle (s : Segment ℝ) (h : s ≠ []) :
    ∃ ang len, slopeAngle s = .ok ang ∧ PathUtilities.length s = .ok len ∧ 0 ≤ ang ∧ ang ≤ 90 ∧
      ((s.getLast h ≠ s.head h) →
        len * Real.sin (ang * Real.pi / 180) = |(s.getLast h).1 - (s.head h).1| ∧
        len * Real.cos (ang * Real.pi / 180) = |(s.getLast h).2 - (s.head h).2|) := by
  unfold slopeAngle PathUtilities.length
  rw [deltas_of s h]
  refine ⟨_, _, rfl, rfl, ?_, ?_, ?_⟩
  · unfold degrees butils.atan2
    apply div_nonneg _ Real.pi_pos.le
    apply mul_nonneg _ (by norm_num)
    rw [Complex.arg_nonneg_iff]
    exact abs_nonneg _
  · unfold degrees butils.atan2
    rw [div_le_iff₀ Real.pi_pos]
    have := (Complex.abs_arg_le_pi_div_two_iff
      (z := (⟨|(s.getLast h).2 - (s.head h).2|, |(s.getLast h).1 - (s.head h).1|⟩ : ℂ))).mpr
      (abs_nonneg _)
    have := (abs_le.mp this).2
    linarith
  · intro hne
    have e : ∀ x : ℝ, degrees x * Real.pi / 180 = x := by
      intro x; unfold degrees; field_simp [Real.pi_pos.ne']
    rw [e]
    unfold butils.atan2
    set z : ℂ := ⟨|(s.getLast h).2 - (s.head h).2|, |(s.getLast h).1 - (s.head h).1|⟩ with hz
    have hz0 : z ≠ 0 := by
      intro h0
      have h1 : z.re = 0 := by rw [h0]; rfl
      have h2 : z.im = 0 := by rw [h0]; rfl
      apply hne
      simp only [hz, abs_eq_zero] at h1 h2
      exact Prod.ext (by linarith) (by linarith)
    have hn : butils.hypot ((s.getLast h).1 - (s.head h).1) ((s.getLast h).2 - (s.head h).2) = ‖z‖ := by
      unfold butils.hypot
      rw [Complex.norm_def, Complex.normSq_apply]
      simp only [hz, abs_mul_abs_self]
      rw [add_comm]
    simp only
    rw [hn]
    have hpos : ‖z‖ ≠ 0 := by simpa using hz0
    constructor
    · rw [Complex.sin_arg]; field_simp; rfl
    · rw [Complex.cos_arg hz0]; field_simp; rfl

/-- C17: `rawSlopeAngle` is the polar angle of `end - start`, in (-180, 180]. -/
theorem C17_rawSlopeAngle (s : Segment ℝ) (h : s ≠ []) :
    ∃ ang len, rawSlopeAngle s = .ok ang ∧ PathUtilities.length s = .ok len ∧ -180 < ang ∧ ang ≤ 180 ∧
      ((s.getLast h ≠ s.head h) →
        len * Real.cos (ang * Real.pi / 180) = (s.getLast h).1 - (s.head h).1 ∧
        len * Real.sin (ang * Real.pi / 180) = (s.getLast h).2 - (s.head h).2) := by
  unfold rawSlopeAngle PathUtilities.length
  rw [deltas_of s h]
  set z : ℂ := ⟨(s.getLast h).1 - (s.head h).1, (s.getLast h).2 - (s.head h).2⟩ with hz
  refine ⟨degrees z.arg, _, rfl, rfl, ?_, ?_, ?_⟩
  · unfold degrees
    rw [lt_div_iff₀ Real.pi_pos]
    have := Complex.neg_pi_lt_arg z
    linarith
  · unfold degrees
    rw [div_le_iff₀ Real.pi_pos]
    have := Complex.arg_le_pi z
    linarith
  · intro hne
    have e : ∀ x : ℝ, degrees x * Real.pi / 180 = x := by
      intro x; unfold degrees; field_simp [Real.pi_pos.ne']
    rw [e]
    have hz0 : z ≠ 0 := by
      intro h0
      have h1 : z.re = 0 := by rw [h0]; rfl
      have h2 : z.im = 0 := by rw [h0]; rfl
      apply hne
      simp only [hz] at h1 h2
      exact Prod.ext (by linarith) (by linarith)
    have hn : butils.hypot ((s.getLast h).1 - (s.head h).1) ((s.getLast h).2 - (s.head h).2) = ‖z‖ := by
      unfold butils.hypot
      rw [Complex.norm_def, Complex.normSq_apply]
    simp only
    rw [hn]
    have hpos : ‖z‖ ≠ 0 := by simpa using hz0
    constructor
    · rw [Complex.cos_arg hz0]; field_simp; rfl
    · rw [Complex.sin_arg]; field_simp; rfl

example : slope [((0:ℚ), 0), (7, 7), (2, 1)] = .ok (.fin (1/2)) := by decide +kernel

/-! ## C18 -/

private theorem length_two (a b : Pt ℝ) :
    PathUtilities.length [a, b] = .ok (Real.sqrt (sqDist b a)) := by
  unfold PathUtilities.length
  rw [deltas_of [a, b] (by simp)]
  simp only [ok_bind, pure_eq_ok, Except.ok.injEq, butils.hypot, sqDist, List.getLast_cons,
    List.head_cons]
  congr 1
  simp only [ne_eq, List.cons_ne_self, not_false_eq_true, List.getLast_cons, List.getLast_singleton]
  ring

/-- C18: the length of any non-empty segment is the Euclidean distance of its ends. -/
theorem C18_length (s : Segment ℝ) (h : s ≠ []) :
    PathUtilities.length s = .ok (Real.sqrt (sqDist (s.getLast h) (s.head h))) := by
  unfold PathUtilities.length
  rw [deltas_of s h]
  simp only [ok_bind, pure_eq_ok, Except.ok.injEq, butils.hypot, sqDist]
  congr 1; ring

/-- C18: symmetric, positive, translation invariant. -/
theorem C18_length_metric (a b v : Pt ℝ) :
    ∃ l, PathUtilities.length [a, b] = .ok l ∧ PathUtilities.length [b, a] = .ok l ∧
      PathUtilities.length [(a.1 + v.1, a.2 + v.2), (b.1 + v.1, b.2 + v.2)] = .ok l ∧
      0 ≤ l ∧ (l = 0 ↔ a = b) := by
  refine ⟨_, length_two a b, ?_, ?_, Real.sqrt_nonneg _, ?_⟩
  · rw [length_two]; congr 2; unfold sqDist; ring
  · rw [length_two]; congr 2; unfold sqDist; ring
  · rw [Real.sqrt_eq_zero (by unfold sqDist; positivity)]
    unfold sqDist
    constructor
    · intro h
      have h1 : (b.1 - a.1) = 0 := by nlinarith [sq_nonneg (b.1 - a.1), sq_nonneg (b.2 - a.2)]
      have h2 : (b.2 - a.2) = 0 := by nlinarith [sq_nonneg (b.1 - a.1), sq_nonneg (b.2 - a.2)]
      exact Prod.ext (by linarith) (by linarith)
    · rintro rfl; ring

/-- C18: triangle inequality. -/
theorem C18_triangle (a b c : Pt ℝ) (x y z : ℝ) (h1 : PathUtilities.length [a, b] = .ok x)
    (h2 : PathUtilities.length [b, c] = .ok y) (h3 : PathUtilities.length [a, c] = .ok z) :
    z ≤ x + y := by
  rw [length_two, Except.ok.injEq] at h1 h2 h3
  subst h1; subst h2; subst h3
  have key : ∀ p q : Pt ℝ, Real.sqrt (sqDist q p) = ‖(⟨q.1 - p.1, q.2 - p.2⟩ : ℂ)‖ := by
    intro p q
    rw [Complex.norm_def, Complex.normSq_apply]
    congr 1; unfold sqDist; simp only; ring
  rw [key, key, key]
  refine le_trans (le_of_eq ?_) (norm_add_le _ _)
  congr 1
  apply Complex.ext <;> simp

/-- C18: the midpoint is on the line, at half its length from both ends. -/
theorem C18_midpoint (a b : Pt ℝ) :
    ∃ m l, midpoint [a, b] = .ok m ∧ PathUtilities.length [a, b] = .ok l ∧
      PathUtilities.length [a, m] = .ok (l / 2) ∧ PathUtilities.length [m, b] = .ok (l / 2) ∧
      OnSegment a b m ∧ midpoint [b, a] = .ok m := by
  refine ⟨((a.1 + b.1) / 2, (a.2 + b.2) / 2), _, rfl, length_two a b, ?_, ?_, ?_, ?_⟩
  · rw [length_two]; congr 1
    rw [Real.sqrt_eq_iff_mul_self_eq (by unfold sqDist; positivity)
      (div_nonneg (Real.sqrt_nonneg _) (by norm_num))]
    have := Real.mul_self_sqrt (show 0 ≤ sqDist b a by unfold sqDist; positivity)
    unfold sqDist at *; simp only at *; linear_combination -this / 4
  · rw [length_two]; congr 1
    rw [Real.sqrt_eq_iff_mul_self_eq (by unfold sqDist; positivity)
      (div_nonneg (Real.sqrt_nonneg _) (by norm_num))]
    have := Real.mul_self_sqrt (show 0 ≤ sqDist b a by unfold sqDist; positivity)
    unfold sqDist at *; simp only at *; linear_combination -this / 4
  · exact ⟨1 / 2, by norm_num, by norm_num, by simp only; ring, by simp only; ring⟩
  · have : midpoint [b, a] = .ok ((b.1 + a.1) / 2, (b.2 + a.2) / 2) := rfl
    rw [this, add_comm b.1, add_comm b.2]

end PathLib
