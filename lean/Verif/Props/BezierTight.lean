import Verif.Props.BezierShape
import Verif.Props.BezierBounds
import Verif.Props.BezierRoots
import Verif.Props.BezierReduce

set_option linter.unusedSectionVars false
set_option linter.unusedSimpArgs false

/-!
# The turned bounding box: C67
-/

namespace PathLib
open Spec Bezier

private theorem roundHalfEven_neg (x : ℝ) : Transform.roundHalfEven (-x) = -Transform.roundHalfEven x := by
  unfold Transform.roundHalfEven
  have h0 := Int.floor_le x
  have h1 := Int.lt_floor_add_one x
  rcases h0.eq_or_lt with h | h
  · have e1 : ⌊-x⌋ = -⌊x⌋ := by rw [Int.floor_eq_iff]; push_cast; constructor <;> linarith
    simp only [e1]
    push_cast
    rw [if_pos (by linarith), if_pos (by linarith)]
  · have e1 : ⌊-x⌋ = -⌊x⌋ - 1 := by rw [Int.floor_eq_iff]; push_cast; constructor <;> linarith
    simp only [e1]
    push_cast
    rcases lt_trichotomy (x - ⌊x⌋) (1 / 2) with h2 | h2 | h2
    · have a1 : ¬ -x - (-(⌊x⌋ : ℝ) - 1) < 1 / 2 := by linarith
      have a2 : 1 / 2 < -x - (-(⌊x⌋ : ℝ) - 1) := by linarith
      simp only [if_pos h2, if_neg a1, if_pos a2]; ring
    · have a1 : ¬ -x - (-(⌊x⌋ : ℝ) - 1) < 1 / 2 := by linarith
      have a2 : ¬ 1 / 2 < -x - (-(⌊x⌋ : ℝ) - 1) := by linarith
      have a3 : ¬ x - ⌊x⌋ < 1 / 2 := by linarith
      have a4 : ¬ 1 / 2 < x - ⌊x⌋ := by linarith
      simp only [if_neg a1, if_neg a2, if_neg a3, if_neg a4]
      split_ifs <;> omega
    · have a1 : -x - (-(⌊x⌋ : ℝ) - 1) < 1 / 2 := by linarith
      have a3 : ¬ x - ⌊x⌋ < 1 / 2 := by linarith
      simp only [if_pos a1, if_neg a3, if_pos h2]; ring

private theorem sin_neg (d : ℝ) : Transform.sin (-d) = -Transform.sin d := by
  unfold Transform.sin Transform.radians Transform.round15
  rw [show -d * Real.pi / 180 = -(d * Real.pi / 180) by ring, Real.sin_neg, neg_mul, roundHalfEven_neg]
  push_cast; ring

private theorem cos_neg (d : ℝ) : Transform.cos (-d) = Transform.cos d := by
  unfold Transform.cos Transform.radians
  rw [show -d * Real.pi / 180 = -(d * Real.pi / 180) by ring, Real.cos_neg]

/-- The map undoing `_align`. -/
private noncomputable def backMap (first : Pt ℝ) (angle : ℝ) (p : Pt ℝ) : Pt ℝ :=
  let c := Transform.cos angle
  let s := Transform.sin angle
  (first.1 + (c * p.1 - s * p.2), first.2 + (s * p.1 + c * p.2))

private theorem rotateAndMove_apply (first : Pt ℝ) (angle : ℝ) :
    ∃ T, Transform.rotateAndMove (0, 0) first angle = .ok T ∧ ∀ p, T.applyToPoint p = .ok (backMap first angle p) := by
  unfold Transform.rotateAndMove Transform.translateMatrix Transform.rotationMatrix Transform.rotationMatrixOf
  simp only [if_true]
  rw [Transform.new_two, Transform.mul_matrix]
  refine ⟨_, rfl, fun p => ?_⟩
  simp only [mul_zero, zero_mul, add_zero, mul_one, zero_add, one_mul]
  rw [Transform.applyToPoint_affine]
  congr 1
  unfold backMap
  ext <;> simp <;> ring

/-- `r` is the point at the fraction `k` of the way from `p` to `q`. -/
def Spec.Between (p q : Pt ℝ) (k : ℝ) (r : Pt ℝ) : Prop := r = (p.1 + k * (q.1 - p.1), p.2 + k * (q.2 - p.2))

/-- The image of `p` when the plane is stretched from `o` by the factor `f`. -/
def Spec.stretch (o : Pt ℝ) (f : ℝ) (p : Pt ℝ) : Pt ℝ := (o.1 + f * (p.1 - o.1), o.2 + f * (p.2 - o.2))

/-- What `tightbbox` computes, by way of the box of the aligned curve. -/
private theorem tightbbox_ok (b : Bezier) (h2 : 2 ≤ b.controlPoints.length) (hne : b.controlPoints ≠ []) :
    ∃ angle r, PathUtilities.rawSlopeAngle b.controlPoints = .ok angle ∧
      let first := b.controlPoints.head hne
      let qs := b.controlPoints.map (alignMap first angle)
      let g := backMap first angle
      alignPoints b.controlPoints b.controlPoints = .ok qs ∧
      boundsRectangle qs = .ok r ∧ BoundsRectangle.Proper r ∧
      tightbbox b = .ok [[g (r.left, r.bottom), g (r.left, r.top)], [g (r.left, r.top), g (r.right, r.top)],
        [g (r.right, r.top), g (r.right, r.bottom)], [g (r.right, r.bottom), g (r.left, r.bottom)]] ∧
      (∀ t, g (curve qs t) = stretch first (Transform.sin angle ^ 2 + Transform.cos angle ^ 2) (curve b.controlPoints t)) ∧
      (b.controlPoints.length ≤ 4 → ∀ t, 0 ≤ t → t ≤ 1 → r.enclosesPoint (curve qs t) = true) := by
  obtain ⟨angle, ha⟩ := rawSlopeAngle_ok b.controlPoints hne
  have h0 : pyGet b.controlPoints 0 = .ok (b.controlPoints.head hne) := by
    generalize b.controlPoints = ps at *
    match ps, hne with
    | a :: l, _ => rfl
  have hal := alignPoints_ok b.controlPoints b.controlPoints _ angle h0 ha
  obtain ⟨r, hr, hp, henc⟩ := boundsRectangle_ok (b.controlPoints.map (alignMap (b.controlPoints.head hne) angle)) (by simpa using h2)
  obtain ⟨T, hT, hTp⟩ := rotateAndMove_apply (b.controlPoints.head hne) angle
  refine ⟨angle, r, ha, hal, hr, hp, ?_, ?_, ?_⟩
  · obtain ⟨c, hc, ec, _⟩ := new_ok (b.controlPoints.map (alignMap (b.controlPoints.head hne) angle)) (by simpa using h2)
    unfold tightbbox align
    simp only [hal, ok_bind, hc, ec, hr, ha, h0, hT]
    simp only [Transform.applyToContour, Transform.applyToSegment, BoundsRectangle.contour, List.mapM_cons, List.mapM_nil, hTp,
      ok_bind, pure_eq_ok]
  · intro t
    obtain ⟨a, b', c, d, m, n, e⟩ := alignMap_affine (b.controlPoints.head hne) angle
    rw [e, curve_affine _ _ _ _ _ _ _ hne, ← e]
    unfold alignMap backMap stretch
    rw [sin_neg, cos_neg]
    ext <;> simp only <;> ring
  · intro h4 t t0 t1
    exact henc (by simpa using h4) t t0 t1

/-- C67: `tightbbox` returns four edges forming a closed rectangle, and every point of the curve lies in it, up to a stretching from
the start of the curve by a factor within 2e-15 of 1: the factor comes from the rounding of sine and cosine. -/
theorem C67_contains (b : Bezier) (h2 : 2 ≤ b.controlPoints.length) (h4 : b.controlPoints.length ≤ 4)
    (hne : b.controlPoints ≠ []) :
    ∃ f q0 q1 q2 q3, tightbbox b = .ok [[q0, q1], [q1, q2], [q2, q3], [q3, q0]] ∧ |f - 1| ≤ 2e-15 ∧
      dot (vec q0 q1) (vec q0 q3) = 0 ∧ vec q0 q1 = vec q3 q2 ∧
      ∀ t, 0 ≤ t → t ≤ 1 → ∃ j k, 0 ≤ j ∧ j ≤ 1 ∧ 0 ≤ k ∧ k ≤ 1 ∧
        stretch (b.controlPoints.head hne) f (curve b.controlPoints t) =
          (q0.1 + j * (q3.1 - q0.1) + k * (q1.1 - q0.1), q0.2 + j * (q3.2 - q0.2) + k * (q1.2 - q0.2)) := by
  obtain ⟨angle, r, ha, hal, hr, hp, ht, hg, henc⟩ := tightbbox_ok b h2 hne
  refine ⟨_, _, _, _, _, ht, abs_sq_add_sq_sub_one_le angle, ?_, ?_, ?_⟩
  · unfold dot vec backMap; simp only; ring
  · unfold vec backMap; ext <;> simp only <;> ring
  · intro t t0 t1
    have hin := henc h4 t t0 t1
    rw [BoundsRectangle.enclosesPoint_iff] at hin
    obtain ⟨⟨i1, i2⟩, ⟨i3, i4⟩⟩ := hin
    rw [← hg t]
    generalize curve _ t = p at *
    have frac : ∀ lo hi x : ℝ, lo ≤ x → x ≤ hi → ∃ j, 0 ≤ j ∧ j ≤ 1 ∧ x = lo + j * (hi - lo) := by
      intro lo hi x h1 h2
      rcases (h1.trans h2).eq_or_lt with h | h
      · exact ⟨0, le_rfl, zero_le_one, by linarith⟩
      · have hd : 0 < hi - lo := by linarith
        refine ⟨(x - lo) / (hi - lo), div_nonneg (by linarith) hd.le, by rw [div_le_one hd]; linarith, ?_⟩
        field_simp; ring
    obtain ⟨j, j0, j1, ej⟩ := frac _ _ _ i1 i2
    obtain ⟨k, k0, k1, ek⟩ := frac _ _ _ i3 i4
    refine ⟨j, k, j0, j1, k0, k1, ?_⟩
    obtain ⟨x, y⟩ := p
    simp only at ej ek
    subst ej ek
    unfold backMap
    ext <;> simp only <;> ring

/-- C67: when the aligned curve stays in the design space every edge of the rectangle is touched by the (stretched) curve. -/
theorem C67_tight (b : Bezier) (h2 : 2 ≤ b.controlPoints.length) (h4 : b.controlPoints.length ≤ 4)
    (hne : b.controlPoints ≠ [])
    (hd : ∀ qs, alignPoints b.controlPoints b.controlPoints = .ok qs → ∀ t, 0 ≤ t → t ≤ 1 →
      |(curve qs t).1| ≤ 32768 ∧ |(curve qs t).2| ≤ 32768) :
    ∃ f q0 q1 q2 q3, tightbbox b = .ok [[q0, q1], [q1, q2], [q2, q3], [q3, q0]] ∧ |f - 1| ≤ 2e-15 ∧
      (∀ e ∈ [(q0, q1), (q1, q2), (q2, q3), (q3, q0)], ∃ t k, 0 ≤ t ∧ t ≤ 1 ∧ 0 ≤ k ∧ k ≤ 1 ∧
        Between e.1 e.2 k (stretch (b.controlPoints.head hne) f (curve b.controlPoints t))) := by
  obtain ⟨angle, r, ha, hal, hr, hp, ht, hg, henc⟩ := tightbbox_ok b h2 hne
  obtain ⟨r', hr', _, ⟨ta, a0, a1, ea⟩, ⟨tb, b0, b1, eb⟩, ⟨tc, c0, c1, ec⟩, td, d0, d1, ed⟩ :=
    C37_tight_of_curve _ (by simpa using h2) (hd _ hal)
  rw [hr] at hr'; cases hr'
  have frac : ∀ lo hi x : ℝ, lo ≤ x → x ≤ hi → ∃ j, 0 ≤ j ∧ j ≤ 1 ∧ x = lo + j * (hi - lo) := by
    intro lo hi x h1 h2
    rcases (h1.trans h2).eq_or_lt with h | h
    · exact ⟨0, le_rfl, zero_le_one, by linarith⟩
    · have hd : 0 < hi - lo := by linarith
      refine ⟨(x - lo) / (hi - lo), div_nonneg (by linarith) hd.le, by rw [div_le_one hd]; linarith, ?_⟩
      field_simp; ring
  have box := henc h4
  simp only [BoundsRectangle.enclosesPoint_iff] at box
  refine ⟨_, _, _, _, _, ht, abs_sq_add_sq_sub_one_le angle, ?_⟩
  intro e he
  simp only [List.mem_cons, List.not_mem_nil, or_false] at he
  rcases he with rfl | rfl | rfl | rfl
  · obtain ⟨-, i3, i4⟩ := box ta a0 a1
    obtain ⟨k, k0, k1, ek⟩ := frac _ _ _ i3 i4
    refine ⟨ta, k, a0, a1, k0, k1, ?_⟩
    rw [← hg]
    unfold Between backMap
    rw [ea, ek]
    ext <;> simp only <;> ring
  · obtain ⟨⟨i1, i2⟩, -⟩ := box td d0 d1
    obtain ⟨k, k0, k1, ek⟩ := frac _ _ _ i1 i2
    refine ⟨td, k, d0, d1, k0, k1, ?_⟩
    rw [← hg]
    unfold Between backMap
    rw [ed, ek]
    ext <;> simp only <;> ring
  · obtain ⟨-, i3, i4⟩ := box tb b0 b1
    obtain ⟨k, k0, k1, ek⟩ := frac _ _ _ i3 i4
    refine ⟨tb, 1 - k, b0, b1, by linarith, by linarith, ?_⟩
    rw [← hg]
    unfold Between backMap
    rw [eb, ek]
    ext <;> simp only <;> ring
  · obtain ⟨⟨i1, i2⟩, -⟩ := box tc c0 c1
    obtain ⟨k, k0, k1, ek⟩ := frac _ _ _ i1 i2
    refine ⟨tc, 1 - k, c0, c1, by linarith, by linarith, ?_⟩
    rw [← hg]
    unfold Between backMap
    rw [ec, ek]
    ext <;> simp only <;> ring

/-- C67: the edge from `q0` to `q3` has the direction of the chord of the curve, up to the rounding of sine and cosine. -/
theorem C67_direction (b : Bezier) (h2 : 2 ≤ b.controlPoints.length) (hne : b.controlPoints ≠ [])
    (hc : b.controlPoints.getLast hne ≠ b.controlPoints.head hne) :
    ∃ q0 q1 q2 q3 w len, tightbbox b = .ok [[q0, q1], [q1, q2], [q2, q3], [q3, q0]] ∧ 0 ≤ w ∧
      PathUtilities.length b.controlPoints = .ok len ∧
      let chord := vec (b.controlPoints.head hne) (b.controlPoints.getLast hne)
      |len * (vec q0 q3).1 - w * chord.1| ≤ 5e-16 * w * len ∧ |len * (vec q0 q3).2 - w * chord.2| ≤ 5e-16 * w * len := by
  obtain ⟨angle, r, ha, hal, hr, hp, ht, hg, henc⟩ := tightbbox_ok b h2 hne
  obtain ⟨angle', len, ha', hlen, -, -, hcs⟩ := C17_rawSlopeAngle b.controlPoints hne
  rw [ha] at ha'; cases ha'
  obtain ⟨e1, e2⟩ := hcs hc
  have hl0 : 0 ≤ len := by
    rw [C18_length b.controlPoints hne] at hlen
    cases hlen
    positivity
  refine ⟨_, _, _, _, r.right - r.left, len, ht, by linarith [hp.1], hlen, ?_, ?_⟩
  all_goals
    have hw : 0 ≤ (r.right - r.left) * len := mul_nonneg (by linarith [hp.1]) hl0
    unfold vec backMap
    simp only
  · rw [← e1, show len * (_ + (Transform.cos angle * r.right - Transform.sin angle * r.bottom) -
      (_ + (Transform.cos angle * r.left - Transform.sin angle * r.bottom))) -
      (r.right - r.left) * (len * Real.cos (angle * Real.pi / 180)) =
      (Transform.cos angle - Real.cos (angle * Real.pi / 180)) * ((r.right - r.left) * len) by ring, abs_mul, abs_of_nonneg hw]
    have := mul_le_mul_of_nonneg_right (cos_err angle) hw
    linarith
  · rw [← e2, show len * (_ + (Transform.sin angle * r.right + Transform.cos angle * r.bottom) -
      (_ + (Transform.sin angle * r.left + Transform.cos angle * r.bottom))) -
      (r.right - r.left) * (len * Real.sin (angle * Real.pi / 180)) =
      (Transform.sin angle - Real.sin (angle * Real.pi / 180)) * ((r.right - r.left) * len) by ring, abs_mul, abs_of_nonneg hw]
    have := mul_le_mul_of_nonneg_right (sin_err angle) hw
    linarith

/-- The hypotheses are met by the arch (1,1), (2,3), (3,1). -/
example (b : Bezier) (hb : b.controlPoints = [(1, 1), (2, 3), (3, 1)]) :
    2 ≤ b.controlPoints.length ∧ b.controlPoints.length ≤ 4 ∧ ∃ hne : b.controlPoints ≠ [],
      b.controlPoints.getLast hne ≠ b.controlPoints.head hne ∧
      (∀ qs, alignPoints b.controlPoints b.controlPoints = .ok qs → ∀ t, 0 ≤ t → t ≤ 1 →
        |(curve qs t).1| ≤ 32768 ∧ |(curve qs t).2| ≤ 32768) := by
  rw [hb]
  refine ⟨by simp, by simp, by simp, by simp, ?_⟩
  intro qs hqs
  have ha : PathUtilities.rawSlopeAngle [((1:ℝ), (1:ℝ)), (2, 3), (3, 1)] = .ok 0 := by
    unfold PathUtilities.rawSlopeAngle PathUtilities.getDeltas PathUtilities.endPoints
    simp [PathUtilities.degrees, butils.atan2, pyGet_neg_one]
    exact Complex.arg_ofReal_of_nonneg (x := 3 - 1) (by norm_num)
  rw [alignPoints_ok _ _ (1, 1) 0 rfl ha] at hqs
  cases hqs
  refine curve_in_design_space _ (by simp) ?_
  have c1 : Transform.cos 0 = 1 := by simp [Transform.cos, Transform.radians, round15_one]
  have s1 : Transform.sin 0 = 0 := by simp [Transform.sin, Transform.radians, round15_zero]
  simp [alignMap, c1, s1, InDesignSpace]
  norm_num

end PathLib
