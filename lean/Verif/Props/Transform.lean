import Verif.Lemmas.Transform

/-!
# Property theorems about PathLib/Transform.py (C01-C06, C65)
-/

set_option linter.unusedSectionVars false
set_option linter.unusedSimpArgs false

namespace PathLib
open Spec Transform

variable {K : Type} [Field K] [DecidableEq K]

/-- Apply `Transform(m)` for each matrix `m` in turn, first matrix first: the behaviour a user expects
from `Transform(m1, ..., mn)`. Uses only the single-matrix constructor and `applyToPoint`. -/
def applyInTurn (ms : List (Mat K)) (p : Pt K) : Py (Pt K) :=
  ms.foldlM (fun q m => do (← Transform.new [m]).applyToPoint q) p

/-! ## C01 -/

/-- C01 (general): if applying the matrices one after the other succeeds, `Transform(m1, ..., mn)`
exists and gives the same point. -/
theorem C01_concat_applies_in_order (ms : List (Mat K)) (hne : ms ≠ [])
    (h3 : ∀ m ∈ ms, Is3x3 m) (p r : Pt K) (h : applyInTurn ms p = .ok r) :
    ∃ T, Transform.new ms = .ok T ∧ T.applyToPoint p = .ok r := by
  match ms, hne, h3, h with
  | A :: ms, _, h3, h =>
    induction ms generalizing A with
    | nil =>
      refine ⟨⟨A⟩, rfl, ?_⟩
      simpa [applyInTurn, new_single] using h
    | cons B ms ih =>
      have hA : Is3x3 A := h3 A (by simp)
      have hB : Is3x3 B := h3 B (by simp)
      obtain ⟨C, hC, hC3⟩ := mul_is3x3 hA hB
      have h' : ∃ q1, applyToPoint ⟨A⟩ p = .ok q1 ∧ ∃ q2, applyToPoint ⟨B⟩ q1 = .ok q2 ∧
          applyInTurn ms q2 = .ok r := by
        simp only [applyInTurn, List.foldlM_cons, new_single, ok_bind] at h
        obtain ⟨q1, h1, h⟩ := bind_eq_ok.mp h
        obtain ⟨q2, h2, h⟩ := bind_eq_ok.mp h
        exact ⟨q1, h1, q2, h2, h⟩
      obtain ⟨q1, h1, q2, h2, h⟩ := h'
      have hCq := apply_mul hA hB hC h1 h2
      have := ih C (by simp) (fun m hm => by
          rcases List.mem_cons.mp hm with rfl | hm
          · exact hC3
          · exact h3 m (by simp [hm]))
        (by simp only [applyInTurn, List.foldlM_cons, new_single, ok_bind, hCq]; exact h)
      rw [new_cons_cons, hC, ok_bind]
      exact this

/-- C01 (affine case): for affine matrices both sides always succeed and agree. -/
theorem C01_concat_affine (ms : List (Mat K)) (hne : ms ≠ [])
    (h3 : ∀ m ∈ ms, IsAffine m) (p : Pt K) :
    ∃ T r, Transform.new ms = .ok T ∧ T.applyToPoint p = .ok r ∧ applyInTurn ms p = .ok r := by
  have hr : ∃ r, applyInTurn ms p = .ok r := by
    clear hne
    induction ms generalizing p with
    | nil => exact ⟨p, rfl⟩
    | cons A ms ih =>
      obtain ⟨a, b, c, d, m, n, rfl⟩ := h3 A (by simp)
      obtain ⟨r, hr⟩ := ih (fun m hm => h3 m (by simp [hm]))
        (a * p.1 + c * p.2 + m, b * p.1 + d * p.2 + n)
      refine ⟨r, ?_⟩
      simp only [applyInTurn, List.foldlM_cons, new_single, ok_bind, affineMat_eq,
        applyToPoint_affine]
      exact hr
  obtain ⟨r, hr⟩ := hr
  obtain ⟨T, hT, hT'⟩ := C01_concat_applies_in_order ms hne
    (fun m hm => isAffine_is3x3 (h3 m hm)) p r hr
  exact ⟨T, r, hT, hT', hr⟩

/-- C01: a one-matrix affine transform is the affine map with these coefficients, so the two theorems above
determine the action of every affine chain. -/
theorem C01_single_affine (a b c d m n : K) (p : Pt K) :
    ∃ T, Transform.new [affineMat a b c d m n] = .ok T ∧
      T.applyToPoint p = .ok (affineMap a b c d m n p) :=
  ⟨_, rfl, by rw [affineMat_eq, applyToPoint_affine]; rfl⟩

/-- C01: `Transform()` raises `IndexError`. -/
theorem C01_empty : Transform.new ([] : List (Mat K)) = .error .indexError := rfl

/-- Non-vacuity: a chain of a translation, a projective matrix and a shear on a concrete point. -/
example : applyInTurn [affineMat (1:ℚ) 0 0 1 2 3, [[1,0,1],[0,1,0],[0,0,1]], affineMat 1 5 0 1 0 0] (1, 1)
    = .ok (3/4, 19/4) := by decide +kernel

/-! ## C02 -/

/-- C02: translation by `b - a`. -/
theorem C02_translate (a b p : Pt K) :
    ∃ T, Transform.translate a b = .ok T ∧
      T.applyToPoint p = .ok (p.1 + (b.1 - a.1), p.2 + (b.2 - a.2)) := by
  refine ⟨_, rfl, ?_⟩
  rw [translateMatrix, applyToPoint_affine]
  simp

/-- C02: `a` goes to `b`. -/
theorem C02_translate_from_to (a b : Pt K) :
    ∃ T, Transform.translate a b = .ok T ∧ T.applyToPoint a = .ok b := by
  obtain ⟨T, h, h'⟩ := C02_translate a b a
  exact ⟨T, h, by rw [h']; simp⟩

/-- C02: the reverse translation undoes it. -/
theorem C02_translate_inverse (a b p : Pt K) :
    ∃ T T' q, Transform.translate a b = .ok T ∧ Transform.translate b a = .ok T' ∧
      T.applyToPoint p = .ok q ∧ T'.applyToPoint q = .ok p := by
  obtain ⟨T, h, h1⟩ := C02_translate a b p
  obtain ⟨T', h', h2⟩ := C02_translate b a (p.1 + (b.1 - a.1), p.2 + (b.2 - a.2))
  refine ⟨T, T', _, h, h', h1, ?_⟩
  rw [h2]
  simp only [Except.ok.injEq]
  ext <;> ring

/-! ## C03 -/

theorem rotationAbout_apply (about : Pt ℝ) (deg : ℝ) (ccw : Bool) (p : Pt ℝ) :
    ∃ T, Transform.rotationAbout about deg ccw = .ok T ∧
      T.applyToPoint p = .ok
        (about.1 + (Transform.cos deg * (p.1 - about.1)
            - (if ccw then 1 else -1) * Transform.sin deg * (p.2 - about.2)),
         about.2 + ((if ccw then 1 else -1) * Transform.sin deg * (p.1 - about.1)
            + Transform.cos deg * (p.2 - about.2))) := by
  cases ccw
  · refine ⟨_, rfl, ?_⟩
    have := applyToPoint_affine (Transform.cos deg) (-Transform.sin deg) (Transform.sin deg)
      (Transform.cos deg)
      (about.1 - Transform.cos deg * about.1 - Transform.sin deg * about.2)
      (about.2 + Transform.sin deg * about.1 - Transform.cos deg * about.2) p
    convert this using 2
    · simp [translateMatrix, rotationMatrix, rotationMatrixOf, matrix]
      constructor <;> ring
    · ext <;> simp <;> ring
  · refine ⟨_, rfl, ?_⟩
    have := applyToPoint_affine (Transform.cos deg) (Transform.sin deg) (-Transform.sin deg)
      (Transform.cos deg)
      (about.1 - Transform.cos deg * about.1 + Transform.sin deg * about.2)
      (about.2 - Transform.sin deg * about.1 - Transform.cos deg * about.2) p
    convert this using 2
    · simp [translateMatrix, rotationMatrix, rotationMatrixOf, matrix]
      constructor <;> ring
    · ext <;> simp <;> ring

/-- C03: the centre is fixed exactly, for every angle and both directions. -/
theorem C03_rotation_fixes_centre (about : Pt ℝ) (deg : ℝ) (ccw : Bool) :
    ∃ T, Transform.rotationAbout about deg ccw = .ok T ∧ T.applyToPoint about = .ok about := by
  obtain ⟨T, h, h'⟩ := rotationAbout_apply about deg ccw about
  exact ⟨T, h, by rw [h']; simp⟩

/-- C03: every rotation multiplies all squared distances by one factor within `2e-15` of 1. -/
theorem C03_rotation_near_isometry (deg : ℝ) :
    ∃ f : ℝ, |f - 1| ≤ 2e-15 ∧ ∀ (about : Pt ℝ) (ccw : Bool) (p q : Pt ℝ),
      ∃ T p' q', Transform.rotationAbout about deg ccw = .ok T ∧
        T.applyToPoint p = .ok p' ∧ T.applyToPoint q = .ok q' ∧
        sqDist p' q' = f * sqDist p q := by
  refine ⟨Transform.sin deg ^ 2 + Transform.cos deg ^ 2, abs_sq_add_sq_sub_one_le deg, ?_⟩
  intro about ccw p q
  obtain ⟨T, h, h1⟩ := rotationAbout_apply about deg ccw p
  obtain ⟨T', h', h2⟩ := rotationAbout_apply about deg ccw q
  rw [h] at h'
  cases h'
  refine ⟨T, _, _, h, h1, h2, ?_⟩
  cases ccw <;> simp [sqDist] <;> ring

/-- C03: the result is within `5e-16·(|dx|+|dy|)` of the exact rotation by `deg` degrees, counter-clockwise
when `ccw`, clockwise otherwise (this fixes the direction of the rotation). -/
theorem C03_rotation_accuracy (about : Pt ℝ) (deg : ℝ) (ccw : Bool) (p : Pt ℝ) :
    ∃ T r, Transform.rotationAbout about deg ccw = .ok T ∧ T.applyToPoint p = .ok r ∧
      let θ := (if ccw then 1 else -1) * (deg * Real.pi / 180)
      let dx := p.1 - about.1
      let dy := p.2 - about.2
      |r.1 - (about.1 + (Real.cos θ * dx - Real.sin θ * dy))| ≤ 5e-16 * (|dx| + |dy|) ∧
      |r.2 - (about.2 + (Real.sin θ * dx + Real.cos θ * dy))| ≤ 5e-16 * (|dx| + |dy|) := by
  obtain ⟨T, h, h1⟩ := rotationAbout_apply about deg ccw p
  refine ⟨T, _, h, h1, ?_⟩
  have hs := sin_err deg
  have hc := cos_err deg
  set dx := p.1 - about.1
  set dy := p.2 - about.2
  set S := Real.sin (deg * Real.pi / 180)
  set C := Real.cos (deg * Real.pi / 180)
  have hb : ∀ (u v : ℝ), |(Transform.cos deg - C) * u + (Transform.sin deg - S) * v| ≤
      5e-16 * (|u| + |v|) := by
    intro u v
    calc _ ≤ |(Transform.cos deg - C) * u| + |(Transform.sin deg - S) * v| := abs_add_le _ _
      _ = |Transform.cos deg - C| * |u| + |Transform.sin deg - S| * |v| := by
          rw [abs_mul, abs_mul]
      _ ≤ 5e-16 * |u| + 5e-16 * |v| := by gcongr
      _ = _ := by ring
  cases ccw
  · simp only [Bool.false_eq_true, if_false, neg_mul, one_mul, Real.cos_neg, Real.sin_neg]
    constructor
    · have := hb dx dy
      convert this using 2; ring
    · have := hb dy (-dx)
      rw [abs_neg, add_comm |dy|] at this
      convert this using 2; ring
  · simp only [if_true, one_mul]
    constructor
    · have := hb dx (-dy)
      rw [abs_neg] at this
      convert this using 2; ring
    · have := hb dy dx
      rw [add_comm |dy|] at this
      convert this using 2; ring

/-- C03: for every multiple of a quarter turn the rotation is exact. -/
theorem C03_quarter_turns_exact (about : Pt ℝ) (k : ℤ) (ccw : Bool) (p : Pt ℝ) :
    ∃ T, Transform.rotationAbout about (90 * k) ccw = .ok T ∧
      let θ := (if ccw then 1 else -1) * ((90 * k : ℝ) * Real.pi / 180)
      T.applyToPoint p = .ok
        (about.1 + (Real.cos θ * (p.1 - about.1) - Real.sin θ * (p.2 - about.2)),
         about.2 + (Real.sin θ * (p.1 - about.1) + Real.cos θ * (p.2 - about.2))) := by
  obtain ⟨T, h, h1⟩ := rotationAbout_apply about (90 * k) ccw p
  refine ⟨T, h, ?_⟩
  rw [h1, sin_quarter, cos_quarter]
  cases ccw <;> simp

/-- C03: the default rotation (90 degrees counter-clockwise) in plain coordinates. -/
theorem C03_default_rotation (about p : Pt ℝ) :
    ∃ T, Transform.rotationAbout about 90 true = .ok T ∧
      T.applyToPoint p = .ok (about.1 - (p.2 - about.2), about.2 + (p.1 - about.1)) := by
  obtain ⟨T, h, h1⟩ := C03_quarter_turns_exact about 1 true p
  have e : (90 : ℝ) * Real.pi / 180 = Real.pi / 2 := by ring
  simp [e] at h h1
  exact ⟨T, h, by rw [h1]; simp only [Except.ok.injEq]; ext <;> ring⟩

/-- C03: rotating clockwise by the same angle undoes the counter-clockwise rotation up to the factor `f`
(within `2e-15` of 1) about the centre. -/
theorem C03_rotation_inverse (deg : ℝ) :
    ∃ f : ℝ, |f - 1| ≤ 2e-15 ∧ ∀ (about : Pt ℝ) (ccw : Bool) (p : Pt ℝ),
      ∃ T T' q, Transform.rotationAbout about deg ccw = .ok T ∧
        Transform.rotationAbout about deg (!ccw) = .ok T' ∧
        T.applyToPoint p = .ok q ∧
        T'.applyToPoint q = .ok (about.1 + f * (p.1 - about.1), about.2 + f * (p.2 - about.2)) := by
  refine ⟨Transform.sin deg ^ 2 + Transform.cos deg ^ 2, abs_sq_add_sq_sub_one_le deg, ?_⟩
  intro about ccw p
  obtain ⟨T, h, h1⟩ := rotationAbout_apply about deg ccw p
  obtain ⟨T', h', h2⟩ := rotationAbout_apply about deg (!ccw) _
  refine ⟨T, T', _, h, h', h1, ?_⟩
  rw [h2]
  simp only [Except.ok.injEq]
  cases ccw <;> ext <;> simp <;> ring

/-! ## C04 -/

/-- C04: explicit action of `mirrorAround`. -/
theorem C04_mirrorAround_apply (c : Pt K) (xAxis yAxis : Bool) (p : Pt K) :
    ∃ T, Transform.mirrorAround c xAxis yAxis = .ok T ∧
      T.applyToPoint p = .ok (if yAxis then 2 * c.1 - p.1 else p.1,
                              if xAxis then 2 * c.2 - p.2 else p.2) := by
  have key := applyToPoint_affine (if yAxis then -1 else 1 : K) 0 0 (if xAxis then -1 else 1 : K)
      (if yAxis then 2 * c.1 else 0) (if xAxis then 2 * c.2 else 0) p
  refine ⟨_, rfl, ?_⟩
  cases xAxis <;> cases yAxis <;>
  · convert key using 2
    · simp [translateMatrix, mirrorMatrix, matrix]
      try ring_nf
      try simp
    · ext <;> simp <;> ring

/-- C04: `mirrorAround` is an involution fixing the centre. -/
theorem C04_mirrorAround_involution (c : Pt K) (xAxis yAxis : Bool) (p : Pt K) :
    ∃ T q, Transform.mirrorAround c xAxis yAxis = .ok T ∧ T.applyToPoint c = .ok c ∧
      T.applyToPoint p = .ok q ∧ T.applyToPoint q = .ok p := by
  obtain ⟨T, h, h1⟩ := C04_mirrorAround_apply c xAxis yAxis p
  obtain ⟨T1, h', h2⟩ := C04_mirrorAround_apply c xAxis yAxis c
  rw [h] at h'; cases h'
  obtain ⟨T1, h', h3⟩ := C04_mirrorAround_apply c xAxis yAxis
    (if yAxis then 2 * c.1 - p.1 else p.1, if xAxis then 2 * c.2 - p.2 else p.2)
  rw [h] at h'; cases h'
  refine ⟨T, _, h, ?_, h1, ?_⟩
  · rw [h2]; simp only [Except.ok.injEq]
    cases xAxis <;> cases yAxis <;> ext <;> simp <;> ring
  · rw [h3]; simp only [Except.ok.injEq]
    cases xAxis <;> cases yAxis <;> ext <;> simp

/-- C04: `mirrorAround` preserves distances exactly. -/
theorem C04_mirrorAround_isometry (c : Pt K) (xAxis yAxis : Bool) (p q : Pt K) :
    ∃ T p' q', Transform.mirrorAround c xAxis yAxis = .ok T ∧ T.applyToPoint p = .ok p' ∧
      T.applyToPoint q = .ok q' ∧ sqDist p' q' = sqDist p q := by
  obtain ⟨T, h, h1⟩ := C04_mirrorAround_apply c xAxis yAxis p
  obtain ⟨T1, h', h2⟩ := C04_mirrorAround_apply c xAxis yAxis q
  rw [h] at h'; cases h'
  refine ⟨T, _, _, h, h1, h2, ?_⟩
  cases xAxis <;> cases yAxis <;> simp [sqDist] <;> ring

/-- C04: `mirror` is `mirrorAround` the origin. -/
theorem C04_mirror_apply (xAxis yAxis : Bool) (p : Pt K) :
    ∃ T, Transform.mirror xAxis yAxis = .ok T ∧
      T.applyToPoint p = .ok (if yAxis then -p.1 else p.1, if xAxis then -p.2 else p.2) := by
  refine ⟨_, rfl, ?_⟩
  rw [mirrorMatrix, applyToPoint_affine]
  cases xAxis <;> cases yAxis <;> simp

/-! ## C05 -/

/-- C05: `perspectiveFrom` fixes its centre. -/
theorem C05_perspective_fixes_centre (c : Pt K) (p q : K) :
    ∃ T, Transform.perspectiveFrom c p q = .ok T ∧ T.applyToPoint c = .ok c := by
  refine ⟨⟨matrix (1 + p * c.1) (p * c.2) (q * c.1) (1 + q * c.2)
    (-c.1 + (-c.1 * p + -c.2 * q + 1) * c.1) (-c.2 + (-c.1 * p + -c.2 * q + 1) * c.2)
    p q (-c.1 * p + -c.2 * q + 1)⟩, ?_, ?_⟩
  · simp [perspectiveFrom, new_cons_cons, new_single, translateMatrix, perspectiveMatrix, mul_matrix]
  · rw [applyToPoint_matrix]
    have e : c.1 * p + c.2 * q + (-c.1 * p + -c.2 * q + 1) = 1 := by ring
    rw [e, if_neg one_ne_zero]
    simp only [div_one, Except.ok.injEq]
    ext <;> simp <;> ring

/-- C05: `applyToPoint` raises `ZeroDivisionError` exactly when the homogeneous weight is zero and
otherwise returns the normalised point. -/
theorem C05_applyToPoint_error_iff (m11 m12 m13 m21 m22 m23 m31 m32 m33 : K) (pt : Pt K) :
    let T : Transform K := ⟨[[m11, m12, m13], [m21, m22, m23], [m31, m32, m33]]⟩
    let w := pt.1 * m13 + pt.2 * m23 + m33
    (T.applyToPoint pt = .error .zeroDivisionError ↔ w = 0) ∧
    (w ≠ 0 → T.applyToPoint pt =
      .ok ((pt.1 * m11 + pt.2 * m21 + m31) / w, (pt.1 * m12 + pt.2 * m22 + m32) / w)) := by
  intro T w
  have h := applyToPoint_matrix m11 m12 m21 m22 m31 m32 m13 m23 m33 pt
  have hT : T = ⟨matrix m11 m12 m21 m22 m31 m32 m13 m23 m33⟩ := rfl
  rw [hT, h]
  constructor
  · constructor
    · intro h; by_contra hw
      rw [if_neg hw] at h; cases h
    · intro hw; rw [if_pos hw]
  · intro hw; rw [if_neg hw]

example : (⟨[[1, 0, 1], [0, 1, 0], [0, 0, 1]]⟩ : Transform ℚ).applyToPoint (-1, 5)
    = .error .zeroDivisionError := by decide +kernel

/-! ## C06 -/

/-- C06: `applyToSegment` is pointwise. -/
theorem C06_segment (T : Transform K) (s r : Segment K) :
    T.applyToSegment s = .ok r ↔
      r.length = s.length ∧ ∀ i (h : i < s.length) (h' : i < r.length),
        T.applyToPoint s[i] = .ok r[i] := by
  unfold applyToSegment
  rw [mapM_eq_ok_iff, List.forall₂_iff_get]
  constructor
  · rintro ⟨h1, h2⟩; exact ⟨h1.symm, fun i h h' => h2 i h h'⟩
  · rintro ⟨h1, h2⟩; exact ⟨h1.symm, fun i h h' => h2 i h h'⟩

/-- C06: `applyToContour` is segmentwise. -/
theorem C06_contour (T : Transform K) (s r : Contour K) :
    T.applyToContour s = .ok r ↔
      r.length = s.length ∧ ∀ i (h : i < s.length) (h' : i < r.length),
        T.applyToSegment s[i] = .ok r[i] := by
  unfold applyToContour
  rw [mapM_eq_ok_iff, List.forall₂_iff_get]
  constructor
  · rintro ⟨h1, h2⟩; exact ⟨h1.symm, fun i h h' => h2 i h h'⟩
  · rintro ⟨h1, h2⟩; exact ⟨h1.symm, fun i h h' => h2 i h h'⟩

/-- C06: `applyToContours` is contourwise. -/
theorem C06_contours (T : Transform K) (s r : List (Contour K)) :
    T.applyToContours s = .ok r ↔
      r.length = s.length ∧ ∀ i (h : i < s.length) (h' : i < r.length),
        T.applyToContour s[i] = .ok r[i] := by
  unfold applyToContours
  rw [mapM_eq_ok_iff, List.forall₂_iff_get]
  constructor
  · rintro ⟨h1, h2⟩; exact ⟨h1.symm, fun i h h' => h2 i h h'⟩
  · rintro ⟨h1, h2⟩; exact ⟨h1.symm, fun i h h' => h2 i h h'⟩

/-- C06: for an affine transform nothing fails and the three functions are the maps of the affine map. -/
theorem C06_affine (a b c d m n : K) :
    let T : Transform K := ⟨affineMat a b c d m n⟩
    (∀ s, T.applyToSegment s = .ok (s.map (affineMap a b c d m n))) ∧
    (∀ s, T.applyToContour s = .ok (s.map (List.map (affineMap a b c d m n)))) ∧
    (∀ s, T.applyToContours s = .ok (s.map (List.map (List.map (affineMap a b c d m n))))) := by
  intro T
  have h1 : ∀ s, T.applyToSegment s = .ok (s.map (affineMap a b c d m n)) := by
    intro s
    apply mapM_ok
    intro p _
    exact applyToPoint_affine ..
  have h2 : ∀ s, T.applyToContour s = .ok (s.map (List.map (affineMap a b c d m n))) := by
    intro s
    apply mapM_ok
    intro p _
    exact h1 p
  refine ⟨h1, h2, ?_⟩
  intro s
  apply mapM_ok
  intro p _
  exact h2 p

/-- C06: a failing point makes the whole segment fail. -/
theorem C06_segment_fails (T : Transform K) (s : Segment K) (p : Pt K) (hp : p ∈ s)
    (hf : ∀ q, T.applyToPoint p ≠ .ok q) (r : Segment K) : T.applyToSegment s ≠ .ok r := by
  intro h
  obtain ⟨hl, h⟩ := (C06_segment T s r).mp h
  obtain ⟨i, hi, rfl⟩ := List.getElem_of_mem hp
  exact hf _ (h i hi (by omega))

/-! ## C65 -/

/-- C65: the elementary constructors act by the documented formulas. -/
theorem C65_scale (sx sy : K) (p : Pt K) :
    ∃ T, Transform.scale sx sy = .ok T ∧ T.applyToPoint p = .ok (sx * p.1, sy * p.2) := by
  refine ⟨_, rfl, ?_⟩
  rw [scaleMatrix, applyToPoint_affine]; simp

theorem C65_shear (sx sy : K) (p : Pt K) :
    ∃ T, Transform.shear sx sy = .ok T ∧
      T.applyToPoint p = .ok (p.1 + sx * p.2, p.2 + sy * p.1) := by
  refine ⟨_, rfl, ?_⟩
  rw [shearMatrix, applyToPoint_affine]
  simp only [Except.ok.injEq]; ext <;> simp; ring

theorem C65_identity (p : Pt K) :
    ∃ T, Transform.new [identityMatrix] = .ok T ∧ T.applyToPoint p = .ok p := by
  refine ⟨_, rfl, ?_⟩
  rw [identityMatrix, applyToPoint_affine]; simp

theorem C65_perspective (p q s : K) (pt : Pt K) (hw : p * pt.1 + q * pt.2 + s ≠ 0) :
    ∃ T, Transform.perspective p q s = .ok T ∧
      T.applyToPoint pt = .ok (pt.1 / (p * pt.1 + q * pt.2 + s), pt.2 / (p * pt.1 + q * pt.2 + s)) := by
  refine ⟨_, rfl, ?_⟩
  rw [perspectiveMatrix, applyToPoint_matrix, mul_comm pt.1 p, mul_comm pt.2 q, if_neg hw]
  simp

/-- C65: scaling by the inverse factors undoes a scaling. -/
theorem C65_scale_inverse (sx sy : K) (hx : sx ≠ 0) (hy : sy ≠ 0) (p : Pt K) :
    ∃ T T' q, Transform.scale sx sy = .ok T ∧ Transform.scale sx⁻¹ sy⁻¹ = .ok T' ∧
      T.applyToPoint p = .ok q ∧ T'.applyToPoint q = .ok p := by
  obtain ⟨T, h, h1⟩ := C65_scale sx sy p
  obtain ⟨T', h', h2⟩ := C65_scale sx⁻¹ sy⁻¹ (sx * p.1, sy * p.2)
  refine ⟨T, T', _, h, h', h1, ?_⟩
  rw [h2]; simp [hx, hy]

/-- C65: shearing along one axis by the opposite amount undoes a shear along this axis. -/
theorem C65_shear_inverse (s : K) (p : Pt K) :
    (∃ T T' q, Transform.shear s 0 = .ok T ∧ Transform.shear (-s) 0 = .ok T' ∧
      T.applyToPoint p = .ok q ∧ T'.applyToPoint q = .ok p) ∧
    (∃ T T' q, Transform.shear 0 s = .ok T ∧ Transform.shear 0 (-s) = .ok T' ∧
      T.applyToPoint p = .ok q ∧ T'.applyToPoint q = .ok p) := by
  constructor
  · obtain ⟨T, h, h1⟩ := C65_shear s 0 p
    obtain ⟨T', h', h2⟩ := C65_shear (-s) 0 (p.1 + s * p.2, p.2 + 0 * p.1)
    refine ⟨T, T', _, h, h', h1, ?_⟩
    rw [h2]; simp
  · obtain ⟨T, h, h1⟩ := C65_shear 0 s p
    obtain ⟨T', h', h2⟩ := C65_shear 0 (-s) (p.1 + 0 * p.2, p.2 + s * p.1)
    refine ⟨T, T', _, h, h', h1, ?_⟩
    rw [h2]; simp

/-- C65: rotation about the origin acts by the (rounded) rotation matrix; `ccw = False` uses the
opposite sine. -/
theorem C65_rotation (deg : ℝ) (ccw : Bool) (p : Pt ℝ) :
    ∃ T r, Transform.rotation deg ccw = .ok T ∧ T.applyToPoint p = .ok r ∧
      let θ := (if ccw then 1 else -1) * (deg * Real.pi / 180)
      |r.1 - (Real.cos θ * p.1 - Real.sin θ * p.2)| ≤ 5e-16 * (|p.1| + |p.2|) ∧
      |r.2 - (Real.sin θ * p.1 + Real.cos θ * p.2)| ≤ 5e-16 * (|p.1| + |p.2|) := by
  obtain ⟨T, r, h, h1, h2⟩ := C03_rotation_accuracy (0, 0) deg ccw p
  obtain ⟨T', h', h3⟩ := rotationAbout_apply (0, 0) deg ccw p
  rw [h] at h'; cases h'
  refine ⟨_, r, rfl, ?_, ?_⟩
  · rw [← h1, h3]
    cases ccw <;> rw [rotationMatrix, rotationMatrixOf]
    · simp only [Bool.false_eq_true, if_false]; rw [applyToPoint_affine]
      simp only [Except.ok.injEq]; ext <;> simp
    · simp only [if_true]; rw [applyToPoint_affine]
      simp only [Except.ok.injEq]; ext <;> simp; ring
  · simpa using h2

/-- C65: `moveAndRotate` first moves by `toPoint - fromPoint` and then rotates counter-clockwise about the origin. -/
theorem C65_moveAndRotate (a b : Pt ℝ) (deg : ℝ) (p : Pt ℝ) :
    ∃ T R q, Transform.moveAndRotate a b deg = .ok T ∧ Transform.rotation deg true = .ok R ∧
      R.applyToPoint (p.1 + (b.1 - a.1), p.2 + (b.2 - a.2)) = .ok q ∧ T.applyToPoint p = .ok q := by
  have hR : ∀ x, Transform.applyToPoint ⟨rotationMatrix deg true⟩ x = .ok _ := fun x => by
    simp only [rotationMatrix, rotationMatrixOf, if_true]
    exact applyToPoint_affine _ _ _ _ _ _ x
  refine ⟨_, _, _, rfl, rfl, hR _, ?_⟩
  · have := applyToPoint_affine (Transform.cos deg) (Transform.sin deg) (-Transform.sin deg) (Transform.cos deg)
      (Transform.cos deg * (b.1 - a.1) - Transform.sin deg * (b.2 - a.2))
      (Transform.sin deg * (b.1 - a.1) + Transform.cos deg * (b.2 - a.2)) p
    convert this using 2
    · simp [translateMatrix, rotationMatrix, rotationMatrixOf, matrix]
      constructor <;> ring
    · ext <;> simp <;> ring

/-- C65: `rotateAndMove` first rotates counter-clockwise about the origin and then moves by `toPoint - fromPoint`. -/
theorem C65_rotateAndMove (a b : Pt ℝ) (deg : ℝ) (p : Pt ℝ) :
    ∃ T R q, Transform.rotateAndMove a b deg = .ok T ∧ Transform.rotation deg true = .ok R ∧
      R.applyToPoint p = .ok q ∧ T.applyToPoint p = .ok (q.1 + (b.1 - a.1), q.2 + (b.2 - a.2)) := by
  have hR : ∀ x, Transform.applyToPoint ⟨rotationMatrix deg true⟩ x = .ok _ := fun x => by
    simp only [rotationMatrix, rotationMatrixOf, if_true]
    exact applyToPoint_affine _ _ _ _ _ _ x
  refine ⟨_, _, _, rfl, rfl, hR _, ?_⟩
  · have := applyToPoint_affine (Transform.cos deg) (Transform.sin deg) (-Transform.sin deg) (Transform.cos deg)
      (b.1 - a.1) (b.2 - a.2) p
    convert this using 2
    · simp [translateMatrix, rotationMatrix, rotationMatrixOf, matrix]
    · ext <;> simp

end PathLib
