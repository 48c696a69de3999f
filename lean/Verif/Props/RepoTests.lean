import Verif.Props.Transform
import Verif.Props.PathUtilities
import Verif.Model.CurveFitting

/-!
# The repository's own tests, run on the model

Every assertion in /repo/tests, in order. They are no proofs of anything general; they compare the model with the values that the
author of the code expects.
-/

namespace PathLib

/-! ## tests/test_pathUtilities.py -/

section
open PathUtilities

private def l0 : Segment ℚ := [(0, 0), (300, 0)]
private def l1 : Segment ℚ := [(300, 0), (300, 400)]
private def l2 : Segment ℚ := [(0, 0), (300, 400)]
private def l3 : Segment ℚ := [(0, 0), (100, 100)]
private def l4 : Segment ℚ := [(50, 200), (200, 50)]

private theorem length_of (a b : Pt ℝ) (d : ℝ) (hd : 0 ≤ d) (h : (b.1 - a.1) ^ 2 + (b.2 - a.2) ^ 2 = d ^ 2) :
    length [a, b] = .ok d := by
  rw [C18_length _ (by simp)]
  have : Spec.sqDist ([a, b].getLast (by simp)) ([a, b].head (by simp)) = d ^ 2 := h
  rw [this, Real.sqrt_sq hd]

/-- `test_length` -/
example : length [((0 : ℝ), 0), (300, 0)] = .ok 300 := length_of _ _ _ (by norm_num) (by norm_num)
example : length [((300 : ℝ), 0), (300, 400)] = .ok 400 := length_of _ _ _ (by norm_num) (by norm_num)
example : length [((0 : ℝ), 0), (300, 400)] = .ok 500 := length_of _ _ _ (by norm_num) (by norm_num)

/-- `test_slope` -/
example : slope l0 = .ok (.fin 0) ∧ slope l1 = .ok .inf ∧ slope l2 = .ok (.fin (4 / 3)) ∧
    slope [((300 : ℚ), 400), (0, 0)] = .ok (.fin (4 / 3)) := by decide +kernel

/-- `test_midpoint` -/
example : midpoint l0 = .ok (150, 0) ∧ midpoint l1 = .ok (300, 200) ∧ midpoint l2 = .ok (150, 200) := by decide +kernel

/-- `test_intersectionPoint` -/
example : intersectionPoint [((0 : ℚ), 1), (4, 5)] [(4, 2), (0, 4)] = .ok (some (2, 3)) ∧
    intersectionPoint l0 l1 = .ok (some (300, 0)) ∧ intersectionPoint l0 l2 = .ok (some (0, 0)) ∧
    intersectionPoint l1 l2 = .ok (some (300, 400)) ∧ intersectionPoint l3 l4 = .ok none := by decide +kernel

/-- `test_pointOnLine` -/
example : pointOnLine (150, 200) l2 = .ok true ∧ pointOnLine (-300, -400) l2 = .ok false := by decide +kernel

end

/-! ## tests/test_transforms.py -/

section
open Transform

private def m1 : Mat ℝ := [[1, 0, 0], [0, 1, 0], [-4, -3, 1]]
private def m2 : Mat ℝ := [[0, 1, 0], [-1, 0, 0], [0, 0, 1]]
private def m3 : Mat ℝ := [[1, 0, 0], [0, 1, 0], [4, 3, 1]]

/-- `test_transform` -/
example : translate ((4 : ℝ), 3) (0, 0) = .ok ⟨m1⟩ ∧ translate ((0 : ℝ), 0) (4, 3) = .ok ⟨m3⟩ := by
  constructor <;> simp [translate, translateMatrix, new_single, matrix, m1, m3]

private theorem rotation_ninety : rotationMatrix 90 true = m2 := by
  have e : (90 : ℝ) * Real.pi / 180 = Real.pi / 2 := by ring
  have hs : Transform.sin 90 = 1 := by
    show round15 (Real.sin (90 * Real.pi / 180)) = 1
    rw [e, Real.sin_pi_div_two, round15_one]
  have hc : Transform.cos 90 = 0 := by
    show round15 (Real.cos (90 * Real.pi / 180)) = 0
    rw [e, Real.cos_pi_div_two, round15_zero]
  simp [rotationMatrix, rotationMatrixOf, hs, hc, matrix, m2]

example : rotation 90 true = .ok ⟨m2⟩ := by
  rw [← rotation_ninety]
  rfl

example : rotationAbout (4, 3) 90 true = Transform.new [m1, m2, m3] := by
  simp [rotationAbout, rotation_ninety, translateMatrix, matrix, m1, m3]

example : ∃ T, rotationAbout (4, 3) 90 true = .ok T ∧ T.applyToPoint (8, 6) = .ok (1, 7) := by
  obtain ⟨T, h1, h2⟩ := C03_default_rotation (4, 3) (8, 6)
  exact ⟨T, h1, by rw [h2]; norm_num⟩

end

/-! ## tests/test_curveFitting.py, tests/test_matrixInvert.py -/

section
open CurveFitting

/-- `test_multiply` -/
example : multiply [[(-1 : ℚ), 0, 0], [0, -1, 0], [0, 0, 1]] [[100], [200], [1]] = .ok [[-100], [-200], [1]] ∧
    multiply [[(100 : ℚ), 200, 1]] [[-1, 0, 0], [0, -1, 0], [0, 0, 1]] = .ok [[-100, -200, 1]] := by decide +kernel

/-- `test_transpose` -/
example : transpose [[(1 : ℚ), 2, 3, 4], [5, 6, 7, 8], [9, 10, 11, 12]] =
    .ok [[1, 5, 9], [2, 6, 10], [3, 7, 11], [4, 8, 12]] := by decide +kernel

/-- `test_matrixInversion` -/
example : MatrixInversion.matrixInvert [[(1 : ℚ), 3, 3], [1, 4, 3], [1, 3, 4]] =
      .ok (some [[7, -3, -3], [-1, 1, 0], [-1, 0, 1]]) ∧
    multiply [[(1 : ℚ), 3, 3], [1, 4, 3], [1, 3, 4]] [[7, -3, -3], [-1, 1, 0], [-1, 0, 1]] =
      .ok [[1, 0, 0], [0, 1, 0], [0, 0, 1]] := by decide +kernel

end

end PathLib
