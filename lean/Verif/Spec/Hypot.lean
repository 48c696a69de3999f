import Mathlib.Analysis.Real.Sqrt

/-!
# Specification vocabulary: a rounded `math.hypot`

Independent of the model. Python promises that the error of `math.hypot` is below one unit in the last place but not that the
result is correctly rounded, so the function is a parameter of the model of which only a bound of the relative error is known.
-/

namespace PathLib.Spec

/-- A function that computes the length of a vector with a relative error of at most `err`. -/
structure Hypot where
  fn : ℝ → ℝ → ℝ
  err : ℝ
  error : ∀ x y, |fn x y - Real.sqrt (x * x + y * y)| ≤ err * Real.sqrt (x * x + y * y)

/-- The length itself. -/
noncomputable def Hypot.exact : Hypot := ⟨fun x y => Real.sqrt (x * x + y * y), 0, by simp⟩

end PathLib.Spec
