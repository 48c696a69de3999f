import Verif.Py
import Mathlib.LinearAlgebra.Matrix.Determinant.Basic

/-!
# Specification vocabulary: lists of rows as Mathlib matrices
-/

namespace PathLib.Spec

variable {K : Type} [Field K]

/-- `A` is a list of `m` rows of length `n`. -/
def IsMat (m n : ℕ) (A : List (List K)) : Prop := A.length = m ∧ ∀ r ∈ A, r.length = n

/-- The matrix with these rows (entries outside the lists are 0; see `IsMat`). -/
def toMatrix (m n : ℕ) (A : List (List K)) : Matrix (Fin m) (Fin n) K :=
  Matrix.of fun i j => (A.getD i []).getD j 0

/-- The list of rows of the identity matrix. -/
def idRows (n : ℕ) : List (List K) :=
  (List.range n).map fun i => (List.range n).map fun j => if i = j then 1 else 0

end PathLib.Spec
