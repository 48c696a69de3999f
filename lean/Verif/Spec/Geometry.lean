import Verif.Py

/-!
# Specification vocabulary: plane geometry over an ordered field

Independent of the model.
-/

namespace PathLib.Spec

variable {K : Type} [Field K]

/-- Squared Euclidean distance. -/
def sqDist (p q : Pt K) : K := (p.1 - q.1) ^ 2 + (p.2 - q.2) ^ 2

/-- A list of rows is a 3x3 matrix. -/
def Is3x3 (M : List (List K)) : Prop := M.length = 3 ∧ ∀ r ∈ M, r.length = 3

/-- The homogeneous matrix of the affine map `(x, y) ↦ (a x + c y + m, b x + d y + n)`, acting on row
vectors `[x, y, 1]` from the right. -/
def affineMat (a b c d m n : K) : List (List K) := [[a, b, 0], [c, d, 0], [m, n, 1]]

/-- The affine map with these coefficients. -/
def affineMap (a b c d m n : K) (p : Pt K) : Pt K := (a * p.1 + c * p.2 + m, b * p.1 + d * p.2 + n)

/-- `M` is the matrix of some affine map. -/
def IsAffine (M : List (List K)) : Prop := ∃ a b c d m n, M = affineMat a b c d m n

end PathLib.Spec

namespace PathLib.Spec

variable {K : Type} [Field K] [LinearOrder K]

/-- The closed axis-parallel box with the given sides, as a set of points. -/
def InBox (left bottom right top : K) (p : Pt K) : Prop :=
  (left ≤ p.1 ∧ p.1 ≤ right) ∧ (bottom ≤ p.2 ∧ p.2 ≤ top)

/-- `p` lies on the closed segment from `a` to `b`. -/
def OnSegment (a b p : Pt K) : Prop :=
  ∃ s : K, 0 ≤ s ∧ s ≤ 1 ∧ p.1 = a.1 + s * (b.1 - a.1) ∧ p.2 = a.2 + s * (b.2 - a.2)

/-- `p` lies on the infinite line through `a` and `b` (when `a ≠ b`). -/
def OnLine (a b p : Pt K) : Prop :=
  ∃ s : K, p.1 = a.1 + s * (b.1 - a.1) ∧ p.2 = a.2 + s * (b.2 - a.2)

/-- The direction vectors `b - a` and `d - c` are parallel (this includes a degenerate line). -/
def Parallel (a b c d : Pt K) : Prop :=
  (b.1 - a.1) * (d.2 - c.2) = (b.2 - a.2) * (d.1 - c.1)

/-- The coordinate range in which the sentinels of `BoundsRectangle` are neutral. -/
def InDesignSpace (p : Pt K) : Prop :=
  (-32768 ≤ p.1 ∧ p.1 ≤ 32768) ∧ (-32768 ≤ p.2 ∧ p.2 ≤ 32768)

end PathLib.Spec
