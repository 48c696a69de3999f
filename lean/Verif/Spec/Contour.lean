import Verif.Spec.Geometry

/-!
# Specification vocabulary: contours

Independent of the model.
-/

namespace PathLib.Spec

variable {K : Type}

/-- The second segment starts where the first ends. -/
def Joined (s1 s2 : Segment K) : Prop := ∃ p, s1.getLast? = some p ∧ s2.head? = some p

/-- No segment is empty, and each segment starts where the previous one ends. -/
def Connected (c : Contour K) : Prop := (∀ s ∈ c, s ≠ []) ∧ c.IsChain Joined

/-- The contour has a last segment, which ends where the first one starts. -/
def Closed (c : Contour K) : Prop :=
  ∃ s0 sn p, c.head? = some s0 ∧ c.getLast? = some sn ∧ s0.head? = some p ∧ sn.getLast? = some p

section field
variable [Field K]

/-- The middle of two points. -/
def middle (p q : Pt K) : Pt K := ((p.1 + q.1) / 2, (p.2 + q.2) / 2)

/-- The quadratic pieces of the TrueType spline from `start` to `stop` with the given off-curve points: between two consecutive
off-curve points there is an implied on-curve point in the middle. -/
def spline (start : Pt K) (offs : List (Pt K)) (stop : Pt K) : List (Segment K) :=
  match offs with
  | [] => [[start, stop]]
  | [o] => [[start, o, stop]]
  | o :: o' :: rest => [start, o, middle o o'] :: spline (middle o o') (o' :: rest) stop

end field

end PathLib.Spec
