import Verif.Model.PathUtilities
import Verif.Spec.Geometry

/-!
# Specification vocabulary for rectangles
-/

namespace PathLib.BoundsRectangle
variable {K : Type} [Field K] [LinearOrder K]

/-- A non-empty rectangle of the kind `BoundsRectangle(*points)` produces from a non-empty list (theorem
`C08_proper`): the sides are ordered, and each side lies on the inner side of its initial
sentinel. Every rectangle with ordered sides and corners inside the design space is `Proper`. -/
structure Proper (b : BoundsRectangle K) : Prop where
  lr : b.left ≤ b.right
  bt : b.bottom ≤ b.top
  hl : b.left ≤ 32768
  hb : b.bottom ≤ 32768
  hr : -32768 ≤ b.right
  ht : -32768 ≤ b.top

end PathLib.BoundsRectangle
