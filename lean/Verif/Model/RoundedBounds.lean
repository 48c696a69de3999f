import Verif.Model.Rounded

/-!
# The bounds of a curve in rounded arithmetic
-/

namespace PathLib
namespace Rounded

open Spec Bezier

/-- PathLib/Bezier.py:223-228, the loop of `_getminmax` over the completed list. -/
noncomputable def minmaxLoop (R : Rounding) (ps : Segment ℝ) (d : Fin 2) (list : List ℝ) : Py (ℝ × ℝ) :=
  list.foldlM (fun (acc : ℝ × ℝ) (t : ℝ) => do
    let c ← Rounded.get R ps t
    let min := if coord d c < acc.1 then coord d c else acc.1
    let max := if coord d c > acc.2 then coord d c else acc.2
    return (min, max)) (maxSafe, minSafe)

/-- PathLib/Bezier.py:255-265 `bbox` (without the cache), with `_getminmax` (215-228). -/
noncomputable def bbox (R : Rounding) (ps : Segment ℝ) : Py ((ℝ × ℝ) × (ℝ × ℝ)) := do
  let e ← Rounded.extrema R ps
  let x ← minmaxLoop R ps 0 (addEnds e.x)
  let y ← minmaxLoop R ps 1 (addEnds e.y)
  return (x, y)

/-- PathLib/Bezier.py:277-284 `boundsRectangle` (without the cache). -/
noncomputable def boundsRectangle (R : Rounding) (ps : Segment ℝ) : Py (BoundsRectangle ℝ) := do
  let ((minX, maxX), (minY, maxY)) ← bbox R ps
  return BoundsRectangle.new [(minX, minY), (maxX, maxY)]

end Rounded
end PathLib
