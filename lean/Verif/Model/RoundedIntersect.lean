import Verif.Model.RoundedBounds

/-!
# Intersections of curves in rounded arithmetic

Of the curves only the control points and the numbers `_t1` and `_t2` are kept: the other attributes are not used here.
-/

namespace PathLib
namespace Rounded

open Spec Bezier

/-- A curve: its control points, `_t1` and `_t2` (PathLib/Bezier.py:41-63). -/
structure Part where
  points : Segment ℝ
  t1 : ℝ
  t2 : ℝ

/-- PathLib/Bezier.py:435-448 and 451, `split(t)` without `t2`. -/
noncomputable def split1 (R : Rounding) (c : Part) (t : ℝ) : Py (Part × Part) := do
  let (left, right) ← splitPoints R c.points t
  let lt1 ← map R 0 0 1 c.t1 c.t2
  let lt2 ← map R t 0 1 c.t1 c.t2
  let rt1 ← map R t 0 1 c.t1 c.t2
  let rt2 ← map R 1 0 1 c.t1 c.t2
  return (⟨left, lt1, lt2⟩, ⟨right, rt1, rt2⟩)

/-- PathLib/Bezier.py:360-361 `overlaps`. The corners are only compared. -/
noncomputable def overlaps (R : Rounding) (a b : Part) : Py Bool := do
  let r1 ← boundsRectangle R a.points
  let r2 ← boundsRectangle R b.points
  return (r1.intersection r2).isSome

/-- PathLib/PathUtilities.py:76-87 `width` and `height`, added up as in PathLib/Bezier.py:650. -/
noncomputable def extent (R : Rounding) (b : BoundsRectangle ℝ) : ℝ := R.add (R.sub b.top b.bottom) (R.sub b.right b.left)

/-- PathLib/Bezier.py:651, the number reported for a curve. -/
noncomputable def middle (R : Rounding) (c : Part) : ℝ := R.div (R.div (R.mul 100000 (R.add c.t1 c.t2)) 2) 100000

/-- PathLib/Bezier.py:645-666 `pairiteration`. `depth` is the number of nested calls Python still allows. -/
noncomputable def pairiteration (R : Rounding) (depth : Nat) (c1 c2 : Part) (threshold : ℝ) : Py (List (Pt ℝ)) :=
  match depth with
  | 0 => .error .recursionError
  | depth + 1 => do
    let c1b ← boundsRectangle R c1.points
    let c2b ← boundsRectangle R c2.points
    if extent R c1b < threshold ∧ extent R c2b < threshold then
      return [(middle R c1, middle R c2)]
    else
      let (cc1left, cc1right) ← split1 R c1 (1 / 2)
      let (cc2left, cc2right) ← split1 R c2 (1 / 2)
      let pairs := [(cc1left, cc2left), (cc1left, cc2right), (cc1right, cc2right), (cc1right, cc2left)]
      let pairs ← pairs.filterM fun (pair : Part × Part) => overlaps R pair.1 pair.2
      let results ← pairs.mapM fun (pair : Part × Part) => pairiteration R depth pair.1 pair.2 threshold
      return butils.removeDuplicates results.flatten

/-- PathLib/Bezier.py:668-685 `curveIntersects`. -/
noncomputable def curveIntersects (R : Rounding) (depth : Nat) (c1 c2 : List Part) (threshold : ℝ) : Py (List (Pt ℝ)) := do
  let pairs ← (c1.flatMap fun (l : Part) => c2.map fun (r : Part) => (l, r)).filterM fun (pair : Part × Part) =>
    overlaps R pair.1 pair.2
  let results ← pairs.mapM fun (pair : Part × Part) => pairiteration R depth pair.1 pair.2 threshold
  return results.flatten

end Rounded
end PathLib
