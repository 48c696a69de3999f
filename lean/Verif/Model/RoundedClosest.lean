import Verif.Model.BContour
import Verif.Model.Rounded
import Verif.Spec.Hypot

/-!
# The closest point search in rounded arithmetic

The functions of `Model/BContour.lean` with every operation on coordinates and parameters rounded. The indices are Python
integers and stay exact, so `pick` is used as it is. The constant `0.001` is rounded when the source is read. `math.hypot` is a
parameter with a bounded relative error.
-/

namespace PathLib
namespace Rounded

open Spec Bezier BContour

variable (R : Rounding) (H : Hypot)

/-- PathLib/Bezier.py:383-389, the computation of the look-up table for a given `steps`. -/
noncomputable def lutOf (ps : Segment ℝ) (steps : Int) : Py (List (Pt ℝ)) :=
  let steps := steps - 1
  (List.range (steps + 1).toNat).mapM fun (t : Nat) => do
    Rounded.get R ps (← Rounded.pdiv R (t : ℝ) (steps : ℝ))

/-- PathLib/Bezier.py:856-860: the loop of `getLUT`, from the table built so far. -/
noncomputable def lutLoop (steps : Int) : List Bezier → Nat → List (Pt ℝ) → Py Unit × List (Pt ℝ)
  | [], _, lut => (.ok (), lut)
  | curve :: rest, startPoint, lut =>
    match lutOf R curve.controlPoints steps with
    | .error e => (.error e, lut)
    | .ok l => lutLoop steps rest 1 (lut ++ l.drop startPoint)

/-- PathLib/Bezier.py:852-862 `getLUT`. -/
noncomputable def getLUT (steps : Int) (c : BContour) : Py (List (Pt ℝ)) × BContour :=
  if (c.lut.length : Int) = steps then (.ok c.lut, c)
  else
    match lutLoop R steps c.beziers 0 [] with
    | (.error e, lut) => (.error e, { c with lut := lut })
    | (.ok _, lut) => (.ok lut, { c with lut := lut })

/-- PathLib/Bezier.py:864-877 `_findClosest`. -/
noncomputable def findClosest (point : Pt ℝ) (LUT : List (Pt ℝ)) : Int :=
  ((List.range LUT.length).foldl (fun (acc : ℝ × Int) (index : Nat) =>
    let p := LUT.getD index (0, 0)
    let dist := H.fn (R.sub p.1 point.1) (R.sub p.2 point.2)
    if dist < acc.1 then (dist, (index : Int)) else acc) (maxSafe, -1)).2

/-- PathLib/Bezier.py:900-908: one round of `for j in range(1, 4)`. `lut` and `tt` are `new_lut` and `new_tt`. -/
noncomputable def refineInner (point : Pt ℝ) (ps : Segment ℝ) (t1 step : ℝ) (r : Refine) (j : Nat) : Py Refine := do
  let nt := R.add t1 (R.mul (j : ℝ) step)
  let n ← Rounded.get R ps nt
  let dist := H.fn (R.sub n.1 point.1) (R.sub n.2 point.2)
  let r := if dist < r.closest then { r with closest := dist, q := n, i := (j : Int) } else r
  return { r with lut := r.lut ++ [n], tt := r.tt ++ [nt] }

/-- PathLib/Bezier.py:888-914: the loop of `_refineBinary`. -/
noncomputable def refineLoop (point : Pt ℝ) (ps : Segment ℝ) : Nat → Refine → Py Refine
  | 0, r => .ok r
  | n + 1, r => do
    let steps : Int := r.lut.length
    let i1 := if r.i = 0 then 0 else r.i - 1
    let i2 := if r.i = steps - 1 then r.i else r.i + 1
    let t1 ← pyGet r.tt i1
    let t2 ← pyGet r.tt i2
    let step := R.div (R.sub t2 t1) 5
    if step < R.rnd (1 / 1000) then return r
    else
      let r' ← [1, 2, 3].foldlM (refineInner R H point ps t1 step) { r with lut := [← pyGet r.lut i1], tt := [← pyGet r.tt i1] }
      refineLoop point ps n { r' with lut := r'.lut ++ [← pyGet r.lut i2], tt := r'.tt ++ [← pyGet r.tt i2] }

/-- PathLib/Bezier.py:879-916 `_refineBinary`. `steps - 1` is a difference of Python integers. -/
noncomputable def refineBinary (point : Pt ℝ) (ps : Segment ℝ) (lut : List (Pt ℝ)) (i : Int) : Py (Pt ℝ × ℝ) := do
  let tt ← (List.range lut.length).mapM fun (t : Nat) => Rounded.pdiv R (t : ℝ) ((lut.length : ℝ) - 1)
  let r ← refineLoop R H point ps 25 { i := i, lut := lut, tt := tt, q := (0, 0), closest := maxSafe }
  return (r.q, r.closest)

/-- PathLib/Bezier.py:935-948: the rest of `findClosestPoint`. -/
noncomputable def closestOn (point : Pt ℝ) (steps : Int) (curve : Bezier) (curve2 : Option Bezier) (i : Int) :
    Py (ℝ × Pt ℝ) := do
  let lut ← lutOf R curve.controlPoints steps
  let (cip, closest) ← refineBinary R H point curve.controlPoints lut i
  match curve2 with
  | none => return (closest, cip)
  | some curve2 =>
    let lut ← lutOf R curve2.controlPoints steps
    let (cip2, c2) ← refineBinary R H point curve2.controlPoints lut 0
    if c2 < closest then return (c2, cip2) else return (closest, cip)

/-- PathLib/Bezier.py:918-948 `findClosestPoint`. -/
noncomputable def findClosestPoint (point : Pt ℝ) (steps : Int) (c : BContour) : Py (ℝ × Pt ℝ) × BContour :=
  match getLUT R steps c with
  | (.error e, c) => (.error e, c)
  | (.ok lut, c) =>
    (do
      let (curve, curve2, i) ← pick c.beziers steps (findClosest R H point lut)
      closestOn R H point steps curve curve2 i, c)

end Rounded
end PathLib
