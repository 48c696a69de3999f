import Verif.Model.PathUtilities
import Verif.Model.Legendre
import Mathlib.Data.List.Sort
import Mathlib.Analysis.SpecialFunctions.Trigonometric.Inverse

/-!
# Model of PathLib/Bezier.py, part 1: methods as functions of the control points

`Bezier` caches several derived values. This file models what the methods compute from the control points;
`Verif/Model/Bezier.lean` models the objects themselves and `Verif/Model/BezierCache.lean` the caches.

Simplifications used here: loops of the form `for i in range(len(p) - 1): ... p[i] ... p[i + 1]` are written as
a `zipWith` over the list and its tail (all indices are in range); a `while` loop on a shrinking list is a recursion on
the length.
-/

namespace PathLib
namespace Bezier

/-- PathLib/Bezier.py:25 `MAX_SAFE_INTEGER` (also line 217). -/
def maxSafe {K : Type} [Field K] : K := 9007199254740991

/-- PathLib/Bezier.py:26 `MIN_SAFE_INTEGER` (also line 218). -/
def minSafe {K : Type} [Field K] : K := -9007199254740991

/-- PathLib/Bezier.py:33-36, the values of `direction`. -/
inductive Dir
  | mixed
  | flat
  | up
  | down
  deriving DecidableEq, Repr

section field
variable {K : Type} [Field K] [LinearOrder K]

/-- PathLib/Bezier.py:305-307 `order`. -/
def order (ps : Segment K) : Int := (ps.length : Int) - 1

/-- PathLib/Bezier.py:65-99 `_computeDirection`. -/
def computeDirection (ps : Segment K) : Py Dir := do
  let p0y := (← pyGet ps 0).2
  let p1y := (← pyGet ps 1).2
  if order ps = 1 then
    if p0y = p1y then return .flat
    else if p0y < p1y then return .up
    else return .down
  else
    let p2y := (← pyGet ps 2).2
    if order ps = 2 then
      if p0y ≤ p1y ∧ p1y ≤ p2y then return .up
      else if p0y ≥ p1y ∧ p1y ≥ p2y then return .down
      else return .mixed
    else
      let p3y := (← pyGet ps 3).2
      if order ps = 3 then
        if p0y ≤ p1y ∧ p1y ≤ p2y ∧ p2y ≤ p3y then return .up
        else if p0y ≥ p1y ∧ p1y ≥ p2y ∧ p2y ≥ p3y then return .down
        else return .mixed
      else return .mixed

/-- PathLib/Bezier.py:151-158, one pass of de Casteljau's computation in `_compute`. -/
def casteljauStep (t : K) (ps : Segment K) : Segment K :=
  List.zipWith (fun a b => (a.1 + (b.1 - a.1) * t, a.2 + (b.2 - a.2) * t)) ps ps.tail

omit [LinearOrder K] in
theorem casteljauStep_length (t : K) (ps : Segment K) :
    (casteljauStep t ps).length = ps.length - 1 := by simp [casteljauStep]

/-- PathLib/Bezier.py:149-159, the `while len(dcPoints) > 1` loop and `dcPoints[0]`. -/
def casteljau (t : K) (ps : Segment K) : Py (Pt K) :=
  if ps.length > 1 then casteljau t (casteljauStep t ps) else pyGet ps 0
termination_by ps.length
decreasing_by rw [casteljauStep_length]; omega

/-- PathLib/Bezier.py:101-159 `_compute`, and 292-293 `get`. -/
def get (ps : Segment K) (t : K) : Py (Pt K) := do
  if t = 0 then pyGet ps 0
  else if t = 1 then pyGet ps (order ps)
  else
    let mt := 1 - t
    if order ps = 0 then pyGet ps 0
    else if order ps = 1 then
      let p0 ← pyGet ps 0
      let p1 ← pyGet ps 1
      return (mt * p0.1 + t * p1.1, mt * p0.2 + t * p1.2)
    else if order ps < 4 then
      let mt2 := mt * mt
      let t2 := t * t
      let (p, a, b, c, d) ← (if order ps = 2 then do
          return ([← pyGet ps 0, ← pyGet ps 1, ← pyGet ps 2, (0, 0)], mt2, mt * t * 2, t2, 0)
        else
          return (ps, mt2 * mt, mt2 * t * 3, mt * t2 * 3, t * t2) : Py (Segment K × K × K × K × K))
      let p0 ← pyGet p 0
      let p1 ← pyGet p 1
      let p2 ← pyGet p 2
      let p3 ← pyGet p 3
      return (a * p0.1 + b * p1.1 + c * p2.1 + d * p3.1, a * p0.2 + b * p1.2 + c * p2.2 + d * p3.2)
    else casteljau t ps

/-- PathLib/Bezier.py:369-374, one level of `hull`. -/
def hullStep (t : K) (ps : Segment K) : Segment K := List.zipWith (butils.lerp t) ps ps.tail

omit [LinearOrder K] in
theorem hullStep_length (t : K) (ps : Segment K) : (hullStep t ps).length = ps.length - 1 := by
  simp [hullStep]

/-- PathLib/Bezier.py:368-374, the `while len(p) > 1` loop: the points appended to `q`. -/
def hullLoop (t : K) (ps : Segment K) : Segment K :=
  if ps.length > 1 then hullStep t ps ++ hullLoop t (hullStep t ps) else []
termination_by ps.length
decreasing_by rw [hullStep_length]; omega

/-- PathLib/Bezier.py:363-376 `hull`. -/
def hull (ps : Segment K) (t : K) : Segment K := ps ++ hullLoop t ps

/-- PathLib/Bezier.py:325-331, the control points of the derivative of a curve. -/
def dcStep (ps : Segment K) : Segment K :=
  let c : K := ((ps.length - 1 : Nat) : K)
  List.zipWith (fun a b => (c * (b.1 - a.1), c * (b.2 - a.2))) ps ps.tail

omit [LinearOrder K] in
theorem dcStep_length (ps : Segment K) : (dcStep ps).length = ps.length - 1 := by simp [dcStep]

/-- PathLib/Bezier.py:318-337 `dcPoints` (without the cache); `d` is always `len(p)`. -/
def dcPoints (ps : Segment K) : List (Segment K) :=
  if ps.length > 1 then dcStep ps :: dcPoints (dcStep ps) else []
termination_by ps.length
decreasing_by rw [dcStep_length]; omega

/-- PathLib/Bezier.py:176-203, `_derivative` after `p = self.dcPoints[0]` for a curve of order `n`. The conversion
to `Decimal` (193-199) is the identity here. -/
def derivativeOf (n : Int) (p : Segment K) (t : K) : Py (Pt K) := do
  let mt := 1 - t
  let (p, a, b, c) ← (if n = 2 then do
      return ([← pyGet p 0, ← pyGet p 1, (0, 0)], mt, t, 0)
    else return (p, mt * mt, mt * t * 2, t * t) : Py (Segment K × K × K × K))
  let p0 ← pyGet p 0
  let p1 ← pyGet p 1
  let p2 ← pyGet p 2
  return (a * p0.1 + b * p1.1 + c * p2.1, a * p0.2 + b * p1.2 + c * p2.2)

/-- PathLib/Bezier.py:174-203 `_derivative`. -/
def derivative (ps : Segment K) (t : K) : Py (Pt K) := do
  derivativeOf (order ps) (← pyGet (dcPoints ps) 0) t

/-- `point[d]` for the dimensions 0 and 1 used by `bbox`. -/
def coord (d : Fin 2) (p : Pt K) : K := if d = 0 then p.1 else p.2

/-- PathLib/Bezier.py:220-221 and 575-576: `0` is inserted at the front and `1` at the end when missing. -/
def addEnds (list : List K) : List K :=
  let list := if 0 ∈ list then list else 0 :: list
  if 1 ∈ list then list else list ++ [1]

/-- PathLib/Bezier.py:223-228, the loop of `_getminmax` over the completed list. -/
def minmaxLoop (ps : Segment K) (d : Fin 2) (list : List K) : Py (K × K) :=
  list.foldlM (fun acc t => do
    let c ← get ps t
    let min := if coord d c < acc.1 then coord d c else acc.1
    let max := if coord d c > acc.2 then coord d c else acc.2
    return (min, max)) (maxSafe, minSafe)

/-- PathLib/Bezier.py:215-228 `_getminmax`: the result, and the list as it is left behind (it is the caller's list
object). -/
def getminmax (ps : Segment K) (d : Fin 2) (list : List K) : Py (K × K) × List K :=
  let list := addEnds list
  (minmaxLoop ps d list, list)

/-- PathLib/Bezier.py:286-290 `skeletonBounds`. -/
def skeletonBounds (ps : Segment K) : BoundsRectangle K :=
  let sbounds := BoundsRectangle.fromContour [ps]
  { sbounds with right := sbounds.right + 40 }

/-- PathLib/Bezier.py:383-389, the computation of the look-up table for a given `steps`. -/
def lutOf (ps : Segment K) (steps : Int) : Py (List (Pt K)) :=
  let steps := steps - 1
  (List.range (steps + 1).toNat).mapM fun (t : Nat) => do
    get ps (← pdiv (t : K) (steps : K))

/-- PathLib/Bezier.py:726-737 `raiseOrder`: the control points handed to the new curve. `p[i - 1]` is `p[-1]` for
`i = 0`. -/
def raiseOrderPoints (ps : Segment K) : Py (Segment K) := do
  let k := ps.length
  let first ← pyGet ps 0
  let mid ← (List.range k).mapM fun (i : Nat) => do
    let pi ← pyGet ps (i : Int)
    let pim ← pyGet ps ((i : Int) - 1)
    let w1 ← pdiv ((k : K) - (i : K)) (k : K)
    let w2 ← pdiv (i : K) (k : K)
    return (w1 * pi.1 + w2 * pim.1, w1 * pi.2 + w2 * pim.2)
  let last ← pyGet ps (-1)
  return first :: mid ++ [last]

/-- PathLib/Bezier.py:710-724 `getABC`: `(a, b, c, ratio, hull)`. -/
def getABC (ps : Segment K) (t : K) : Py (Pt K × Pt K × Option (Pt K) × K × Segment K) := do
  let hull := hull ps t
  let (a, b, ratio) ← (if order ps = 2 then do
      return (← pyGet ps 1, ← pyGet hull 5, ← butils.quadraticRatio t)
    else do
      return (← pyGet hull 5, ← pyGet hull 9, ← butils.cubicRatio t) : Py (Pt K × Pt K × K))
  let c := butils.lli4 a b (← pyGet ps 0) (← pyGet ps (-1))
  return (a, b, c, ratio, hull)

end field

section real

/-- The dictionary built by `extrema`: keys 0, 1 and 2. -/
structure Extrema where
  x : List ℝ
  y : List ℝ
  all : List ℝ

/-- `math.acos`: `ValueError` outside [-1, 1]. -/
noncomputable def acos (x : ℝ) : Py ℝ :=
  if x < -1 ∨ 1 < x then .error .valueError else .ok (Real.arccos x)

/-- `sorted` on a list of numbers. -/
noncomputable def sorted (l : List ℝ) : List ℝ := l.insertionSort (· ≤ ·)

/-- PathLib/Bezier.py:346-351, the roots of one dimension, for a curve of order `n` with derivative points `dc`. NaN
entries (`none`) fail the test `t >= 0 and t <= 1`. -/
noncomputable def extremaDim (n : Int) (dc : List (Segment ℝ)) (dim : Fin 2) : Py (List ℝ) := do
  let p := (← pyGet dc 0).map (coord dim)
  let result := butils.droots p
  let result ← (if n = 3 then do
      let p := (← pyGet dc 1).map (coord dim)
      return result ++ butils.droots p
    else return result : Py (List (Option ℝ)))
  return result.filterMap fun t => t.filter fun t => t ≥ 0 ∧ t ≤ 1

/-- PathLib/Bezier.py:342-354, the computation of `extrema` from `order` and `dcPoints`. -/
noncomputable def extremaOf (n : Int) (dc : List (Segment ℝ)) : Py Extrema := do
  let x ← extremaDim n dc 0
  let y ← extremaDim n dc 1
  let roots := sorted x ++ sorted y
  return { x := x, y := y, all := butils.removeDuplicates (sorted roots) }

/-- PathLib/Bezier.py:340-358 `extrema` (without the cache). -/
noncomputable def extrema (ps : Segment ℝ) : Py Extrema := extremaOf (order ps) (dcPoints ps)

/-- PathLib/Bezier.py:255-265 `bbox` (without the cache): `((minX, maxX), (minY, maxY))`. -/
noncomputable def bbox (ps : Segment ℝ) : Py ((ℝ × ℝ) × (ℝ × ℝ)) := do
  let extrema ← extrema ps
  let x ← (getminmax ps 0 extrema.x).1
  let y ← (getminmax ps 1 extrema.y).1
  return (x, y)

/-- PathLib/Bezier.py:277-284 `boundsRectangle` (without the cache). -/
noncomputable def boundsRectangle (ps : Segment ℝ) : Py (BoundsRectangle ℝ) := do
  let ((minX, maxX), (minY, maxY)) ← bbox ps
  return BoundsRectangle.new [(minX, minY), (maxX, maxY)]

/-- PathLib/Bezier.py:295-299 `_align`. -/
noncomputable def alignPoints (points segment : Segment ℝ) : Py (Segment ℝ) := do
  let angle ← PathUtilities.rawSlopeAngle segment
  let transform ← Transform.moveAndRotate (← pyGet segment 0) (0, 0) (-angle)
  transform.applyToSegment points

/-- PathLib/Bezier.py:205-208 `_tangent`. -/
noncomputable def tangent (ps : Segment ℝ) (t : ℝ) : Py (Pt ℝ) := do
  let d ← derivative ps t
  let q := butils.hypot d.1 d.2
  return (← pdiv d.1 q, ← pdiv d.2 q)

/-- PathLib/Bezier.py:552-555 `normal` (and 210-213 `_normal`). The radicand is a sum of squares, so `butils.sqrt` does
not return NaN here. -/
noncomputable def normal (ps : Segment ℝ) (t : ℝ) : Py (Pt ℝ) := do
  let d ← derivative ps t
  let q := Real.sqrt (d.1 * d.1 + d.2 * d.2)
  return (← pdiv (-d.2) q, ← pdiv d.1 q)

/-- PathLib/Bezier.py:391-397 `_arcfun`, with exact arithmetic instead of the decimal context. -/
noncomputable def arcfun (ps : Segment ℝ) (t : ℝ) : Py ℝ := do
  let d ← derivative ps t
  return Real.sqrt (d.1 * d.1 + d.2 * d.2)

/-- PathLib/Bezier.py:410-418, the quadrature of `length`, with exact arithmetic instead of the decimal context. -/
noncomputable def lengthOf (ps : Segment ℝ) : Py ℝ := do
  let z : ℝ := 1 / 2
  let sum ← (List.range butils.tValues.length).foldlM (fun sum (i : Nat) => do
    let tv ← pyGet butils.tValues (i : Int)
    let cv ← pyGet butils.cValues (i : Int)
    let t := (tv : ℝ) * z + z
    return (cv : ℝ) * (← arcfun ps t) + sum) 0
  return z * sum

/-- PathLib/Bezier.py:463-464, the local function `reduce` of `roots`; the filter drops NaN (`none`). -/
noncomputable def keepRoots (l : List (Option ℝ)) : List ℝ :=
  l.filterMap fun t => t.filter fun t =>
    (0 ≤ t ∧ t ≤ 1) ∨ butils.approximately t 0 ∨ butils.approximately t 1

/-- PathLib/Bezier.py:466-481, the quadratic case of `roots`. -/
noncomputable def quadraticRoots (a b c : ℝ) : Py (List ℝ) := do
  let d := a - 2 * b + c
  if d ≠ 0 then
    let m1 := (butils.sqrt (b * b - a * c)).map fun s => -s
    let m2 := -a + b
    let v1 := m1.map fun m1 => -(m1 + m2) / d
    let v2 := m1.map fun m1 => -(-m1 + m2) / d
    return keepRoots [v1, v2]
  else if b ≠ c ∧ d = 0 then
    return keepRoots [some (← pdiv (2 * b - c) (2 * b - 2 * c))]
  else return []

/-- PathLib/Bezier.py:511-544, the cubic case of `roots` for `t^3 + a t^2 + b t + c` (already divided by `d`). When
`butils.sqrt` returns NaN all candidates are NaN and the filter drops them. -/
noncomputable def cardano (a b c : ℝ) : Py (List ℝ) := do
  let p := (3 * b - a * a) / 3
  let p3 := p / 3
  let q := (2 * a * a * a - 9 * a * b + 27 * c) / 27
  let q2 := q / 2
  let discriminant := q2 * q2 + p3 * p3 * p3
  if discriminant < 0 then
    let mp3 := -p / 3
    let mp33 := mp3 * mp3 * mp3
    match butils.sqrt mp33 with
    | none => return []
    | some r =>
      let t ← pdiv (-q) (2 * r)
      let cosphi := if t < -1 then -1 else if t > 1 then 1 else t
      let phi ← acos cosphi
      let crtr := butils.crt r
      let t1 := 2 * crtr
      let x1 := t1 * Real.cos (phi / 3) - a / 3
      let x2 := t1 * Real.cos ((phi + 2 * Real.pi) / 3) - a / 3
      let x3 := t1 * Real.cos ((phi + 2 * (2 * Real.pi)) / 3) - a / 3
      return keepRoots [some x1, some x2, some x3]
  else if butils.approximately discriminant 0 then
    let u1 := if q2 < 0 then butils.crt (-q2) else -butils.crt q2
    let x1 := 2 * u1 - a / 3
    let x2 := -u1 - a / 3
    return keepRoots [some x1, some x2]
  else
    match butils.sqrt discriminant with
    | none => return []
    | some sd =>
      let u1 := butils.crt (-q2 + sd)
      let v1 := butils.crt (q2 + sd)
      return keepRoots [some (u1 - v1 - a / 3)]

/-- PathLib/Bezier.py:483-544, the other cases of `roots`, from the ordinates of the control points. -/
noncomputable def cubicRoots (pa pb pc pd : ℝ) : Py (List ℝ) := do
  let d := -pa + 3 * pb - 3 * pc + pd
  let a := 3 * pa - 6 * pb + 3 * pc
  let b := -3 * pa + 3 * pb
  let c := pa
  if butils.approximately d 0 then
    if butils.approximately a 0 then
      if butils.approximately b 0 then return []
      else return keepRoots [some (← pdiv (-c) b)]
    else
      let a2 := 2 * a
      match butils.sqrt (b * b - 4 * a * c) with
      | none => return []
      | some q => return keepRoots [some (← pdiv (q - b) a2), some (← pdiv (-b - q) a2)]
  else cardano (← pdiv a d) (← pdiv b d) (← pdiv c d)

/-- PathLib/Bezier.py:456-544 `roots`; a missing or empty `segment` is falsy. -/
noncomputable def roots (ps : Segment ℝ) (segment : Option (Segment ℝ)) : Py (List ℝ) := do
  let p ← (match segment with
    | some (s :: rest) => alignPoints ps (s :: rest)
    | _ => return ps : Py (Segment ℝ))
  if order p = 2 then
    quadraticRoots (← pyGet p 0).2 (← pyGet p 1).2 (← pyGet p 2).2
  else
    cubicRoots (← pyGet p 0).2 (← pyGet p 1).2 (← pyGet p 2).2 (← pyGet p 3).2

/-- PathLib/Bezier.py:558-567 `simple`. -/
noncomputable def simple (ps : Segment ℝ) : Py Bool := do
  let early ← (if order ps = 3 then do
      let a1 := butils.angle (← pyGet ps 0) (← pyGet ps 3) (← pyGet ps 1)
      let a2 := butils.angle (← pyGet ps 0) (← pyGet ps 3) (← pyGet ps 2)
      return decide ((a1 > 0 ∧ a2 < 0) ∨ (a1 < 0 ∧ a2 > 0))
    else return false : Py Bool)
  if early then return false
  else
    let n1 ← normal ps 0
    let n2 ← normal ps 1
    let s := n1.1 * n2.1 + n1.2 * n2.2
    return decide (|← acos s| < Real.pi / 3)

/-- PathLib/Bezier.py:617-630 `lineIntersects`; the filter calls `get` on every root. -/
noncomputable def lineIntersects (ps : Segment ℝ) (p1 p2 : Pt ℝ) : Py (List ℝ) := do
  let mx := pyMin p1.1 p2.1
  let my := pyMin p1.2 p2.2
  let MX := pyMax p1.1 p2.1
  let MY := pyMax p1.2 p2.2
  (← roots ps (some [p1, p2])).filterM fun t => do
    let c ← get ps t
    return butils.between c.1 mx MX && butils.between c.2 my MY

/-- PathLib/Bezier.py:632-643 `intersectWithLine`, with the control points of `line`. -/
noncomputable def intersectWithLine (ps line : Segment ℝ) : Py (Option (Pt ℝ)) := do
  if order ps = 1 then butils.lli ps line
  else
    match ← roots ps (some line) with
    | [] => return none
    | r :: _ =>
      let root := if r < 0 then 0 else if r > 1 then 1 else r
      return some (← get ps root)

end real

end Bezier
end PathLib
