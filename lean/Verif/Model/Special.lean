import Verif.Model.Bezier

/-!
# NaN and infinite coordinates

The functions of PathLib/PathUtilities.py, PathLib/Transform.py, PathLib/BezierUtilities.py and PathLib/Bezier.py that compute bounds, points,
parts and intersections of curves, a second time, for coordinates that can be NaN or infinite. Finite numbers are exact here: a finite
operation never overflows and never rounds, and zero has no sign.
-/

namespace PathLib
namespace Special

/-- A Python `float`: a finite number, `math.inf` (`true`), `-math.inf` (`false`) or `math.nan`. -/
inductive Num (K : Type)
  | fin (x : K)
  | inf (positive : Bool)
  | nan
  deriving DecidableEq

namespace Num
variable {K : Type} [Field K] [LinearOrder K]

/-- `a + b` (IEEE 754). -/
def add : Num K → Num K → Num K
  | fin x, fin y => fin (x + y)
  | inf p, inf q => if p = q then inf p else nan
  | inf p, fin _ => inf p
  | fin _, inf q => inf q
  | _, _ => nan

/-- `-a`. -/
def neg : Num K → Num K
  | fin x => fin (-x)
  | inf p => inf !p
  | nan => nan

/-- `a - b`. -/
def sub (a b : Num K) : Num K := add a (neg b)

/-- `a * b` (IEEE 754): zero times infinity is NaN. -/
def mul : Num K → Num K → Num K
  | fin x, fin y => fin (x * y)
  | inf p, inf q => inf (p == q)
  | inf p, fin y => if y = 0 then nan else inf (p == decide (0 < y))
  | fin x, inf q => if x = 0 then nan else inf (decide (0 < x) == q)
  | _, _ => nan

/-- `a / b`: every division by zero raises `ZeroDivisionError`, also of NaN. -/
def div : Num K → Num K → Py (Num K)
  | fin x, fin y => if y = 0 then .error .zeroDivisionError else .ok (fin (x / y))
  | inf p, fin y => if y = 0 then .error .zeroDivisionError else .ok (inf (p == decide (0 < y)))
  | nan, fin y => if y = 0 then .error .zeroDivisionError else .ok nan
  | fin _, inf _ => .ok (fin 0)
  | _, _ => .ok nan

/-- `a < b`: false if one of them is NaN. -/
def lt : Num K → Num K → Bool
  | fin x, fin y => decide (x < y)
  | fin _, inf q => q
  | inf p, fin _ => !p
  | inf p, inf q => !p && q
  | _, _ => false

/-- `a == b`: false if one of them is NaN. -/
def eq : Num K → Num K → Bool
  | fin x, fin y => decide (x = y)
  | inf p, inf q => p == q
  | _, _ => false

/-- `a <= b`. -/
def le (a b : Num K) : Bool := lt a b || eq a b

/-- Python's `min(a, b)`: the first argument unless the second is smaller. -/
def min (a b : Num K) : Num K := if lt b a then b else a

/-- Python's `max(a, b)`: the first argument unless the second is larger. -/
def max (a b : Num K) : Num K := if lt a b then b else a

/-- `abs(a)`. -/
def abs : Num K → Num K
  | fin x => fin |x|
  | inf _ => inf true
  | nan => nan

/-- PathLib/BezierUtilities.py:89-99 `sqrt`: NaN for negative numbers (`math.sqrt` raises for them, `-math.inf` included). -/
noncomputable def sqrt : Num ℝ → Num ℝ
  | fin x => if x < 0 then nan else fin (Real.sqrt x)
  | inf true => inf true
  | _ => nan

/-- `math.atan2(y, x)`: defined for infinite arguments too. -/
noncomputable def atan2 : Num ℝ → Num ℝ → Num ℝ
  | nan, _ => nan
  | _, nan => nan
  | fin y, fin x => fin (butils.atan2 y x)
  | fin _, inf true => fin 0
  | fin y, inf false => fin (if 0 ≤ y then Real.pi else -Real.pi)
  | inf p, fin _ => fin (if p then Real.pi / 2 else -(Real.pi / 2))
  | inf p, inf true => fin (if p then Real.pi / 4 else -(Real.pi / 4))
  | inf p, inf false => fin (if p then 3 * Real.pi / 4 else -(3 * Real.pi / 4))

/-- A function of `math` that returns NaN for NaN, applied to the angle, which is never infinite (see `atan2`). -/
def lift (f : K → K) : Num K → Num K
  | fin x => fin (f x)
  | _ => nan

end Num

open Num

section field
variable {K : Type} [Field K] [LinearOrder K]

/-- PathLib/PathUtilities.py:28-48 `BoundsRectangle.__init__(*points)`. -/
def rectangle (points : Segment (Num K)) : BoundsRectangle (Num K) :=
  points.foldl (fun b p =>
    { left := Num.min b.left p.1
      right := Num.max b.right p.1
      bottom := Num.min b.bottom p.2
      top := Num.max b.top p.2 })
    { left := fin 32768, bottom := fin 32768, right := fin (-32768), top := fin (-32768) }

/-- PathLib/PathUtilities.py:76-80 `width`. -/
def width (b : BoundsRectangle (Num K)) : Num K := sub b.right b.left

/-- PathLib/PathUtilities.py:83-87 `height`. -/
def height (b : BoundsRectangle (Num K)) : Num K := sub b.top b.bottom

/-- PathLib/PathUtilities.py:90-94 `area`. -/
def area (b : BoundsRectangle (Num K)) : Num K := mul (width b) (height b)

/-- PathLib/PathUtilities.py:137-143 `enclosesPoint`. -/
def enclosesPoint (b : BoundsRectangle (Num K)) (p : Pt (Num K)) : Bool :=
  (le b.left p.1 && le p.1 b.right) && (le b.bottom p.2 && le p.2 b.top)

/-- PathLib/PathUtilities.py:164-173 `union`. -/
def union (b other : BoundsRectangle (Num K)) : BoundsRectangle (Num K) :=
  let newLeft := Num.min b.left other.left
  let newTop := Num.max b.top other.top
  let newRight := Num.max b.right other.right
  let newBottom := Num.min b.bottom other.bottom
  rectangle [(newLeft, newBottom), (newRight, newTop)]

/-- PathLib/PathUtilities.py:175-185 `intersection`. -/
def intersection (b other : BoundsRectangle (Num K)) : Option (BoundsRectangle (Num K)) :=
  let newLeft := Num.max b.left other.left
  let newTop := Num.min b.top other.top
  let newRight := Num.min b.right other.right
  let newBottom := Num.max b.bottom other.bottom
  if lt newRight newLeft || lt newTop newBottom then none
  else some (rectangle [(newLeft, newBottom), (newRight, newTop)])

/-- PathLib/PathUtilities.py:51-59 `fromContour`. -/
def fromContour (contour : Contour (Num K)) : BoundsRectangle (Num K) :=
  contour.foldl (fun bounds segment => union bounds (rectangle segment)) (rectangle [])

/-- PathLib/Transform.py:20-30 `multiplyRowByMatrix`. -/
def multiplyRowByMatrix (row : Row (Num K)) (matrix : Mat (Num K)) : Py (Row (Num K)) :=
  match row, matrix with
  | [r1, r2, r3], [[m11, m12, m13], [m21, m22, m23], [m31, m32, m33]] =>
    .ok [add (add (mul r1 m11) (mul r2 m21)) (mul r3 m31), add (add (mul r1 m12) (mul r2 m22)) (mul r3 m32),
         add (add (mul r1 m13) (mul r2 m23)) (mul r3 m33)]
  | _, _ => .error .valueError

/-- PathLib/Transform.py:275-296 `applyToPoint`. -/
def applyToPoint (matrix : Mat (Num K)) (p : Pt (Num K)) : Py (Pt (Num K)) := do
  let rp ← multiplyRowByMatrix [p.1, p.2, fin 1] matrix
  return (← div (← pyGet rp 0) (← pyGet rp 2), ← div (← pyGet rp 1) (← pyGet rp 2))

/-- PathLib/Transform.py:205-208 `moveAndRotate`, for the sine and cosine of the angle: the matrix of the transform. -/
def moveAndRotateOf (fromPoint toPoint : Pt (Num K)) (st ct : Num K) : Py (Mat (Num K)) :=
  [[fin 1, fin 0, fin 0], [fin 0, fin 1, fin 0], [sub toPoint.1 fromPoint.1, sub toPoint.2 fromPoint.2, fin 1]].mapM fun row =>
    multiplyRowByMatrix row [[ct, st, fin 0], [neg st, ct, fin 0], [fin 0, fin 0, fin 1]]

/-- PathLib/Bezier.py:65-99 `_computeDirection`. -/
def computeDirection (ps : Segment (Num K)) : Py Bezier.Dir := do
  let p0y := (← pyGet ps 0).2
  let p1y := (← pyGet ps 1).2
  if ps.length = 2 then
    if eq p0y p1y then return .flat
    else if lt p0y p1y then return .up
    else return .down
  else
    let p2y := (← pyGet ps 2).2
    if ps.length = 3 then
      if le p0y p1y && le p1y p2y then return .up
      else if le p1y p0y && le p2y p1y then return .down
      else return .mixed
    else
      let p3y := (← pyGet ps 3).2
      if ps.length = 4 then
        if le p0y p1y && le p1y p2y && le p2y p3y then return .up
        else if le p1y p0y && le p2y p1y && le p3y p2y then return .down
        else return .mixed
      else return .mixed

/-- PathLib/Bezier.py:149-159, de Casteljau's computation in `_compute`. -/
def casteljau (t : K) (ps : Segment (Num K)) : Py (Pt (Num K)) :=
  if ps.length > 1 then
    casteljau t (List.zipWith (fun a b => (add a.1 (mul (sub b.1 a.1) (fin t)), add a.2 (mul (sub b.2 a.2) (fin t)))) ps ps.tail)
  else pyGet ps 0
termination_by ps.length
decreasing_by simp only [List.length_zipWith, List.length_tail]; omega

/-- PathLib/Bezier.py:101-159 `_compute`, for a finite `t`. -/
def get (ps : Segment (Num K)) (t : K) : Py (Pt (Num K)) := do
  if t = 0 then pyGet ps 0
  else if t = 1 then pyGet ps ((ps.length : Int) - 1)
  else
    let mt := 1 - t
    if ps.length = 1 then pyGet ps 0
    else if ps.length = 2 then
      let p0 ← pyGet ps 0
      let p1 ← pyGet ps 1
      return (add (mul (fin mt) p0.1) (mul (fin t) p1.1), add (mul (fin mt) p0.2) (mul (fin t) p1.2))
    else if ps.length < 5 then
      let mt2 := mt * mt
      let t2 := t * t
      let (p, a, b, c, d) ← (if ps.length = 3 then do
          return ([← pyGet ps 0, ← pyGet ps 1, ← pyGet ps 2, (fin 0, fin 0)], mt2, mt * t * 2, t2, 0)
        else
          return (ps, mt2 * mt, mt2 * t * 3, mt * t2 * 3, t * t2) : Py (Segment (Num K) × K × K × K × K))
      let p0 ← pyGet p 0
      let p1 ← pyGet p 1
      let p2 ← pyGet p 2
      let p3 ← pyGet p 3
      return (add (add (add (mul (fin a) p0.1) (mul (fin b) p1.1)) (mul (fin c) p2.1)) (mul (fin d) p3.1),
              add (add (add (mul (fin a) p0.2) (mul (fin b) p1.2)) (mul (fin c) p2.2)) (mul (fin d) p3.2))
    else casteljau t ps

/-- PathLib/BezierUtilities.py:179-183 `lerp`. -/
def lerp (r : K) (v1 v2 : Pt (Num K)) : Pt (Num K) :=
  (add v1.1 (mul (fin r) (sub v2.1 v1.1)), add v1.2 (mul (fin r) (sub v2.2 v1.2)))

/-- PathLib/Bezier.py:368-374, the levels of `hull`. -/
def hullLoop (t : K) (ps : Segment (Num K)) : Segment (Num K) :=
  if ps.length > 1 then List.zipWith (lerp t) ps ps.tail ++ hullLoop t (List.zipWith (lerp t) ps ps.tail) else []
termination_by ps.length
decreasing_by simp only [List.length_zipWith, List.length_tail]; omega

/-- PathLib/Bezier.py:363-376 `hull`. -/
def hull (ps : Segment (Num K)) (t : K) : Segment (Num K) := ps ++ hullLoop t ps

/-- PathLib/Bezier.py:325-331, the control points of the derivative. -/
def dcStep (ps : Segment (Num K)) : Segment (Num K) :=
  List.zipWith (fun a b => (mul (fin ((ps.length - 1 : Nat) : K)) (sub b.1 a.1), mul (fin ((ps.length - 1 : Nat) : K)) (sub b.2 a.2))) ps ps.tail

/-- `point[d]`. -/
def coordinate (d : Fin 2) (p : Pt (Num K)) : Num K := if d = 0 then p.1 else p.2

/-- PathLib/Bezier.py:215-228 `_getminmax`; the parameters have passed the test `0 <= t <= 1` and are finite. -/
def getminmax (ps : Segment (Num K)) (d : Fin 2) (list : List K) : Py (Num K × Num K) :=
  (Bezier.addEnds list).foldlM (fun acc t => do
    let c ← get ps t
    let min := if lt (coordinate d c) acc.1 then coordinate d c else acc.1
    let max := if lt acc.2 (coordinate d c) then coordinate d c else acc.2
    return (min, max)) (fin Bezier.maxSafe, fin Bezier.minSafe)

end field

/-- PathLib/BezierUtilities.py:148-176 `droots`. -/
noncomputable def droots (p : List (Num ℝ)) : Py (List (Num ℝ)) :=
  match p with
  | [a, b, c] => do
    let d := add (sub a (mul (fin 2) b)) c
    if !eq d (fin 0) then
      let m1 := neg (Num.sqrt (sub (mul b b) (mul a c)))
      let m2 := add (neg a) b
      let v1 ← div (neg (add m1 m2)) d
      let v2 ← div (neg (add (neg m1) m2)) d
      return [v1, v2]
    else if !eq b c && eq d (fin 0) then
      return [← div (sub (mul (fin 2) b) c) (mul (fin 2) (sub b c))]
    else return []
  | [a, b] => do
    if !eq a b then return [← div a (sub a b)] else return []
  | _ => return []

/-- PathLib/Bezier.py:351, the filter `t >= 0 and t <= 1`; what passes it is finite. -/
noncomputable def keep (l : List (Num ℝ)) : List ℝ := l.filterMap fun
  | fin t => if 0 ≤ t ∧ t ≤ 1 then some t else none
  | _ => none

/-- PathLib/Bezier.py:346-351, the extrema of one dimension; `dcPoints[0]` and `dcPoints[1]` are computed from the control points. -/
noncomputable def extremaDim (ps : Segment (Num ℝ)) (dim : Fin 2) : Py (List ℝ) := do
  let result ← droots ((dcStep ps).map (coordinate dim))
  let result ← (if ps.length = 4 then do
      return result ++ (← droots ((dcStep (dcStep ps)).map (coordinate dim)))
    else return result : Py (List (Num ℝ)))
  return keep result

/-- PathLib/Bezier.py:255-265 `bbox` (without the cache) of a curve with at least two control points. -/
noncomputable def bbox (ps : Segment (Num ℝ)) : Py ((Num ℝ × Num ℝ) × (Num ℝ × Num ℝ)) := do
  let x ← extremaDim ps 0
  let y ← extremaDim ps 1
  return (← getminmax ps 0 x, ← getminmax ps 1 y)

/-- PathLib/Bezier.py:277-284 `boundsRectangle` (without the cache). -/
noncomputable def boundsRectangle (ps : Segment (Num ℝ)) : Py (BoundsRectangle (Num ℝ)) := do
  let ((minX, maxX), (minY, maxY)) ← bbox ps
  return rectangle [(minX, minY), (maxX, maxY)]

/-- PathLib/Bezier.py:295-299 `_align` for the line from `first` to `last`. -/
noncomputable def alignPoints (points : Segment (Num ℝ)) (first last : Pt (Num ℝ)) : Py (Segment (Num ℝ)) := do
  let angle := Num.lift PathUtilities.degrees (atan2 (sub last.2 first.2) (sub last.1 first.1))
  let matrix ← moveAndRotateOf first (fin 0, fin 0) (Num.lift Transform.sin (neg angle)) (Num.lift Transform.cos (neg angle))
  points.mapM (applyToPoint matrix)

/-- PathLib/BezierUtilities.py:211-222 `angle`. -/
noncomputable def angle (o v1 v2 : Pt (Num ℝ)) : Num ℝ :=
  let dx1 := sub v1.1 o.1
  let dy1 := sub v1.2 o.2
  let dx2 := sub v2.1 o.1
  let dy2 := sub v2.2 o.2
  let cross := sub (mul dx1 dy2) (mul dy1 dx2)
  let dot := add (mul dx1 dx2) (mul dy1 dy2)
  atan2 cross dot

/-- A curve object: its control points, its range of parameters and the attributes set by the constructor. -/
structure Curve where
  points : Segment (Num ℝ)
  t1 : ℝ
  t2 : ℝ
  direction : Bezier.Dir
  linear : Bool
  clockwise : Bool

/-- PathLib/Bezier.py:41-63 `Bezier.__init__`. -/
noncomputable def new (ps : Segment (Num ℝ)) : Py Curve := do
  let direction ← computeDirection ps
  let first ← pyGet ps 0
  let last ← pyGet ps (-1)
  let aligned ← alignPoints ps first last
  let linear := (aligned.filter fun x => lt (fin (1 / 10000)) (Num.abs x.2)).length == 0
  let angle := angle first last (← pyGet ps 1)
  return { points := ps, t1 := 0, t2 := 1, direction := direction, linear := linear, clockwise := lt (fin 0) angle }

/-- PathLib/Bezier.py:360-361 `overlaps`. -/
noncomputable def overlaps (b c : Curve) : Py Bool := do
  return (intersection (← boundsRectangle b.points) (← boundsRectangle c.points)).isSome

/-- PathLib/Bezier.py:435-451 `split(t)`: the two parts. -/
noncomputable def split (b : Curve) (t : ℝ) : Py (Curve × Curve) := do
  let q := hull b.points t
  let (left, right) ← (if b.points.length = 3 then do
      let left ← new [← pyGet q 0, ← pyGet q 3, ← pyGet q 5]
      let right ← new [← pyGet q 5, ← pyGet q 4, ← pyGet q 2]
      return (left, right)
    else do
      let left ← new [← pyGet q 0, ← pyGet q 4, ← pyGet q 7, ← pyGet q 9]
      let right ← new [← pyGet q 9, ← pyGet q 8, ← pyGet q 6, ← pyGet q 3]
      return (left, right) : Py (Curve × Curve))
  let lt1 ← butils.map 0 0 1 b.t1 b.t2
  let lt2 ← butils.map t 0 1 b.t1 b.t2
  let rt1 ← butils.map t 0 1 b.t1 b.t2
  let rt2 ← butils.map 1 0 1 b.t1 b.t2
  return ({ left with t1 := lt1, t2 := lt2 }, { right with t1 := rt1, t2 := rt2 })

/-- PathLib/Bezier.py:645-666 `pairiteration`; `depth` is the number of nested calls that Python allows. -/
noncomputable def pairiteration (depth : Nat) (c1 c2 : Curve) (threshold : ℝ) : Py (List (Pt ℝ)) :=
  match depth with
  | 0 => .error .recursionError
  | depth + 1 => do
    let c1b ← boundsRectangle c1.points
    let c2b ← boundsRectangle c2.points
    let r : ℝ := 100000
    if lt (add (height c1b) (width c1b)) (fin threshold) && lt (add (height c2b) (width c2b)) (fin threshold) then
      return [(r * (c1.t1 + c1.t2) / 2 / r, r * (c2.t1 + c2.t2) / 2 / r)]
    else
      let (cc1left, cc1right) ← split c1 (1 / 2)
      let (cc2left, cc2right) ← split c2 (1 / 2)
      let pairs := [(cc1left, cc2left), (cc1left, cc2right), (cc1right, cc2right), (cc1right, cc2left)]
      let pairs ← pairs.filterM fun pair => overlaps pair.1 pair.2
      let results ← pairs.mapM fun pair => pairiteration depth pair.1 pair.2 threshold
      return butils.removeDuplicates results.flatten

end Special
end PathLib
