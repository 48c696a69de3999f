import Verif.Model.Bezier
import Verif.Spec.Rounding

/-!
# Some functions again, in rounded arithmetic

The other model files compute exactly. Here a few functions are written once more with every arithmetic operation rounded
(`R.add`, `R.sub`, `R.mul`, `R.div`), in the order in which Python evaluates them. `Verif/Props/Rounded.lean` shows that without
rounding they are the functions of the other files, and how far rounding can take them from those.

Overflow and underflow are not modelled. Comparisons, `min`, `max` and the selection of list elements are exact in floating point
arithmetic and need no counterpart here. Multiplying by the integers 0, 1, 2 and 3 is rounded like any other multiplication.
-/

namespace PathLib
namespace Rounded

open Spec Bezier

/-- PathLib/Bezier.py:151-158, one pass of de Casteljau's computation in `_compute`. -/
def casteljauStep (R : Rounding) (t : ℝ) (ps : Segment ℝ) : Segment ℝ :=
  List.zipWith (fun a b => (R.add a.1 (R.mul (R.sub b.1 a.1) t), R.add a.2 (R.mul (R.sub b.2 a.2) t))) ps ps.tail

theorem casteljauStep_length (R : Rounding) (t : ℝ) (ps : Segment ℝ) :
    (casteljauStep R t ps).length = ps.length - 1 := by simp [casteljauStep]

/-- PathLib/Bezier.py:149-159, the `while len(dcPoints) > 1` loop and `dcPoints[0]`. -/
noncomputable def casteljau (R : Rounding) (t : ℝ) (ps : Segment ℝ) : Py (Pt ℝ) :=
  if ps.length > 1 then casteljau R t (casteljauStep R t ps) else pyGet ps 0
termination_by ps.length
decreasing_by rw [casteljauStep_length]; omega

/-- PathLib/Bezier.py:101-159 `_compute`, and 292-293 `get`. -/
noncomputable def get (R : Rounding) (ps : Segment ℝ) (t : ℝ) : Py (Pt ℝ) := do
  if t = 0 then pyGet ps 0
  else if t = 1 then pyGet ps (order ps)
  else
    let mt := R.sub 1 t
    if order ps = 0 then pyGet ps 0
    else if order ps = 1 then
      let p0 ← pyGet ps 0
      let p1 ← pyGet ps 1
      return (R.add (R.mul mt p0.1) (R.mul t p1.1), R.add (R.mul mt p0.2) (R.mul t p1.2))
    else if order ps < 4 then
      let mt2 := R.mul mt mt
      let t2 := R.mul t t
      let (p, a, b, c, d) ← (if order ps = 2 then do
          return ([← pyGet ps 0, ← pyGet ps 1, ← pyGet ps 2, (0, 0)], mt2, R.mul (R.mul mt t) 2, t2, 0)
        else
          return (ps, R.mul mt2 mt, R.mul (R.mul mt2 t) 3, R.mul (R.mul mt t2) 3, R.mul t t2) :
            Py (Segment ℝ × ℝ × ℝ × ℝ × ℝ))
      let p0 ← pyGet p 0
      let p1 ← pyGet p 1
      let p2 ← pyGet p 2
      let p3 ← pyGet p 3
      return (R.add (R.add (R.add (R.mul a p0.1) (R.mul b p1.1)) (R.mul c p2.1)) (R.mul d p3.1),
        R.add (R.add (R.add (R.mul a p0.2) (R.mul b p1.2)) (R.mul c p2.2)) (R.mul d p3.2))
    else casteljau R t ps

/-- PathLib/BezierUtilities.py:179-183 `lerp`. -/
def lerp (R : Rounding) (r : ℝ) (v1 v2 : Pt ℝ) : Pt ℝ :=
  (R.add v1.1 (R.mul r (R.sub v2.1 v1.1)), R.add v1.2 (R.mul r (R.sub v2.2 v1.2)))

/-- PathLib/Bezier.py:369-374, one level of `hull`. -/
def hullStep (R : Rounding) (t : ℝ) (ps : Segment ℝ) : Segment ℝ := List.zipWith (lerp R t) ps ps.tail

theorem hullStep_length (R : Rounding) (t : ℝ) (ps : Segment ℝ) : (hullStep R t ps).length = ps.length - 1 := by
  simp [hullStep]

/-- PathLib/Bezier.py:368-374, the `while len(p) > 1` loop: the points appended to `q`. -/
def hullLoop (R : Rounding) (t : ℝ) (ps : Segment ℝ) : Segment ℝ :=
  if ps.length > 1 then hullStep R t ps ++ hullLoop R t (hullStep R t ps) else []
termination_by ps.length
decreasing_by rw [hullStep_length]; omega

/-- PathLib/Bezier.py:363-376 `hull`. -/
def hull (R : Rounding) (ps : Segment ℝ) (t : ℝ) : Segment ℝ := ps ++ hullLoop R t ps

/-- PathLib/Bezier.py:435-445, the control points of `left` and `right` in `split(t)`. -/
def splitPoints (R : Rounding) (ps : Segment ℝ) (t : ℝ) : Py (Segment ℝ × Segment ℝ) := do
  let q := hull R ps t
  if order ps = 2 then
    return ([← pyGet q 0, ← pyGet q 3, ← pyGet q 5], [← pyGet q 5, ← pyGet q 4, ← pyGet q 2])
  else
    return ([← pyGet q 0, ← pyGet q 4, ← pyGet q 7, ← pyGet q 9], [← pyGet q 9, ← pyGet q 8, ← pyGet q 6, ← pyGet q 3])

/-- PathLib/Transform.py:20-30 `multiplyRowByMatrix`. -/
def multiplyRowByMatrix (R : Rounding) (row : Row ℝ) (matrix : Mat ℝ) : Py (Row ℝ) :=
  match row, matrix with
  | [r1, r2, r3], [[m11, m12, m13], [m21, m22, m23], [m31, m32, m33]] =>
    .ok [R.add (R.add (R.mul r1 m11) (R.mul r2 m21)) (R.mul r3 m31),
         R.add (R.add (R.mul r1 m12) (R.mul r2 m22)) (R.mul r3 m32),
         R.add (R.add (R.mul r1 m13) (R.mul r2 m23)) (R.mul r3 m33)]
  | _, _ => .error .valueError

/-- PathLib/Transform.py:33-41 `multiplyMatrixByMatrix`. -/
def multiplyMatrixByMatrix (R : Rounding) (m1 m2 : Mat ℝ) : Py (Mat ℝ) :=
  m1.mapM fun row => multiplyRowByMatrix R row m2

/-- The rounded quotient; Python raises `ZeroDivisionError` for a zero divisor. -/
noncomputable def pdiv (R : Rounding) (a b : ℝ) : Py ℝ := if b = 0 then .error .zeroDivisionError else .ok (R.div a b)

/-- PathLib/Transform.py:275-296 `applyToPoint`. -/
noncomputable def applyToPoint (R : Rounding) (T : Transform ℝ) (point : Pt ℝ) : Py (Pt ℝ) := do
  let rp ← multiplyRowByMatrix R [point.1, point.2, 1] T.transform
  let rx ← pdiv R (← pyGet rp 0) (← pyGet rp 2)
  let ry ← pdiv R (← pyGet rp 1) (← pyGet rp 2)
  return (rx, ry)

/-- PathLib/PathUtilities.py:274-280 `midpoint`. -/
noncomputable def midpoint (R : Rounding) (line : Segment ℝ) : Py (Pt ℝ) := do
  let (p0x, p0y, p1x, p1y) ← PathUtilities.endPoints line
  return (R.div (R.add p0x p1x) 2, R.div (R.add p0y p1y) 2)

/-- PathLib/PathUtilities.py:111-116 `BoundsRectangle.centerPoint`. -/
noncomputable def centerPoint (R : Rounding) (b : BoundsRectangle ℝ) : Py (Pt ℝ) := midpoint R b.diagonal

/-- `math.sqrt` of a number that is not negative, correctly rounded. -/
noncomputable def sqrt (R : Rounding) (x : ℝ) : ℝ := R.rnd (Real.sqrt x)

/-- PathLib/Bezier.py:325-331, the control points of the derivative of a curve. -/
noncomputable def dcStep (R : Rounding) (ps : Segment ℝ) : Segment ℝ :=
  let c : ℝ := ((ps.length - 1 : Nat) : ℝ)
  List.zipWith (fun a b => (R.mul c (R.sub b.1 a.1), R.mul c (R.sub b.2 a.2))) ps ps.tail

/-- PathLib/Bezier.py:176-203, `_derivative` after `p = self.dcPoints[0]` for a curve of order `n`. Converting to `Decimal` is exact. -/
noncomputable def derivativeOf (R : Rounding) (n : Int) (p : Segment ℝ) (t : ℝ) : Py (Pt ℝ) := do
  let mt := R.sub 1 t
  let (p, a, b, c) ← (if n = 2 then do
      return ([← pyGet p 0, ← pyGet p 1, (0, 0)], mt, t, 0)
    else return (p, R.mul mt mt, R.mul (R.mul mt t) 2, R.mul t t) : Py (Segment ℝ × ℝ × ℝ × ℝ))
  let p0 ← pyGet p 0
  let p1 ← pyGet p 1
  let p2 ← pyGet p 2
  return (R.add (R.add (R.mul a p0.1) (R.mul b p1.1)) (R.mul c p2.1),
    R.add (R.add (R.mul a p0.2) (R.mul b p1.2)) (R.mul c p2.2))

/-- PathLib/Bezier.py:174-175, `self.dcPoints[0]`: it exists when there are two points. -/
noncomputable def firstDerivative (R : Rounding) (ps : Segment ℝ) : Py (Segment ℝ) :=
  if ps.length > 1 then .ok (dcStep R ps) else .error .indexError

/-- PathLib/Bezier.py:174-203 `_derivative`, for a `t` that is not a `Decimal`. -/
noncomputable def derivative (R : Rounding) (ps : Segment ℝ) (t : ℝ) : Py (Pt ℝ) := do
  derivativeOf R (order ps) (← firstDerivative R ps) t

/-- PathLib/Bezier.py:391-397 `_arcfun`, in the decimal arithmetic `D`; `p` is `self.dcPoints[0]`, computed in `float`. -/
noncomputable def arcfun (D : Rounding) (n : Int) (p : Segment ℝ) (t : ℝ) : Py ℝ := do
  let d ← derivativeOf D n p t
  return sqrt D (D.add (D.mul d.1 d.1) (D.mul d.2 d.2))

/-- PathLib/Bezier.py:407-422 `length` (on fresh caches). `F` is the rounding of `float`, `D` that of the decimal context with two
more digits, `E` that of the context of the caller, in which `+length` is rounded. `fma` rounds once. -/
noncomputable def length (F D E : Rounding) (ps : Segment ℝ) : Py ℝ := do
  let z : ℝ := 1 / 2
  let sum ← (List.range butils.tValues.length).foldlM (fun sum (i : Nat) => do
    let tv ← pyGet butils.tValues (i : Int)
    let cv ← pyGet butils.cValues (i : Int)
    let t := D.rnd ((tv : ℝ) * z + z)
    let p ← firstDerivative F ps
    return D.rnd ((cv : ℝ) * (← arcfun D (order ps) p t) + sum)) 0
  return E.rnd (D.mul z sum)

/-- PathLib/Bezier.py:552-555 `normal`. Changing the sign is exact. -/
noncomputable def normal (R : Rounding) (ps : Segment ℝ) (t : ℝ) : Py (Pt ℝ) := do
  let d ← derivative R ps t
  let q := sqrt R (R.add (R.mul d.1 d.1) (R.mul d.2 d.2))
  return (← pdiv R (-d.2) q, ← pdiv R d.1 q)

/-- PathLib/BezierUtilities.py:211-222 `angle`. Only its sign is used, so the last rounding, of `math.atan2`, is left out. Zero has no
sign here. -/
noncomputable def angle (R : Rounding) (o v1 v2 : Pt ℝ) : ℝ :=
  let dx1 := R.sub v1.1 o.1
  let dy1 := R.sub v1.2 o.2
  let dx2 := R.sub v2.1 o.1
  let dy2 := R.sub v2.2 o.2
  let cross := R.sub (R.mul dx1 dy2) (R.mul dy1 dx2)
  let dot := R.add (R.mul dx1 dx2) (R.mul dy1 dy2)
  butils.atan2 cross dot

/-- PathLib/Bezier.py:558-567 `simple`. The values of `math.acos` and `math.pi / 3` are not rounded: they are compared with each
other only. -/
noncomputable def simple (R : Rounding) (ps : Segment ℝ) : Py Bool := do
  let early ← (if order ps = 3 then do
      let a1 := angle R (← pyGet ps 0) (← pyGet ps 3) (← pyGet ps 1)
      let a2 := angle R (← pyGet ps 0) (← pyGet ps 3) (← pyGet ps 2)
      return decide ((a1 > 0 ∧ a2 < 0) ∨ (a1 < 0 ∧ a2 > 0))
    else return false : Py Bool)
  if early then return false
  else
    let n1 ← normal R ps 0
    let n2 ← normal R ps 1
    let s := R.add (R.mul n1.1 n2.1) (R.mul n1.2 n2.2)
    return decide (|← acos s| < Real.pi / 3)

theorem dcStep_length (R : Rounding) (ps : Segment ℝ) : (dcStep R ps).length = ps.length - 1 := by simp [dcStep]

/-- PathLib/Bezier.py:318-337 `dcPoints` (without the cache). -/
noncomputable def dcPoints (R : Rounding) (ps : Segment ℝ) : List (Segment ℝ) :=
  if ps.length > 1 then dcStep R ps :: dcPoints R (dcStep R ps) else []
termination_by ps.length
decreasing_by rw [dcStep_length]; omega

/-- PathLib/BezierUtilities.py:148-176 `droots`. NaN entries (from a negative radicand) are `none`. -/
noncomputable def droots (R : Rounding) (p : List ℝ) : List (Option ℝ) :=
  match p with
  | [a, b, c] =>
    let d := R.add (R.sub a (R.mul 2 b)) c
    if d ≠ 0 then
      let x := R.sub (R.mul b b) (R.mul a c)
      let m1 := if x < 0 then none else some (-sqrt R x)
      let m2 := R.add (-a) b
      let v1 := m1.map fun m1 => R.div (-R.add m1 m2) d
      let v2 := m1.map fun m1 => R.div (-R.add (-m1) m2) d
      [v1, v2]
    else if b ≠ c ∧ d = 0 then
      [some (R.div (R.sub (R.mul 2 b) c) (R.mul 2 (R.sub b c)))]
    else []
  | [a, b] => if a ≠ b then [some (R.div a (R.sub a b))] else []
  | _ => []

/-- PathLib/Bezier.py:346-351, the roots of one dimension. -/
noncomputable def extremaDim (R : Rounding) (n : Int) (dc : List (Segment ℝ)) (dim : Fin 2) : Py (List ℝ) := do
  let p := (← pyGet dc 0).map (coord dim)
  let result := droots R p
  let result ← (if n = 3 then do
      let p := (← pyGet dc 1).map (coord dim)
      return result ++ droots R p
    else return result : Py (List (Option ℝ)))
  return result.filterMap fun t => t.filter fun t => t ≥ 0 ∧ t ≤ 1

/-- PathLib/Bezier.py:340-358 `extrema`. -/
noncomputable def extrema (R : Rounding) (ps : Segment ℝ) : Py Extrema := do
  let x ← extremaDim R (order ps) (dcPoints R ps) 0
  let y ← extremaDim R (order ps) (dcPoints R ps) 1
  let roots := sorted x ++ sorted y
  return { x := x, y := y, all := butils.removeDuplicates (sorted roots) }

/-- PathLib/BezierUtilities.py:199-209 `map`. -/
noncomputable def map (R : Rounding) (v ds de ts te : ℝ) : Py ℝ := do
  let d1 := R.sub de ds
  let d2 := R.sub te ts
  let v2 := R.sub v ds
  let r ← pdiv R v2 d1
  return R.add ts (R.mul d2 r)

/-- PathLib/Bezier.py:430-454 `split(t1, t2)` where the caller needs a curve: its control points. -/
noncomputable def splitPiece (R : Rounding) (ps : Segment ℝ) (t1 t2 : ℝ) : Py (Segment ℝ) := do
  if t1 = 0 ∧ t2 ≠ 0 then return (← splitPoints R ps t2).1
  else if t2 = 1 then return (← splitPoints R ps t1).2
  else
    let (_, right) ← splitPoints R ps t1
    if t2 = 0 then .error .attributeError
    else
      let t2 ← map R t2 t1 1 0 1
      return (← splitPoints R right t2).1

/-- PathLib/Bezier.py:588 `step`. -/
noncomputable def step (R : Rounding) : ℝ := R.rnd (1 / 100)

/-- PathLib/Bezier.py:578-585, the first pass of `reduce`: the control points of the pieces between consecutive extrema. -/
noncomputable def reducePass1 (R : Rounding) (ps : Segment ℝ) (t1 : ℝ) (rest : List ℝ) : Py (List (Segment ℝ)) :=
  match rest with
  | [] => return []
  | t2 :: rest => do
    let segment ← splitPiece R ps t1 t2
    return segment :: (← reducePass1 R ps t2 rest)

/-- PathLib/Bezier.py:593-607, the two nested loops for one curve of the first pass, entered with `t2 = t1 + step`. The
result `none` of the whole call means that `fuel` passes through the inner loop were not enough: with a coarse rounding `t2 + step` can
be `t2`, and the loop does not end. The inner `none` stands for the early `return []`. -/
noncomputable def reduceLoop (R : Rounding) (fuel : ℕ) (p1 : Segment ℝ) (t1 t2 : ℝ) :
    Option (Py (Option (List (Segment ℝ) × ℝ))) :=
  match fuel with
  | 0 => none
  | fuel + 1 =>
    if t2 ≤ 1 then
      match (do simple R (← splitPiece R p1 t1 t2) : Py Bool) with
      | .error e => some (.error e)
      | .ok true => reduceLoop R fuel p1 t1 (R.add t2 (step R))
      | .ok false =>
        let t2' := R.sub t2 (step R)
        if |R.sub t1 t2'| < step R then some (.ok none)
        else
          match splitPiece R p1 t1 t2' with
          | .error e => some (.error e)
          | .ok segment =>
            match reduceLoop R fuel p1 t2' (R.add t2' (step R)) with
            | none => none
            | some (.error e) => some (.error e)
            | some (.ok none) => some (.ok none)
            | some (.ok (some (ps, tEnd))) => some (.ok (some (segment :: ps, tEnd)))
    else some (.ok (some ([], t1)))

/-- PathLib/Bezier.py:589-613, the second pass. -/
noncomputable def reducePass2 (R : Rounding) (fuel : ℕ) (pass1 : List (Segment ℝ)) : Option (Py (Option (List (Segment ℝ)))) :=
  match pass1 with
  | [] => some (.ok (some []))
  | p1 :: rest =>
    match reduceLoop R fuel p1 0 (R.add 0 (step R)) with
    | none => none
    | some (.error e) => some (.error e)
    | some (.ok none) => some (.ok none)
    | some (.ok (some (ps, t1))) =>
      match (if t1 < 1 then do return [← splitPiece R p1 t1 1] else return [] : Py (List (Segment ℝ))) with
      | .error e => some (.error e)
      | .ok last =>
        match reducePass2 R fuel rest with
        | none => none
        | some (.error e) => some (.error e)
        | some (.ok none) => some (.ok none)
        | some (.ok (some more)) => some (.ok (some (ps ++ last ++ more)))

/-- PathLib/Bezier.py:574-585, the first pass of `reduce` with its list of extrema. -/
noncomputable def reduceFirst (R : Rounding) (ps : Segment ℝ) : Py (List (Segment ℝ)) := do
  match addEnds (← extrema R ps).all with
  | [] => .error .indexError
  | t1 :: rest => reducePass1 R ps t1 rest

/-- PathLib/Bezier.py:569-615 `reduce` (on fresh caches): the control points of the pieces. The numbers `_t1` and `_t2` of the
pieces are not computed here. -/
noncomputable def reduce (R : Rounding) (fuel : ℕ) (ps : Segment ℝ) : Option (Py (List (Segment ℝ))) :=
  match reduceFirst R ps with
  | .error e => some (.error e)
  | .ok pass1 =>
    match reducePass2 R fuel pass1 with
    | none => none
    | some (.error e) => some (.error e)
    | some (.ok none) => some (.ok [])
    | some (.ok (some pass2)) => some (.ok pass2)

end Rounded
end PathLib
