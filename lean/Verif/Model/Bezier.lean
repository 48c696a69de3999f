import Verif.Model.BezierCore
import Mathlib.Algebra.Order.Floor.Semiring

/-!
# Model of PathLib/Bezier.py, part 2: `Bezier` objects

`Bezier` here holds the attributes fixed at construction (and `_t1`, `_t2`). The caches are modelled in
`Verif/Model/BezierCache.lean`; the functions below read derived values through their uncached
definitions. Theorems `C38_*` show that this is what the cached methods return after every history of calls.
-/

namespace PathLib

/-- PathLib/Bezier.py:38-63: the attributes of a `Bezier` other than its caches. -/
structure Bezier where
  controlPoints : Segment ℝ
  t1 : ℝ
  t2 : ℝ
  direction : Bezier.Dir
  linear : Bool
  clockwise : Bool

namespace Bezier

/-- PathLib/Bezier.py:41-63 `Bezier.__init__`. `float(...)` of a coordinate is the identity here. -/
noncomputable def new (ps : Segment ℝ) : Py Bezier := do
  let direction ← computeDirection ps
  let first ← pyGet ps 0
  let last ← pyGet ps (-1)
  let aligned ← alignPoints ps [first, last]
  let linear := decide ((aligned.filter fun x => decide (|x.2| > 1 / 10000)).length = 0)
  let angle := butils.angle first last (← pyGet ps 1)
  return { controlPoints := ps, t1 := 0, t2 := 1, direction := direction, linear := linear,
           clockwise := decide (angle > 0) }

/-- PathLib/Bezier.py:435-448 and 451, `split(t)` without `t2`: `(left, right, q)`. -/
noncomputable def split1 (b : Bezier) (t : ℝ) : Py (Bezier × Bezier × Segment ℝ) := do
  let q := hull b.controlPoints t
  let (left, right) ← (if order b.controlPoints = 2 then do
      let left ← new [← pyGet q 0, ← pyGet q 3, ← pyGet q 5]
      let right ← new [← pyGet q 5, ← pyGet q 4, ← pyGet q 2]
      return (left, right)
    else do
      let left ← new [← pyGet q 0, ← pyGet q 4, ← pyGet q 7, ← pyGet q 9]
      let right ← new [← pyGet q 9, ← pyGet q 8, ← pyGet q 6, ← pyGet q 3]
      return (left, right) : Py (Bezier × Bezier))
  let lt1 ← butils.map 0 0 1 b.t1 b.t2
  let lt2 ← butils.map t 0 1 b.t1 b.t2
  let rt1 ← butils.map t 0 1 b.t1 b.t2
  let rt2 ← butils.map 1 0 1 b.t1 b.t2
  return ({ left with t1 := lt1, t2 := lt2 }, { right with t1 := rt1, t2 := rt2 }, q)

/-- The two kinds of values `split` returns (PathLib/Bezier.py:424-430). -/
inductive SplitResult
  | parts (left right : Bezier) (q : Segment ℝ)
  | piece (b : Bezier)

/-- PathLib/Bezier.py:430-454 `split`; `t2` is falsy when it is missing or zero. -/
noncomputable def split (b : Bezier) (t1 : ℝ) (t2 : Option ℝ) : Py SplitResult := do
  let parts (b : Bezier) : Py SplitResult := do
    let (l, r, q) ← split1 b t1
    return .parts l r q
  match t2 with
  | none => parts b
  | some t2 =>
    if t1 = 0 ∧ t2 ≠ 0 then return .piece (← split1 b t2).1
    else if t2 = 1 then return .piece (← split1 b t1).2.1
    else
      let (left, right, q) ← split1 b t1
      if t2 = 0 then return .parts left right q
      else
        let t2 ← butils.map t2 t1 1 0 1
        return .piece (← split1 right t2).1

/-- `self.split(t1, t2)` where the caller uses the result as a curve (PathLib/Bezier.py:581, 595, 601, 610); a tuple
has no attribute to assign to. -/
noncomputable def splitPiece (b : Bezier) (t1 t2 : ℝ) : Py Bezier := do
  match ← split b t1 (some t2) with
  | .piece p => return p
  | .parts _ _ _ => .error .attributeError

/-- PathLib/Bezier.py:546-550 `align`; a missing or empty segment is falsy. -/
noncomputable def align (b : Bezier) (segment : Option (Segment ℝ)) : Py Bezier := do
  let segment := match segment with
    | some (s :: rest) => s :: rest
    | _ => b.controlPoints
  new (← alignPoints b.controlPoints segment)

/-- PathLib/Bezier.py:267-274 `tightbbox`. -/
noncomputable def tightbbox (b : Bezier) : Py (Contour ℝ) := do
  let aligned ← align b none
  let tBounds ← boundsRectangle aligned.controlPoints
  let angle ← PathUtilities.rawSlopeAngle b.controlPoints
  let translate ← Transform.rotateAndMove (0, 0) (← pyGet b.controlPoints 0) angle
  translate.applyToContour tBounds.contour

/-- PathLib/Bezier.py:360-361 `overlaps`. -/
noncomputable def overlaps (b curve : Bezier) : Py Bool := do
  let r1 ← boundsRectangle b.controlPoints
  let r2 ← boundsRectangle curve.controlPoints
  return (r1.intersection r2).isSome

/-! ### reduce -/

/-- PathLib/Bezier.py:588 `step`. -/
noncomputable def step : ℝ := 1 / 100

/-- PathLib/Bezier.py:578-585, the first pass: split at consecutive extrema. -/
noncomputable def reducePass1 (b : Bezier) (t1 : ℝ) (rest : List ℝ) : Py (List Bezier) :=
  match rest with
  | [] => return []
  | t2 :: rest => do
    let segment ← splitPiece b t1 t2
    return { segment with t1 := t1, t2 := t2 } :: (← reducePass1 b t2 rest)

/-- PathLib/Bezier.py:593-607, the two nested loops for one curve of the first pass, entered with `t2 = t1 + step`.
The result is the list of pieces appended and the final `t1`; `none` stands for the early `return []`. The additions are exact here: with
floating point numbers the sum of steps is rounded, which can add or drop a last step. The argument `h` is only used to
show termination. -/
noncomputable def reduceLoop (p1 : Bezier) (t1 t2 : ℝ) (h : t1 < t2) : Py (Option (List Bezier × ℝ)) :=
  if h2 : t2 ≤ 1 then do
    let segment ← splitPiece p1 t1 t2
    if !(← simple segment.controlPoints) then
      let t2' := t2 - step
      if hs : |t1 - t2'| < step then return none
      else do
        let segment ← splitPiece p1 t1 t2'
        let a ← butils.map t1 0 1 p1.t1 p1.t2
        let b ← butils.map t2' 0 1 p1.t1 p1.t2
        match ← reduceLoop p1 t2' (t2' + step) (by unfold step; linarith) with
        | none => return none
        | some (ps, tEnd) => return some ({ segment with t1 := a, t2 := b } :: ps, tEnd)
    else reduceLoop p1 t1 (t2 + step) (by unfold step; linarith)
  else return some ([], t1)
termination_by ⌊(3 - t1 - t2) * 100⌋₊
decreasing_by
  · have e : (3 - t2' - (t2' + step)) = (3 - t2' - t2) := by simp only [t2']; ring
    rw [e]
    have ht : t1 + step ≤ t2' := by
      rw [not_lt] at hs
      rcases le_abs.mp hs with h' | h'
      · exfalso; simp only [t2'] at h'; unfold step at h'; linarith
      · linarith
    have h1 : (3 - t2' - t2) * 100 + 1 ≤ (3 - t1 - t2) * 100 := by
      unfold step at ht; linarith
    have h3 : t2' ≤ 1 - step := by simp only [t2']; linarith
    have h0 : 0 ≤ (3 - t2' - t2) * 100 := by unfold step at h3; nlinarith
    have := Nat.floor_le_floor h1
    rw [Nat.floor_add_one h0] at this
    omega
  · have h1 : (3 - t1 - (t2 + step)) * 100 + 1 ≤ (3 - t1 - t2) * 100 := by
      unfold step; linarith
    have h0 : 0 ≤ (3 - t1 - (t2 + step)) * 100 := by unfold step; nlinarith
    have := Nat.floor_le_floor h1
    rw [Nat.floor_add_one h0] at this
    omega

/-- PathLib/Bezier.py:589-613, the second pass. -/
noncomputable def reducePass2 (pass1 : List Bezier) : Py (Option (List Bezier)) :=
  match pass1 with
  | [] => return some []
  | p1 :: rest => do
    match ← reduceLoop p1 0 (0 + step) (by unfold step; norm_num) with
    | none => return none
    | some (ps, t1) =>
      let last ← (if t1 < 1 then do
          let segment ← splitPiece p1 t1 1
          let a ← butils.map t1 0 1 p1.t1 p1.t2
          return [{ segment with t1 := a, t2 := p1.t2 }]
        else return [] : Py (List Bezier))
      match ← reducePass2 rest with
      | none => return none
      | some more => return some (ps ++ last ++ more)

/-- PathLib/Bezier.py:574-615 `reduce`, for the list `extrema[2]` found in the cache. -/
noncomputable def reduceWith (b : Bezier) (extrema : List ℝ) : Py (List Bezier) := do
  match addEnds extrema with
  | [] => .error .indexError
  | t1 :: rest =>
    let pass1 ← reducePass1 b t1 rest
    match ← reducePass2 pass1 with
    | none => return []
    | some pass2 => return pass2

/-- PathLib/Bezier.py:569-615 `reduce` (on fresh caches). -/
noncomputable def reduce (b : Bezier) : Py (List Bezier) := do
  reduceWith b (← extrema b.controlPoints).all

/-! ### Intersections -/

/-- PathLib/Bezier.py:645-666 `pairiteration`. `depth` is the number of nested calls Python still allows: when it is
used up the interpreter raises `RecursionError`. -/
noncomputable def pairiteration (depth : Nat) (c1 c2 : Bezier) (threshold : ℝ) : Py (List (Pt ℝ)) :=
  match depth with
  | 0 => .error .recursionError
  | depth + 1 => do
    let c1b ← boundsRectangle c1.controlPoints
    let c2b ← boundsRectangle c2.controlPoints
    let r : ℝ := 100000
    if c1b.height + c1b.width < threshold ∧ c2b.height + c2b.width < threshold then
      return [(r * (c1.t1 + c1.t2) / 2 / r, r * (c2.t1 + c2.t2) / 2 / r)]
    else
      let (cc1left, cc1right, _) ← split1 c1 (1 / 2)
      let (cc2left, cc2right, _) ← split1 c2 (1 / 2)
      let pairs := [(cc1left, cc2left), (cc1left, cc2right), (cc1right, cc2right), (cc1right, cc2left)]
      let pairs ← pairs.filterM fun pair => overlaps pair.1 pair.2
      let results ← pairs.mapM fun pair => pairiteration depth pair.1 pair.2 threshold
      return butils.removeDuplicates results.flatten

/-- PathLib/Bezier.py:668-685 `curveIntersects`. -/
noncomputable def curveIntersects (depth : Nat) (c1 c2 : List Bezier) (threshold : ℝ) :
    Py (List (Pt ℝ)) := do
  let pairs ← (c1.flatMap fun l => c2.map fun r => (l, r)).filterM fun pair => overlaps pair.1 pair.2
  let results ← pairs.mapM fun pair => pairiteration depth pair.1 pair.2 threshold
  return results.flatten

/-- PathLib/Bezier.py:687-701 `selfIntersects`. -/
noncomputable def selfIntersects (depth : Nat) (b : Bezier) (threshold : ℝ) : Py (List (Pt ℝ)) := do
  let reduced ← reduce b
  let results ← (List.range (reduced.length - 2)).mapM fun (i : Nat) =>
    curveIntersects depth ((reduced.drop i).take 1) (reduced.drop (i + 2)) threshold
  return results.flatten

/-- PathLib/Bezier.py:703-708 `intersects`. -/
noncomputable def intersects (depth : Nat) (b : Bezier) (curve : Option Bezier) (threshold : ℝ) :
    Py (List (Pt ℝ)) :=
  match curve with
  | none => selfIntersects depth b threshold
  | some c => do curveIntersects depth (← reduce b) (← reduce c) threshold

/-! ### Offsetting -/

/-- PathLib/Bezier.py:726-737 `raiseOrder`. -/
noncomputable def raiseOrder (b : Bezier) : Py Bezier := do new (← raiseOrderPoints b.controlPoints)

/-- PathLib/Bezier.py:746-751, `offset(t, d)` with a truthy `d`: `[c, n, p]`. -/
noncomputable def offsetPoint (ps : Segment ℝ) (t d : ℝ) : Py (Pt ℝ × Pt ℝ × Pt ℝ) := do
  let c ← get ps t
  let n ← normal ps t
  return (c, n, (c.1 + n.1 * d, c.2 + n.2 * d))

/-- The argument `d` of `scale`: a number or a function (PathLib/Bezier.py:762-763). -/
inductive Distance
  | const (d : ℝ)
  | fn (f : ℝ → ℝ)

/-- PathLib/Bezier.py:768-816 `scale` after the special case for quadratics. -/
noncomputable def scaleCore (b : Bezier) (d : Distance) : Py Bezier := do
  let ps := b.controlPoints
  let n : Nat := ps.length - 1
  let distanceFn : ℝ → ℝ := match d with
    | .const r => fun _ => r
    | .fn f => f
  let r1 := distanceFn 0
  let r2 := distanceFn 1
  let v0 ← offsetPoint ps 0 10
  let v1 ← offsetPoint ps 1 10
  match butils.lli4 v0.2.2 v0.1 v1.2.2 v1.1 with
  | none => .error .valueError
  | some o =>
    let p0 ← pyGet ps 0
    let pn ← pyGet ps (n : Int)
    let np : Segment ℝ := List.replicate (n + 1) (0, 0)
    let e0 := (p0.1 + r1 * v0.2.1.1, p0.2 + r1 * v0.2.1.2)
    let e1 := (pn.1 + r2 * v1.2.1.1, pn.2 + r2 * v1.2.1.2)
    let np := (np.set 0 e0).set n e1
    match d with
    | .fn _ =>
      let np ← (List.range 2).foldlM (fun np (t : Nat) => do
        if n = 2 ∧ t > 0 then return np
        else
          let p ← pyGet np (t * n : Nat)
          let dd ← derivative ps (t : ℝ)
          let p2 := (p.1 + dd.1, p.2 + dd.2)
          match butils.lli4 p p2 o (← pyGet ps ((t + 1 : Nat) : Int)) with
          | none => .error .typeError
          | some x => return np.set (t + 1) x) np
      new np
    | .const _ =>
      let np ← (List.range 2).foldlM (fun np (t : Nat) => do
        if n = 2 ∧ t > 0 then return np
        else
          let p ← pyGet ps ((t + 1 : Nat) : Int)
          let ov := (p.1 - o.1, p.2 - o.2)
          let rc := distanceFn (((t : ℝ) + 1) / (n : ℝ))
          let rc := if !b.clockwise then -rc else rc
          let m := butils.hypot ov.1 ov.2
          let ox ← pdiv ov.1 m
          let oy ← pdiv ov.2 m
          return np.set (t + 1) (p.1 + rc * ox, p.2 + rc * oy)) np
      new np

/-- PathLib/Bezier.py:762-816 `scale`. `lli4` returning `None` in the loop for functions makes `np` contain `None`,
and constructing the new curve then raises `TypeError` (`scaleCore`). -/
noncomputable def scale (b : Bezier) (d : Distance) : Py Bezier := do
  match d with
  | .const _ => scaleCore b d
  | .fn _ => if order b.controlPoints = 2 then scaleCore (← raiseOrder b) d else scaleCore b d

/-- PathLib/Bezier.py:754-756, `offset(t)` of a linear curve. -/
noncomputable def offsetLinear (b : Bezier) (t : ℝ) : Py Bezier := do
  let nv ← normal b.controlPoints 0
  new (b.controlPoints.map fun p => (p.1 + t * nv.1, p.2 + t * nv.2))

/-- PathLib/Bezier.py:753-759, `offset(t)` without a truthy `d`. -/
noncomputable def offsetCurves (b : Bezier) (t : ℝ) : Py (List Bezier) := do
  if b.linear then return [← offsetLinear b t]
  else
    (← reduce b).mapM fun r => if r.linear then offsetLinear r t else scale r (.const t)

/-- The two kinds of values `offset` returns (PathLib/Bezier.py:739-745). -/
inductive OffsetResult
  | points (c n p : Pt ℝ)
  | curves (l : List Bezier)

/-- PathLib/Bezier.py:745-759 `offset`; `d` is falsy when it is missing or zero. -/
noncomputable def offset (b : Bezier) (t : ℝ) (d : Option ℝ) : Py OffsetResult := do
  match d with
  | some d =>
    if d ≠ 0 then
      let (c, n, p) ← offsetPoint b.controlPoints t d
      return .points c n p
    else return .curves (← offsetCurves b t)
  | none => return .curves (← offsetCurves b t)

end Bezier
end PathLib
