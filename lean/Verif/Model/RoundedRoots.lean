import Verif.Model.RoundedAlign

/-!
# The zeros of a curve and its intersections with a line, in rounded arithmetic

`roots`, `lineIntersects` and `intersectWithLine` once more, with a rounding after every operation. The functions of the `math` module
are a parameter. No overflow, no underflow; a NaN is `none`, as in the exact model.
-/

namespace PathLib

/-- The functions of Python's `math` module which `roots` calls. -/
structure LibmRoots extends Libm where
  acos : ℝ → ℝ
  pow : ℝ → ℝ → ℝ

/-- The functions themselves, without rounding. -/
noncomputable def LibmRoots.exact : LibmRoots := ⟨Libm.exact, Real.arccos, Real.rpow⟩

namespace Rounded

open Spec Bezier

/-- PathLib/BezierUtilities.py:76 `epsilon = 0.000001`, a float. -/
noncomputable def epsilon (R : Rounding) : ℝ := R.rnd (1 / 1000000)

/-- PathLib/BezierUtilities.py:84-86 `approximately` (default precision). -/
noncomputable def approximately (R : Rounding) (a b : ℝ) : Bool := decide (|R.sub a b| ≤ epsilon R)

/-- PathLib/BezierUtilities.py:88-89 `between`. -/
noncomputable def between (R : Rounding) (v m M : ℝ) : Bool :=
  (decide (m ≤ v) && decide (v ≤ M)) || (approximately R v m || approximately R v M)

/-- PathLib/BezierUtilities.py:91-100 `sqrt`; NaN is `none`. -/
noncomputable def sqrtOrNan (R : Rounding) (x : ℝ) : Option ℝ := if x < 0 then none else some (sqrt R x)

/-- PathLib/BezierUtilities.py:102-104 `crt`. -/
noncomputable def crt (R : Rounding) (L : LibmRoots) (v : ℝ) : ℝ :=
  if v < 0 then -(L.pow (-v) (R.div 1 3)) else L.pow v (R.div 1 3)

/-- `math.acos`. -/
noncomputable def acos (L : LibmRoots) (x : ℝ) : Py ℝ := if x < -1 ∨ 1 < x then .error .valueError else .ok (L.acos x)

/-- PathLib/Bezier.py:463-464, the local function `reduce` of `roots`; the filter drops NaN (`none`). -/
noncomputable def keepRoots (R : Rounding) (l : List (Option ℝ)) : List ℝ :=
  l.filterMap fun t => t.filter fun t => (0 ≤ t ∧ t ≤ 1) ∨ approximately R t 0 ∨ approximately R t 1

/-- PathLib/Bezier.py:466-481, the quadratic case of `roots`. -/
noncomputable def quadraticRoots (R : Rounding) (a b c : ℝ) : Py (List ℝ) := do
  let d := R.add (R.sub a (R.mul 2 b)) c
  if d ≠ 0 then
    let m1 := (sqrtOrNan R (R.sub (R.mul b b) (R.mul a c))).map fun s => -s
    let m2 := R.add (-a) b
    let v1 := m1.map fun m1 => R.div (-R.add m1 m2) d
    let v2 := m1.map fun m1 => R.div (-R.add (-m1) m2) d
    return keepRoots R [v1, v2]
  else if b ≠ c ∧ d = 0 then
    return keepRoots R [some (← pdiv R (R.sub (R.mul 2 b) c) (R.sub (R.mul 2 b) (R.mul 2 c)))]
  else return []

/-- PathLib/Bezier.py:511-544, the cubic case of `roots` (`a`, `b` and `c` already divided by `d`). -/
noncomputable def cardano (R : Rounding) (L : LibmRoots) (a b c : ℝ) : Py (List ℝ) := do
  let p := R.div (R.sub (R.mul 3 b) (R.mul a a)) 3
  let p3 := R.div p 3
  let q := R.div (R.add (R.sub (R.mul (R.mul (R.mul 2 a) a) a) (R.mul (R.mul 9 a) b)) (R.mul 27 c)) 27
  let q2 := R.div q 2
  let discriminant := R.add (R.mul q2 q2) (R.mul (R.mul p3 p3) p3)
  if discriminant < 0 then
    let mp3 := R.div (-p) 3
    let mp33 := R.mul (R.mul mp3 mp3) mp3
    match sqrtOrNan R mp33 with
    | none => return []
    | some r =>
      let t ← pdiv R (-q) (R.mul 2 r)
      let cosphi := if t < -1 then -1 else if t > 1 then 1 else t
      let phi ← acos L cosphi
      let crtr := crt R L r
      let t1 := R.mul 2 crtr
      let tau := 2 * L.pi
      let x1 := R.sub (R.mul t1 (L.cos (R.div phi 3))) (R.div a 3)
      let x2 := R.sub (R.mul t1 (L.cos (R.div (R.add phi tau) 3))) (R.div a 3)
      let x3 := R.sub (R.mul t1 (L.cos (R.div (R.add phi (R.mul 2 tau)) 3))) (R.div a 3)
      return keepRoots R [some x1, some x2, some x3]
  else if approximately R discriminant 0 then
    let u1 := if q2 < 0 then crt R L (-q2) else -crt R L q2
    let x1 := R.sub (R.mul 2 u1) (R.div a 3)
    let x2 := R.sub (-u1) (R.div a 3)
    return keepRoots R [some x1, some x2]
  else
    match sqrtOrNan R discriminant with
    | none => return []
    | some sd =>
      let u1 := crt R L (R.add (-q2) sd)
      let v1 := crt R L (R.add q2 sd)
      return keepRoots R [some (R.sub (R.sub u1 v1) (R.div a 3))]

/-- PathLib/Bezier.py:483-544, the other cases of `roots`, from the ordinates of the control points. -/
noncomputable def cubicRoots (R : Rounding) (L : LibmRoots) (pa pb pc pd : ℝ) : Py (List ℝ) := do
  let d := R.add (R.sub (R.add (-pa) (R.mul 3 pb)) (R.mul 3 pc)) pd
  let a := R.add (R.sub (R.mul 3 pa) (R.mul 6 pb)) (R.mul 3 pc)
  let b := R.add (R.mul (-3) pa) (R.mul 3 pb)
  let c := pa
  if approximately R d 0 then
    if approximately R a 0 then
      if approximately R b 0 then return []
      else return keepRoots R [some (← pdiv R (-c) b)]
    else
      let a2 := R.mul 2 a
      match sqrtOrNan R (R.sub (R.mul b b) (R.mul (R.mul 4 a) c)) with
      | none => return []
      | some q => return keepRoots R [some (← pdiv R (R.sub q b) a2), some (← pdiv R (R.sub (-b) q) a2)]
  else cardano R L (← pdiv R a d) (← pdiv R b d) (← pdiv R c d)

/-- PathLib/Bezier.py:456-544 `roots`; a missing or empty `segment` is falsy. -/
noncomputable def roots (R : Rounding) (L : LibmRoots) (ps : Segment ℝ) (segment : Option (Segment ℝ)) : Py (List ℝ) := do
  let p ← (match segment with
    | some (s :: rest) => alignPoints R L.toLibm ps (s :: rest)
    | _ => return ps : Py (Segment ℝ))
  if order p = 2 then
    quadraticRoots R (← pyGet p 0).2 (← pyGet p 1).2 (← pyGet p 2).2
  else
    cubicRoots R L (← pyGet p 0).2 (← pyGet p 1).2 (← pyGet p 2).2 (← pyGet p 3).2

/-- PathLib/Bezier.py:617-630 `lineIntersects`; the filter calls `get` on every root. -/
noncomputable def lineIntersects (R : Rounding) (L : LibmRoots) (ps : Segment ℝ) (p1 p2 : Pt ℝ) : Py (List ℝ) := do
  let mx := pyMin p1.1 p2.1
  let my := pyMin p1.2 p2.2
  let MX := pyMax p1.1 p2.1
  let MY := pyMax p1.2 p2.2
  (← roots R L ps (some [p1, p2])).filterM fun t => do
    let c ← get R ps t
    return between R c.1 mx MX && between R c.2 my MY

/-- PathLib/Bezier.py:632-643 `intersectWithLine`, with the control points of `line`. -/
noncomputable def intersectWithLine (R : Rounding) (L : LibmRoots) (ps line : Segment ℝ) : Py (Option (Pt ℝ)) := do
  if order ps = 1 then lli R ps line
  else
    match ← roots R L ps (some line) with
    | [] => return none
    | r :: _ =>
      let root := if r < 0 then 0 else if r > 1 then 1 else r
      return some (← get R ps root)

end Rounded
end PathLib
