import Verif.Model.MatrixInversion
import Verif.Model.BezierUtilities

/-!
# Model of PathLib/CurveFitting.py

The module-level table `binomialCoefficients` is shared, mutable state: functions that may extend it take the
table and return it next to their result.
-/

namespace PathLib
namespace CurveFitting

/-- PathLib/CurveFitting.py:19-26 `binomialCoefficients` as it is at import time. -/
def initialTable : List (List Int) :=
  [[1],
   [1, 1],
   [1, 2, 1],
   [1, 3, 3, 1],
   [1, 4, 6, 4, 1],
   [1, 5, 10, 10, 5, 1],
   [1, 6, 15, 20, 15, 6, 1]]

/-- PathLib/CurveFitting.py:28-34 `dist`. -/
noncomputable def dist (p1 p2 : Pt ℝ) : ℝ :=
  let dx := p1.1 - p2.1
  let dy := p1.2 - p2.2
  butils.hypot dx dy

/-- PathLib/CurveFitting.py:40-44, building the next row: `[1]`, then the sums, then `1`. -/
def nextRow (lut : List (List Int)) : Py (List Int) := do
  let prev : Int := (lut.length : Int) - 1
  let sums ← (List.range' 1 (lut.length - 1)).mapM fun (i : Nat) => do
    let a ← pyGet (← pyGet lut prev) ((i : Int) - 1)
    let b ← pyGet (← pyGet lut prev) (i : Int)
    return a + b
  return 1 :: sums ++ [1]

/-- PathLib/CurveFitting.py:39-45, the `while n >= len(lut)` loop. -/
def grow (n : Int) (lut : List (List Int)) : Py Unit × List (List Int) :=
  if n ≥ lut.length then
    match nextRow lut with
    | .error e => (.error e, lut)
    | .ok row => grow n (lut ++ [row])
  else (.ok (), lut)
termination_by (n + 1 - lut.length).toNat
decreasing_by simp_wf; omega

/-- PathLib/CurveFitting.py:36-46 `binomial`: the result and the table afterwards. -/
def binomial (lut : List (List Int)) (n k : Int) : Py Int × List (List Int) :=
  if n = 0 then (.ok 1, lut)
  else
    match grow n lut with
    | (.error e, lut) => (.error e, lut)
    | (.ok (), lut) => (do pyGet (← pyGet lut n) k, lut)

section field
variable {K : Type} [Field K] [LinearOrder K]

/-- PathLib/CurveFitting.py:48-49 `getPointValuesColumn(points, 0)`. -/
def columnX (points : List (Pt K)) : Mat K := points.map fun p => [p.1]

/-- PathLib/CurveFitting.py:48-49 `getPointValuesColumn(points, 1)`. -/
def columnY (points : List (Pt K)) : Mat K := points.map fun p => [p.2]

/-- PathLib/CurveFitting.py:65-66 `raiseRowPower` for a non-negative power. -/
def raiseRowPower (row : Row K) (i : Nat) : Row K := row.map fun v => v ^ i

/-- PathLib/CurveFitting.py:107-115 `transpose`. -/
def transpose (m : Mat K) : Py (Mat K) := do
  let r0 ← pyGet m 0
  (List.range r0.length).mapM fun (column : Nat) =>
    (List.range m.length).mapM fun (row : Nat) => do
      pyGet (← pyGet m (row : Int)) (column : Int)

/-- PathLib/CurveFitting.py:117-125 `formTMatrix`; a missing or zero `n` is replaced by `len(s)`. -/
def formTMatrix (s : Row K) (n : Option Nat) : Py (Mat K × Mat K) := do
  let n := match n with
    | none => s.length
    | some 0 => s.length
    | some n => n
  let tp := (List.range n).map fun i => raiseRowPower s i
  return (tp, ← transpose tp)

/-- PathLib/CurveFitting.py:130-131 `col`. -/
def col (m : Mat K) (i : Nat) : Py (Row K) := m.mapM fun r => pyGet r (i : Int)

/-- PathLib/CurveFitting.py:159-161, the scalar product loop: `_col[i] * _row[i]` for `i < len(_row)`. -/
def dotLoop (c r : Row K) : Py K :=
  (List.range r.length).foldlM (fun a (i : Nat) => do
    let x ← pyGet c (i : Int)
    let y ← pyGet r (i : Int)
    return a + x * y) 0

/-- PathLib/CurveFitting.py:150-166 `multiply` (`row(M1, r)` is `M1[r]`, so the outer loop goes over the rows). -/
def multiply (M1 M2 : Mat K) : Py (Mat K) :=
  M1.mapM fun r => do
    let m20 ← pyGet M2 0
    (List.range m20.length).mapM fun (c : Nat) => do
      dotLoop (← col M2 c) r

/-- `multiply` where the first argument may be the `None` returned by `matrixInvert`: `len(None)` raises
`TypeError`. -/
def multiplyOpt (M1 : Option (Mat K)) (M2 : Mat K) : Py (Mat K) :=
  match M1 with
  | none => .error .typeError
  | some M1 => multiply M1 M2

/-- PathLib/CurveFitting.py:168-181 `bestFit`; a missing or zero `n` is replaced by `len(P)`. -/
def bestFit (P : List (Pt K)) (M : Mat K) (S : List K) (n : Option Nat := none) : Py (Mat K × Mat K) := do
  let n := match n with
    | none => P.length
    | some 0 => P.length
    | some n => n
  let (Tt, T) ← formTMatrix S (some n)
  let M1 ← MatrixInversion.matrixInvert M
  let TtT1 ← MatrixInversion.matrixInvert (← multiply Tt T)
  let step1 ← multiplyOpt TtT1 Tt
  let step2 ← multiplyOpt M1 step1
  let Cx ← multiply step2 (columnX P)
  let Cy ← multiply step2 (columnY P)
  return (Cx, Cy)

end field

/-- PathLib/CurveFitting.py:95-96, populating the diagonal; `none` for the matrix means that a `binomial` call
raised. The entries of `m` are functions of row and column, as in `MatrixInversion`. -/
def diagonalLoop (k : Int) (is : List Nat) (m : Nat → Nat → Int) (lut : List (List Int)) :
    Py (Nat → Nat → Int) × List (List Int) :=
  match is with
  | [] => (.ok m, lut)
  | i :: is =>
    match binomial lut k (i : Int) with
    | (.error e, lut) => (.error e, lut)
    | (.ok v, lut) => diagonalLoop k is (MatrixInversion.set2 m i i v) lut

/-- PathLib/CurveFitting.py:99-103, the remaining values; the list holds the pairs `(c, r)` in loop order. -/
def fillLoop (crs : List (Nat × Nat)) (m : Nat → Nat → Int) (lut : List (List Int)) :
    Py (Nat → Nat → Int) × List (List Int) :=
  match crs with
  | [] => (.ok m, lut)
  | (c, r) :: crs =>
    let sign : Int := if (r + c) % 2 = 0 then 1 else -1
    match binomial lut (r : Int) (c : Int) with
    | (.error e, lut) => (.error e, lut)
    | (.ok b, lut) =>
      let value := b * m r r
      fillLoop crs (MatrixInversion.set2 m r c (sign * value)) lut

/-- The pairs `(c, r)` visited by PathLib/CurveFitting.py:99-100. -/
def fillOrder (n : Nat) : List (Nat × Nat) :=
  (List.range n).flatMap fun c => (List.range' (c + 1) (n - (c + 1))).map fun r => (c, r)

/-- PathLib/CurveFitting.py:68-105 `basisMatrix`: the (integer) matrix and the binomial table afterwards. -/
def basisMatrix (lut : List (List Int)) (n : Nat) : Py (Mat Int) × List (List Int) :=
  let m : Nat → Nat → Int := fun _ _ => 0
  let k : Int := (n : Int) - 1
  match diagonalLoop k (List.range n) m lut with
  | (.error e, lut) => (.error e, lut)
  | (.ok m, lut) =>
    match fillLoop (fillOrder n) m lut with
    | (.error e, lut) => (.error e, lut)
    | (.ok m, lut) =>
      (.ok ((List.range n).map fun i => (List.range n).map fun j => m i j), lut)

/-- PathLib/CurveFitting.py:55-57, the cumulative distances `d` for `i` in `is`. -/
noncomputable def cumulative (p : List (Pt ℝ)) (is : List Nat) (d : List ℝ) : Py (List ℝ) :=
  is.foldlM (fun d (i : Nat) => do
    let prev ← pyGet d ((i : Int) - 1)
    let a ← pyGet p ((i : Int) - 1)
    let b ← pyGet p (i : Int)
    return d ++ [prev + dist a b]) d

/-- PathLib/CurveFitting.py:51-62 `computeTimeValues`; a missing or zero `n` is replaced by `len(p)`. -/
noncomputable def computeTimeValues (p : List (Pt ℝ)) (n : Option Int) (polygonal : Bool) :
    Py (List ℝ) := do
  let n : Int := match n with
    | none => p.length
    | some n => if n = 0 then p.length else n
  if polygonal then
    let d ← cumulative p (List.range' 1 (n.toNat - 1)) [0]
    let length ← pyGet d (n - 1)
    d.mapM fun v => pdiv v length
  else
    (List.range n.toNat).mapM fun (i : Nat) => pdiv (i : ℝ) ((n : ℝ) - 1)

/-- PathLib/CurveFitting.py:183-189 `fit`: `(points, m, s, (Cx, Cy))` and the binomial table afterwards. -/
noncomputable def fit (lut : List (List Int)) (points : List (Pt ℝ)) (polygonal : Bool) :
    Py (List (Pt ℝ) × Mat Int × List ℝ × (Mat ℝ × Mat ℝ)) × List (List Int) :=
  let n := points.length
  match basisMatrix lut n with
  | (.error e, lut) => (.error e, lut)
  | (.ok m, lut) =>
    (do
      let s ← computeTimeValues points none polygonal
      let c ← bestFit points (m.map fun r => r.map fun (v : Int) => (v : ℝ)) s
      return (points, m, s, c), lut)

end CurveFitting
end PathLib
