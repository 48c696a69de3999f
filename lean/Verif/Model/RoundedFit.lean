import Verif.Model.Rounded
import Verif.Model.CurveFitting

/-!
# Curve fitting in rounded arithmetic

`Model/MatrixInversion.lean` and `Model/CurveFitting.lean` compute exactly; here every arithmetic operation on `float` numbers is
followed by a rounding. `math.pow` and `math.hypot` are taken to be correctly rounded. The entries of the basis matrix are Python
integers; as long as they are not larger than `2^53`, they are `float` numbers, too. Functions without arithmetic (searching and
swapping rows, transposing, the basis matrix) are taken over as they are. No overflow, no underflow, no signed zero.
-/

namespace PathLib
namespace Rounded

open Spec

namespace MatrixInversion

open PathLib.MatrixInversion (St set2 pivot ofRows toRows)

/-- PathLib/MatrixInversion.py:77-78, the body of the scaling loop. -/
noncomputable def scaleCol (R : Rounding) (i : Nat) (e : ℝ) (st : St ℝ) (j : Nat) : St ℝ :=
  ⟨set2 st.C i j (R.div (st.C i j) e), set2 st.I i j (R.div (st.I i j) e)⟩

/-- PathLib/MatrixInversion.py:76-78, dividing row `i` by `e`. -/
noncomputable def scaleRow (R : Rounding) (n i : Nat) (e : ℝ) (st : St ℝ) : St ℝ := (List.range n).foldl (scaleCol R i e) st

/-- PathLib/MatrixInversion.py:95-96, the body of the elimination loop. -/
noncomputable def elimCol (R : Rounding) (i ii : Nat) (e : ℝ) (st : St ℝ) (j : Nat) : St ℝ :=
  ⟨set2 st.C ii j (R.sub (st.C ii j) (R.mul e (st.C i j))), set2 st.I ii j (R.sub (st.I ii j) (R.mul e (st.I i j)))⟩

/-- PathLib/MatrixInversion.py:83-96, one pass of the loop over `ii`. -/
noncomputable def elimRow (R : Rounding) (n i : Nat) (st : St ℝ) (ii : Nat) : St ℝ :=
  if ii = i then st
  else
    let e := st.C ii i
    (List.range n).foldl (elimCol R i ii e) st

/-- PathLib/MatrixInversion.py:49-96, one pass of the main loop; `none` is `return None` (line 73). -/
noncomputable def step (R : Rounding) (n : Nat) (st : St ℝ) (i : Nat) : Option (St ℝ) :=
  let st := pivot n i st
  let e := st.C i i
  if e = 0 then none
  else
    let st := scaleRow R n i e st
    some ((List.range n).foldl (elimRow R n i) st)

/-- PathLib/MatrixInversion.py:15-100 `matrixInvert`. -/
noncomputable def matrixInvert (R : Rounding) (M : Mat ℝ) : Py (Option (Mat ℝ)) := do
  let r0 ← pyGet M 0
  if M.length ≠ r0.length then return none
  let n := M.length
  let C ← (List.range n).mapM fun (row : Nat) => (List.range n).mapM fun (col : Nat) => do
    pyGet (← pyGet M (row : Int)) (col : Int)
  let I : Nat → Nat → ℝ := fun row col => if row = col then 1 else 0
  match (List.range n).foldlM (step R n) ⟨ofRows C, I⟩ with
  | none => return none
  | some st => return some (toRows n st.I)

end MatrixInversion

namespace CurveFitting

open PathLib.CurveFitting (transpose col columnX columnY basisMatrix)

/-- PathLib/CurveFitting.py:28-34 `dist`. -/
noncomputable def dist (R : Rounding) (p1 p2 : Pt ℝ) : ℝ :=
  let dx := R.sub p1.1 p2.1
  let dy := R.sub p1.2 p2.2
  R.rnd (butils.hypot dx dy)

/-- PathLib/CurveFitting.py:55-57, the cumulative distances `d` for `i` in `is`. -/
noncomputable def cumulative (R : Rounding) (p : List (Pt ℝ)) (is : List Nat) (d : List ℝ) : Py (List ℝ) :=
  is.foldlM (fun d (i : Nat) => do
    let prev ← pyGet d ((i : Int) - 1)
    let a ← pyGet p ((i : Int) - 1)
    let b ← pyGet p (i : Int)
    return d ++ [R.add prev (dist R a b)]) d

/-- PathLib/CurveFitting.py:51-62 `computeTimeValues`; a missing or zero `n` is replaced by `len(p)`. -/
noncomputable def computeTimeValues (R : Rounding) (p : List (Pt ℝ)) (n : Option Int) (polygonal : Bool) :
    Py (List ℝ) := do
  let n : Int := match n with
    | none => p.length
    | some n => if n = 0 then p.length else n
  if polygonal then
    let d ← cumulative R p (List.range' 1 (n.toNat - 1)) [0]
    let length ← pyGet d (n - 1)
    d.mapM fun (v : ℝ) => pdiv R v length
  else
    (List.range n.toNat).mapM fun (i : Nat) => pdiv R (i : ℝ) ((n : ℝ) - 1)

/-- PathLib/CurveFitting.py:65-66 `raiseRowPower` for a non-negative power. -/
noncomputable def raiseRowPower (R : Rounding) (row : Row ℝ) (i : Nat) : Row ℝ := row.map fun (v : ℝ) => R.rnd (v ^ i)

/-- PathLib/CurveFitting.py:117-125 `formTMatrix`; a missing or zero `n` is replaced by `len(s)`. -/
noncomputable def formTMatrix (R : Rounding) (s : Row ℝ) (n : Option Nat) : Py (Mat ℝ × Mat ℝ) := do
  let n := match n with
    | none => s.length
    | some 0 => s.length
    | some n => n
  let tp := (List.range n).map fun (i : Nat) => raiseRowPower R s i
  return (tp, ← transpose tp)

/-- PathLib/CurveFitting.py:159-161, the scalar product loop. -/
noncomputable def dotLoop (R : Rounding) (c r : Row ℝ) : Py ℝ :=
  (List.range r.length).foldlM (fun a (i : Nat) => do
    let x ← pyGet c (i : Int)
    let y ← pyGet r (i : Int)
    return R.add a (R.mul x y)) 0

/-- PathLib/CurveFitting.py:150-166 `multiply`. -/
noncomputable def multiply (R : Rounding) (M1 M2 : Mat ℝ) : Py (Mat ℝ) :=
  M1.mapM fun (r : Row ℝ) => do
    let m20 ← pyGet M2 0
    (List.range m20.length).mapM fun (c : Nat) => do
      dotLoop R (← col M2 c) r

/-- `multiply` where the first argument may be the `None` returned by `matrixInvert`: `len(None)` raises `TypeError`. -/
noncomputable def multiplyOpt (R : Rounding) (M1 : Option (Mat ℝ)) (M2 : Mat ℝ) : Py (Mat ℝ) :=
  match M1 with
  | none => .error .typeError
  | some M1 => multiply R M1 M2

/-- PathLib/CurveFitting.py:168-181 `bestFit`; a missing or zero `n` is replaced by `len(P)`. -/
noncomputable def bestFit (R : Rounding) (P : List (Pt ℝ)) (M : Mat ℝ) (S : List ℝ) (n : Option Nat := none) :
    Py (Mat ℝ × Mat ℝ) := do
  let n := match n with
    | none => P.length
    | some 0 => P.length
    | some n => n
  let (Tt, T) ← formTMatrix R S (some n)
  let M1 ← MatrixInversion.matrixInvert R M
  let TtT1 ← MatrixInversion.matrixInvert R (← multiply R Tt T)
  let step1 ← multiplyOpt R TtT1 Tt
  let step2 ← multiplyOpt R M1 step1
  let Cx ← multiply R step2 (columnX P)
  let Cy ← multiply R step2 (columnY P)
  return (Cx, Cy)

/-- PathLib/CurveFitting.py:183-189 `fit`: `(points, m, s, (Cx, Cy))` and the binomial table afterwards. -/
noncomputable def fit (R : Rounding) (lut : List (List Int)) (points : List (Pt ℝ)) (polygonal : Bool) :
    Py (List (Pt ℝ) × Mat Int × List ℝ × (Mat ℝ × Mat ℝ)) × List (List Int) :=
  let n := points.length
  match basisMatrix lut n with
  | (.error e, lut) => (.error e, lut)
  | (.ok m, lut) =>
    (do
      let s ← computeTimeValues R points none polygonal
      let c ← bestFit R points (m.map fun r => r.map fun (v : Int) => (v : ℝ)) s
      return (points, m, s, c), lut)

end CurveFitting
end Rounded
end PathLib
