import Verif.Model.Transform

/-!
# Model of PathLib/MatrixInversion.py

The two working matrices `C` and `I` (lists of lists that are updated in place) are modelled by functions
`Nat → Nat → K` of row and column; every read and write of the loops is at an index below `n`, so that
out-of-range entries are never observed. The input is a list of lists, as in the code.
-/

namespace PathLib
namespace MatrixInversion

variable {K : Type} [Field K] [LinearOrder K]

/-- The assignment `A[i][j] = v` on a working matrix. -/
def set2 {α : Type} (A : Nat → Nat → α) (i j : Nat) (v : α) : Nat → Nat → α :=
  fun i' j' => if i' = i ∧ j' = j then v else A i' j'

/-- The two working matrices. -/
structure St (K : Type) where
  C : Nat → Nat → K
  I : Nat → Nat → K

/-- PathLib/MatrixInversion.py:61-66, the body of the swapping loop for one column `j`. -/
def swapCol (i ii : Nat) (st : St K) (j : Nat) : St K :=
  let e := st.C i j
  let C := set2 st.C i j (st.C ii j)
  let C := set2 C ii j e
  let e := st.I i j
  let I := set2 st.I i j (st.I ii j)
  let I := set2 I ii j e
  ⟨C, I⟩

/-- PathLib/MatrixInversion.py:60-66, swapping rows `i` and `ii`. -/
def swapRows (n i ii : Nat) (st : St K) : St K := (List.range n).foldl (swapCol i ii) st

/-- PathLib/MatrixInversion.py:54-69, looking for the first row below `i` with a non-zero entry in
column `i`, swapping, and leaving the loop (`break`). -/
def pivot (n i : Nat) (st : St K) : St K :=
  if st.C i i = 0 then
    match (List.range' (i + 1) (n - (i + 1))).find? (fun ii => decide (st.C ii i ≠ 0)) with
    | some ii => swapRows n i ii st
    | none => st
  else st

/-- PathLib/MatrixInversion.py:77-78, the body of the scaling loop. -/
def scaleCol (i : Nat) (e : K) (st : St K) (j : Nat) : St K :=
  ⟨set2 st.C i j (st.C i j / e), set2 st.I i j (st.I i j / e)⟩

/-- PathLib/MatrixInversion.py:76-78, dividing row `i` by `e`. -/
def scaleRow (n i : Nat) (e : K) (st : St K) : St K := (List.range n).foldl (scaleCol i e) st

/-- PathLib/MatrixInversion.py:95-96, the body of the elimination loop. -/
def elimCol (i ii : Nat) (e : K) (st : St K) (j : Nat) : St K :=
  ⟨set2 st.C ii j (st.C ii j - e * st.C i j), set2 st.I ii j (st.I ii j - e * st.I i j)⟩

/-- PathLib/MatrixInversion.py:83-96, one pass of the loop over `ii`: nothing for `ii == i`, else subtract
`C[ii][i]` times row `i` from row `ii`. -/
def elimRow (n i : Nat) (st : St K) (ii : Nat) : St K :=
  if ii = i then st
  else
    let e := st.C ii i
    (List.range n).foldl (elimCol i ii e) st

/-- PathLib/MatrixInversion.py:49-96, one pass of the main loop; `none` is `return None` (line 73). The divisor
is non-zero at the divisions. -/
def step (n : Nat) (st : St K) (i : Nat) : Option (St K) :=
  let st := pivot n i st
  let e := st.C i i
  if e = 0 then none
  else
    let st := scaleRow n i e st
    some ((List.range n).foldl (elimRow n i) st)

/-- A list of rows read as a working matrix. -/
def ofRows (M : Mat K) : Nat → Nat → K := fun i j => (M.getD i []).getD j 0

/-- The working matrix as a list of rows. -/
def toRows (n : Nat) (A : Nat → Nat → K) : Mat K :=
  (List.range n).map fun i => (List.range n).map fun j => A i j

/-- PathLib/MatrixInversion.py:15-100 `matrixInvert`. -/
def matrixInvert (M : Mat K) : Py (Option (Mat K)) := do
  let r0 ← pyGet M 0
  if M.length ≠ r0.length then return none
  let n := M.length
  let C ← (List.range n).mapM fun (row : Nat) => (List.range n).mapM fun (col : Nat) => do
    pyGet (← pyGet M (row : Int)) (col : Int)
  let I : Nat → Nat → K := fun row col => if row = col then 1 else 0
  match (List.range n).foldlM (step n) ⟨ofRows C, I⟩ with
  | none => return none
  | some st => return some (toRows n st.I)

end MatrixInversion
end PathLib
