import Verif.Spec.Geometry
import Mathlib.Data.Nat.Choose.Basic
import Mathlib.Algebra.BigOperators.Intervals

/-!
# Specification vocabulary: Bernstein polynomials and Bézier curves

Independent of the model: a Bézier curve with control points `p 0 … p n` is the point-valued function
`t ↦ ∑ i, C(n,i) (1-t)^(n-i) t^i p i`.
-/

namespace PathLib.Spec
open Finset

variable {K : Type} [Field K]

/-- The `i`-th Bernstein polynomial of degree `n` at `t`. -/
def bern (n i : ℕ) (t : K) : K := (n.choose i : K) * (1 - t) ^ (n - i) * t ^ i

/-- The polynomial with Bernstein coefficients `c 0 … c n`, at `t`. -/
def bernSum (n : ℕ) (c : ℕ → K) (t : K) : K := ∑ i ∈ range (n + 1), bern n i t * c i

/-- The polynomial whose Bernstein coefficients are the entries of the list. -/
def bernList (l : List K) (t : K) : K := bernSum (l.length - 1) (fun i => l.getD i 0) t

/-- The point at `t` of the Bézier curve whose control points are `ps`. -/
def curve (ps : List (Pt K)) (t : K) : Pt K :=
  (bernList (ps.map Prod.fst) t, bernList (ps.map Prod.snd) t)

end PathLib.Spec
