import Verif.Py
import Mathlib.Analysis.SpecialFunctions.Pow.Real
import Mathlib.Analysis.SpecialFunctions.Complex.Arg

/-!
# Model of PathLib/BezierUtilities.py

The Gauss-Legendre tables `tValues`, `cValues` (lines 20-73) are in `Verif/Model/Legendre.lean`.
-/

namespace PathLib

namespace butils

section field
variable {K : Type} [Field K] [LinearOrder K]

/-- PathLib/BezierUtilities.py:76 `epsilon = 0.000001`. -/
def epsilon : K := 1 / 1000000

/-- PathLib/BezierUtilities.py:84-86 `approximately` (default precision). -/
def approximately (a b : K) : Bool := decide (|a - b| ≤ epsilon)

/-- PathLib/BezierUtilities.py:88-89 `between`. -/
def between (v m M : K) : Bool :=
  (decide (m ≤ v) && decide (v ≤ M)) || (approximately v m || approximately v M)

/-- PathLib/BezierUtilities.py:125-133 `lli8`. -/
def lli8 (x1 y1 x2 y2 x3 y3 x4 y4 : K) : Option (Pt K) :=
  let nx := (x1 * y2 - y1 * x2) * (x3 - x4) - (x1 - x2) * (x3 * y4 - y3 * x4)
  let ny := (x1 * y2 - y1 * x2) * (y3 - y4) - (y1 - y2) * (x3 * y4 - y3 * x4)
  let d := (x1 - x2) * (y3 - y4) - (y1 - y2) * (x3 - x4)
  if d = 0 then none else some (nx / d, ny / d)

/-- PathLib/BezierUtilities.py:136-141 `lli4`. -/
def lli4 (p1 p2 p3 p4 : Pt K) : Option (Pt K) :=
  lli8 p1.1 p1.2 p2.1 p2.2 p3.1 p3.2 p4.1 p4.2

/-- PathLib/BezierUtilities.py:144-145 `lli`. -/
def lli (l1 l2 : Segment K) : Py (Option (Pt K)) := do
  return lli4 (← pyGet l1 0) (← pyGet l1 1) (← pyGet l2 0) (← pyGet l2 1)

/-- PathLib/BezierUtilities.py:179-183 `lerp`. -/
def lerp (r : K) (v1 v2 : Pt K) : Pt K :=
  (v1.1 + r * (v2.1 - v1.1), v1.2 + r * (v2.2 - v1.2))

/-- PathLib/BezierUtilities.py:185-189 `quadraticRatio`. -/
def quadraticRatio (t : K) : Py K := do
  let t2 := 2 * t
  let top := t2 * t - t2
  let bottom := top + 1
  return |← pdiv top bottom|

/-- PathLib/BezierUtilities.py:191-197 `cubicRatio`. -/
def cubicRatio (t : K) : Py K := do
  let mt := 1 - t
  let t3 := t * t * t
  let mt3 := mt * mt * mt
  let bottom := t3 + mt3
  let top := bottom - 1
  return |← pdiv top bottom|

/-- PathLib/BezierUtilities.py:199-209 `map`. -/
def map (v ds de ts te : K) : Py K := do
  let d1 := de - ds
  let d2 := te - ts
  let v2 := v - ds
  let r ← pdiv v2 d1
  return ts + d2 * r

end field

/-- PathLib/BezierUtilities.py:106-123 `removeDuplicates`: keep `l[i]` when `l.index(l[i]) == i`. -/
def removeDuplicates {α : Type} [DecidableEq α] (l : List α) : List α :=
  (List.range l.length).foldl
    (fun result i =>
      match l[i]? with
      | some v => if l.idxOf v = i then result ++ [v] else result
      | none => result) []

section real

/-- PathLib/BezierUtilities.py:91-100 `sqrt`; `none` is `math.nan`, returned for negative arguments. -/
noncomputable def sqrt (x : ℝ) : Option ℝ := if x < 0 then none else some (Real.sqrt x)

/-- PathLib/BezierUtilities.py:102-104 `crt`. -/
noncomputable def crt (v : ℝ) : ℝ :=
  if v < 0 then -(Real.rpow (-v) (1 / 3)) else Real.rpow v (1 / 3)

/-- `math.atan2(y, x)` (signed zeros not modelled). -/
noncomputable def atan2 (y x : ℝ) : ℝ := Complex.arg ⟨x, y⟩

/-- `math.hypot(x, y)`. -/
noncomputable def hypot (x y : ℝ) : ℝ := Real.sqrt (x * x + y * y)

/-- PathLib/BezierUtilities.py:148-176 `droots`. NaN entries (from a negative radicand) are `none`.
The divisions are guarded by the tests in front of them (`d != 0`, `b != c`, `a != b`). -/
noncomputable def droots (p : List ℝ) : List (Option ℝ) :=
  match p with
  | [a, b, c] =>
    let d := a - 2 * b + c
    if d ≠ 0 then
      let m1 := (sqrt (b * b - a * c)).map fun s => -s
      let m2 := -a + b
      let v1 := m1.map fun m1 => -(m1 + m2) / d
      let v2 := m1.map fun m1 => -(-m1 + m2) / d
      [v1, v2]
    else if b ≠ c ∧ d = 0 then
      [some ((2 * b - c) / (2 * (b - c)))]
    else []
  | [a, b] => if a ≠ b then [some (a / (a - b))] else []
  | _ => []

/-- PathLib/BezierUtilities.py:211-222 `angle`. -/
noncomputable def angle (o v1 v2 : Pt ℝ) : ℝ :=
  let dx1 := v1.1 - o.1
  let dy1 := v1.2 - o.2
  let dx2 := v2.1 - o.1
  let dy2 := v2.2 - o.2
  let cross := dx1 * dy2 - dy1 * dx2
  let dot := dx1 * dx2 + dy1 * dy2
  atan2 cross dot

end real

end butils

end PathLib
