import Verif.Model.Bezier

/-!
# Model of PathLib/Bezier.py, part 4: `BContour` and `BOutline`

A method of `BContour` that changes the object returns its result (or exception) and the object afterwards. The `Bezier` objects
inside a contour are represented without their caches: by `C38_uncached` their `boundsRectangle` and `getLUT(steps)` are the
uncached values after every history of calls. Strings are lists of characters.
-/

namespace PathLib

/-- Python's index normalisation in `l[i] = x` and `del l[i]`: `IndexError` when out of range. -/
def pyIndex (n : Nat) (i : Int) : Py Nat :=
  let j : Int := if i < 0 then i + n else i
  if 0 ≤ j ∧ j < n then .ok j.toNat else .error .indexError

/-- PathLib/Bezier.py:818-833: the attributes of a `BContour`. -/
structure BContour where
  beziers : List Bezier
  bounds : BoundsRectangle ℝ
  lut : List (Pt ℝ)
  start : Pt ℝ
  stop : Pt ℝ

namespace BContour
open Bezier

/-- PathLib/Bezier.py:231-232 `Bezier.start`. -/
def bezierStart (b : Bezier) : Py (Pt ℝ) := pyGet b.controlPoints 0

/-- PathLib/Bezier.py:243-244 `Bezier.end`. -/
def bezierEnd (b : Bezier) : Py (Pt ℝ) := pyGet b.controlPoints (-1)

/-- PathLib/Bezier.py:823-826: the loop of the constructor. -/
noncomputable def build (contour : Contour ℝ) : Py (List Bezier × BoundsRectangle ℝ) :=
  contour.foldlM (fun (acc : List Bezier × BoundsRectangle ℝ) segment => do
    let bezier ← Bezier.new segment
    let r ← boundsRectangle bezier.controlPoints
    return (acc.1 ++ [bezier], acc.2.union r)) ([], BoundsRectangle.new [])

/-- PathLib/Bezier.py:819-832 `BContour.__init__`. -/
noncomputable def new (contour : Contour ℝ) : Py BContour := do
  let (beziers, bounds) ← build contour
  let start ← bezierStart (← pyGet beziers 0)
  let stop ← bezierEnd (← pyGet beziers (-1))
  return { beziers := beziers, bounds := bounds, lut := [], start := start, stop := stop }

/-- PathLib/Bezier.py:834-835 `__getitem__`. -/
def getitem (c : BContour) (index : Int) : Py Bezier := pyGet c.beziers index

/-- PathLib/Bezier.py:847-848 `__iter__`: the items in order. -/
def iter (c : BContour) : List Bezier := c.beziers

/-- PathLib/Bezier.py:840-841 and 845-846: `_start` and `_end` are set again, in this order. -/
def resetEnds (c : BContour) : Py Unit × BContour :=
  match (do bezierStart (← pyGet c.beziers 0)) with
  | .error e => (.error e, c)
  | .ok start =>
    let c := { c with start := start }
    match (do bezierEnd (← pyGet c.beziers (-1))) with
    | .error e => (.error e, c)
    | .ok stop => (.ok (), { c with stop := stop })

/-- PathLib/Bezier.py:837-841 `__setitem__`. -/
noncomputable def setitem (index : Int) (value : Segment ℝ) (c : BContour) : Py Unit × BContour :=
  match (do return (← Bezier.new value, ← pyIndex c.beziers.length index) : Py (Bezier × Nat)) with
  | .error e => (.error e, c)
  | .ok (b, i) => resetEnds { c with beziers := c.beziers.set i b }

/-- PathLib/Bezier.py:843-847 `__delitem__`. -/
def delitem (index : Int) (c : BContour) : Py Unit × BContour :=
  match pyIndex c.beziers.length index with
  | .error e => (.error e, c)
  | .ok i => resetEnds { c with beziers := c.beziers.eraseIdx i }

/-- PathLib/Bezier.py:856-860: the loop of `getLUT`, from the table built so far. -/
noncomputable def lutLoop (steps : Int) : List Bezier → Nat → List (Pt ℝ) → Py Unit × List (Pt ℝ)
  | [], _, lut => (.ok (), lut)
  | curve :: rest, startPoint, lut =>
    match lutOf curve.controlPoints steps with
    | .error e => (.error e, lut)
    | .ok l => lutLoop steps rest 1 (lut ++ l.drop startPoint)

/-- PathLib/Bezier.py:852-862 `getLUT`. -/
noncomputable def getLUT (steps : Int) (c : BContour) : Py (List (Pt ℝ)) × BContour :=
  if (c.lut.length : Int) = steps then (.ok c.lut, c)
  else
    match lutLoop steps c.beziers 0 [] with
    | (.error e, lut) => (.error e, { c with lut := lut })
    | (.ok _, lut) => (.ok lut, { c with lut := lut })

/-- PathLib/Bezier.py:864-877 `_findClosest`. -/
noncomputable def findClosest (point : Pt ℝ) (LUT : List (Pt ℝ)) : Int :=
  ((List.range LUT.length).foldl (fun (acc : ℝ × Int) (index : Nat) =>
    let p := LUT.getD index (0, 0)
    let dist := butils.hypot (p.1 - point.1) (p.2 - point.2)
    if dist < acc.1 then (dist, (index : Int)) else acc) (maxSafe, -1)).2

/-- The local variables of `_refineBinary` (PathLib/Bezier.py:880-886). -/
structure Refine where
  i : Int
  lut : List (Pt ℝ)
  tt : List ℝ
  q : Pt ℝ
  closest : ℝ

/-- PathLib/Bezier.py:900-908: one round of `for j in range(1, 4)`. `lut` and `tt` are `new_lut` and `new_tt`. -/
noncomputable def refineInner (point : Pt ℝ) (ps : Segment ℝ) (t1 step : ℝ) (r : Refine) (j : Nat) : Py Refine := do
  let nt := t1 + (j : ℝ) * step
  let n ← get ps nt
  let dist := butils.hypot (n.1 - point.1) (n.2 - point.2)
  let r := if dist < r.closest then { r with closest := dist, q := n, i := (j : Int) } else r
  return { r with lut := r.lut ++ [n], tt := r.tt ++ [nt] }

/-- PathLib/Bezier.py:888-914: the loop of `_refineBinary`. -/
noncomputable def refineLoop (point : Pt ℝ) (ps : Segment ℝ) : Nat → Refine → Py Refine
  | 0, r => .ok r
  | n + 1, r => do
    let steps : Int := r.lut.length
    let i1 := if r.i = 0 then 0 else r.i - 1
    let i2 := if r.i = steps - 1 then r.i else r.i + 1
    let t1 ← pyGet r.tt i1
    let t2 ← pyGet r.tt i2
    let step := (t2 - t1) / 5
    if step < 1 / 1000 then return r
    else
      let r' ← [1, 2, 3].foldlM (refineInner point ps t1 step) { r with lut := [← pyGet r.lut i1], tt := [← pyGet r.tt i1] }
      refineLoop point ps n { r' with lut := r'.lut ++ [← pyGet r.lut i2], tt := r'.tt ++ [← pyGet r.tt i2] }

/-- PathLib/Bezier.py:879-916 `_refineBinary`. -/
noncomputable def refineBinary (point : Pt ℝ) (ps : Segment ℝ) (lut : List (Pt ℝ)) (i : Int) : Py (Pt ℝ × ℝ) := do
  let tt ← (List.range lut.length).mapM fun (t : Nat) => pdiv (t : ℝ) ((lut.length : ℝ) - 1)
  let r ← refineLoop point ps 25 { i := i, lut := lut, tt := tt, q := (0, 0), closest := maxSafe }
  return (r.q, r.closest)

/-- PathLib/Bezier.py:918-934: which curve, which second curve, and the index on the first. Python's `//` and `%` round down. -/
noncomputable def pick (beziers : List Bezier) (steps i : Int) : Py (Bezier × Option Bezier × Int) := do
  let nCurves : Int := beziers.length
  if i < steps then
    let curve ← pyGet beziers 0
    if i = steps - 1 ∧ 2 ≤ nCurves then return (curve, some (← pyGet beziers 1), i)
    else return (curve, none, i)
  else
    let i := i - steps
    let s1 := steps - 1
    if s1 = 0 then .error .zeroDivisionError
    else
      let ix := Int.fdiv i s1 + 1
      let curve ← pyGet beziers ix
      let curve2 ← (if ix < nCurves - 1 then do return some (← pyGet beziers (ix + 1)) else return none : Py (Option Bezier))
      return (curve, curve2, Int.fmod i s1)

/-- PathLib/Bezier.py:935-948: the rest of `findClosestPoint`. -/
noncomputable def closestOn (point : Pt ℝ) (steps : Int) (curve : Bezier) (curve2 : Option Bezier) (i : Int) :
    Py (ℝ × Pt ℝ) := do
  let lut ← lutOf curve.controlPoints steps
  let (cip, closest) ← refineBinary point curve.controlPoints lut i
  match curve2 with
  | none => return (closest, cip)
  | some curve2 =>
    let lut ← lutOf curve2.controlPoints steps
    let (cip2, c2) ← refineBinary point curve2.controlPoints lut 0
    if c2 < closest then return (c2, cip2) else return (closest, cip)

/-- PathLib/Bezier.py:918-948 `findClosestPoint`. -/
noncomputable def findClosestPoint (point : Pt ℝ) (steps : Int) (c : BContour) : Py (ℝ × Pt ℝ) × BContour :=
  match getLUT steps c with
  | (.error e, c) => (.error e, c)
  | (.ok lut, c) =>
    (do
      let (curve, curve2, i) ← pick c.beziers steps (findClosest point lut)
      closestOn point steps curve curve2 i, c)

section svg
variable {K : Type} [DecidableEq K]

/-- PathLib/Bezier.py:949-950 `pointToString`, where `str` is Python's `str` on coordinates. -/
def pointToString (str : K → List Char) (p : Pt K) : List Char := str p.1 ++ ',' :: str p.2

/-- PathLib/Bezier.py:963-964 `getCommand`; `none` is the initial `lastCommand` `""`. -/
def getCommand (command : Char) (lastCommand : Option Char) : Char :=
  if lastCommand = some command then ' ' else command

/-- The local variables of `d` (PathLib/Bezier.py:958-961). -/
structure Path (K : Type) where
  commands : List (List Char)
  lastCommand : Option Char
  pen : Pt K

/-- `command, lastCommand = getCommand(name, lastCommand)`, `commands.append(command + text)` and the new pen. -/
def Path.emit (st : Path K) (name : Char) (text : List Char) (pen : Pt K) : Path K :=
  { commands := st.commands ++ [getCommand name st.lastCommand :: text], lastCommand := some name, pen := pen }

/-- PathLib/Bezier.py:966-999: the body of the loop of `d`. -/
def dStep (str : K → List Char) (st : Path K) (segment : Segment K) : Path K :=
  match segment with
  | [_, p] =>
    if st.pen.1 = p.1 ∧ st.pen.2 = p.2 then st
    else if st.pen.1 = p.1 then st.emit 'V' (str p.2) p
    else if st.pen.2 = p.2 then st.emit 'H' (str p.1) p
    else st.emit 'L' (pointToString str p) p
  | [_, p1, p2] => st.emit 'Q' (pointToString str p1 ++ ' ' :: pointToString str p2) p2
  | [_, p1, p2, p3] =>
    st.emit 'C' (pointToString str p1 ++ ' ' :: pointToString str p2 ++ ' ' :: pointToString str p3) p3
  | _ => st

/-- PathLib/Bezier.py:952-1003 `d`, from `start` and the control points of the curves. -/
def dOf (str : K → List Char) (start : Pt K) (segments : List (Segment K)) : List Char :=
  (segments.foldl (dStep str) { commands := ['M' :: pointToString str start], lastCommand := none, pen := start }).commands.flatten

end svg

/-- PathLib/Bezier.py:952-1003 `d`. -/
noncomputable def d (str : ℝ → List Char) (c : BContour) : List Char := dOf str c.start (c.beziers.map (·.controlPoints))

end BContour

/-- PathLib/Bezier.py:1029-1042: the attributes of a `BOutline`. -/
structure BOutline where
  bContours : List BContour
  bounds : BoundsRectangle ℝ

namespace BOutline

/-- PathLib/Bezier.py:1032-1042 `BOutline.__init__`. -/
noncomputable def new (contours : List (Contour ℝ)) : Py BOutline := do
  let (bContours, bounds) ← contours.foldlM (fun (acc : List BContour × BoundsRectangle ℝ) contour => do
    let bc ← BContour.new contour
    return (acc.1 ++ [bc], acc.2.union bc.bounds)) ([], BoundsRectangle.new [])
  return { bContours := bContours, bounds := bounds }

/-- PathLib/Bezier.py:1060-1069 `unzipPoints`. -/
def unzipPoints {K : Type} (points : List (Pt K)) : List K × List K :=
  points.foldl (fun acc p => (acc.1 ++ [p.1], acc.2 ++ [p.2])) ([], [])

/-- PathLib/Bezier.py:1056-1058 `segmentFromPoints`. -/
noncomputable def segmentFromPoints (points : List (Pt ℝ)) : Py Bezier := Bezier.new points

/-- PathLib/Bezier.py:1071-1073 `pathFromSegments`. -/
noncomputable def pathFromSegments (segments : List Bezier) : Py BContour :=
  BContour.new (segments.map (·.controlPoints))

end BOutline

end PathLib
