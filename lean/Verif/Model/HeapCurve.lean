import Verif.Model.Heap
import Verif.Model.BezierCache
import Verif.Model.BContour

/-!
# Lists as Python objects: Bezier.py

`Bezier(controlPoints)` keeps the list it is given. Here the control points, the lists of `dcPoints`, the three lists of `extrema` and the look-up table of a curve are lists on
the heap of `Verif/Model/Heap.lean`.

Simplifications, besides the ones stated there: the dictionaries `extrema` and `bbox` and the rectangle are values (the lists inside `extrema` are not); a method that reads
several items of a list reads the list once; the curves that `reduce` returns are values (their lists are new).
-/

namespace PathLib
namespace Heap

/-- PathLib/Bezier.py:41-63: a `Bezier` object; `points`, `dc`, `ext` and `lut` are addresses of lists. -/
structure Curve where
  points : Nat
  t1 : ℝ
  t2 : ℝ
  direction : Bezier.Dir
  linear : Bool
  clockwise : Bool
  dc : Option Nat := none
  ext : Option (Nat × Nat × Nat) := none
  len : Option ℝ := none
  box : Option ((ℝ × ℝ) × (ℝ × ℝ)) := none
  rect : Option (BoundsRectangle ℝ) := none
  lut : Nat

/-- A curve, the precision of the decimal context, and all lists. -/
structure Place where
  curve : Curve
  prec : Int
  heap : Heap ℝ

/-- A method of a curve: result or exception, and everything afterwards. -/
abbrev CurveMethod (α : Type) := Place → Py α × Place

/-- `r[:] = l`, for a list of numbers: what `insert` and `append` leave behind. -/
def storeNums {K : Type} (r : Nat) (l : List K) : Prog K Unit := fun h =>
  match h[r]? with
  | some (.nums _) => (.ok (), h.set r (.nums l))
  | _ => (.error .typeError, h)

/-- A program that reads lists and creates or changes lists, but not the attributes of the curve. -/
def onHeap {α : Type} (x : Prog ℝ α) : CurveMethod α := fun p =>
  match x p.heap with
  | (r, h) => (r, { p with heap := h })

/-- A new list of new lists of points. -/
def allocLists {K : Type} (ls : List (Segment K)) : Prog K Nat := do
  let result ← alloc (.refs [])
  ls.forM fun (l : Segment K) => do extendRefs result [← alloc (.pts l)]
  return result

/-- The lists in a list of lists of points. -/
def loadLists {K : Type} (r : Nat) : Prog K (List (Segment K)) := do
  let rs ← loadRefs r
  rs.mapM fun (x : Nat) => loadPts x

namespace Curve
open Bezier

/-- PathLib/Bezier.py:41-63 `__init__`: the list at `points` is kept; the table is a new list. -/
noncomputable def new (points : Nat) : Prog ℝ Curve := do
  let lut ← alloc (.pts [])
  let ps ← loadPts points
  let b ← ofPy (Bezier.new ps)
  return { points := points, t1 := b.t1, t2 := b.t2, direction := b.direction, linear := b.linear, clockwise := b.clockwise, lut := lut }

/-- PathLib/Bezier.py:301-303 `controlPoints`: the list itself. -/
def controlPoints : CurveMethod Nat := fun p => (.ok p.curve.points, p)

/-- PathLib/Bezier.py:230-232 `start`. -/
def start : CurveMethod (Pt ℝ) := fun p => onHeap (do ofPy (pyGet (← loadPts p.curve.points) 0)) p

/-- PathLib/Bezier.py:242-244 `end`. -/
def stop : CurveMethod (Pt ℝ) := fun p => onHeap (do ofPy (pyGet (← loadPts p.curve.points) (-1))) p

/-- PathLib/Bezier.py:292-293 `get`. -/
noncomputable def get (t : ℝ) : CurveMethod (Pt ℝ) := fun p => onHeap (do ofPy (Bezier.get (← loadPts p.curve.points) t)) p

/-- PathLib/Bezier.py:363-376 `hull`: a new list. -/
noncomputable def hull (t : ℝ) : CurveMethod Nat := fun p => onHeap (do alloc (.pts (Bezier.hull (← loadPts p.curve.points) t))) p

/-- PathLib/Bezier.py:317-337 `dcPoints`; `None` and `[]` are falsy. -/
noncomputable def dcPoints : CurveMethod Nat := fun p =>
  let compute : Unit → Py Nat × Place := fun _ =>
    match onHeap (do allocLists (Bezier.dcPoints (← loadPts p.curve.points))) p with
    | (.error e, p) => (.error e, p)
    | (.ok d, p) => (.ok d, { p with curve := { p.curve with dc := some d } })
  match p.curve.dc with
  | none => compute ()
  | some d =>
    match onHeap (loadRefs d) p with
    | (.error e, p) => (.error e, p)
    | (.ok [], _) => compute ()
    | (.ok (_ :: _), p) => (.ok d, p)

/-- PathLib/Bezier.py:174-203 `_derivative`. -/
noncomputable def derivative (t : ℝ) : CurveMethod (Pt ℝ) := fun p =>
  match dcPoints p with
  | (.error e, p) => (.error e, p)
  | (.ok d, p) => onHeap (do
      let ps ← loadPts p.curve.points
      let dc ← loadLists d
      ofPy (do derivativeOf (order ps) (← pyGet dc 0) t)) p

/-- PathLib/Bezier.py:552-555 `normal`. -/
noncomputable def normal (t : ℝ) : CurveMethod (Pt ℝ) := fun p =>
  match derivative t p with
  | (.error e, p) => (.error e, p)
  | (.ok d, p) =>
    let q := Real.sqrt (d.1 * d.1 + d.2 * d.2)
    (do return (← pdiv (-d.2) q, ← pdiv d.1 q), p)

/-- PathLib/Bezier.py:339-358 `extrema`: the three lists. -/
noncomputable def extrema : CurveMethod (Nat × Nat × Nat) := fun p =>
  match p.curve.ext with
  | some e => (.ok e, p)
  | none =>
    match dcPoints p with
    | (.error e, p) => (.error e, p)
    | (.ok d, p) =>
      match onHeap (do
          let ps ← loadPts p.curve.points
          let ex ← ofPy (extremaOf (order ps) (← loadLists d))
          return (← alloc (.nums ex.x), ← alloc (.nums ex.y), ← alloc (.nums ex.all))) p with
      | (.error e, p) => (.error e, p)
      | (.ok ex, p) => (.ok ex, { p with curve := { p.curve with ext := some ex } })

/-- PathLib/Bezier.py:215-228 `_getminmax`: completes the list in place. -/
noncomputable def getminmax (d : Fin 2) (list : Nat) : CurveMethod (ℝ × ℝ) := fun p => onHeap (do
  let l ← loadNums list
  storeNums list (addEnds l)
  let ps ← loadPts p.curve.points
  ofPy (minmaxLoop ps d (addEnds l))) p

/-- PathLib/Bezier.py:254-265 `bbox`. -/
noncomputable def bbox : CurveMethod ((ℝ × ℝ) × (ℝ × ℝ)) := fun p =>
  match p.curve.box with
  | some b => (.ok b, p)
  | none =>
    match extrema p with
    | (.error e, p) => (.error e, p)
    | (.ok ex, p) =>
      match getminmax 0 ex.1 p with
      | (.error e, p) => (.error e, p)
      | (.ok x, p) =>
        match getminmax 1 ex.2.1 p with
        | (.error e, p) => (.error e, p)
        | (.ok y, p) => (.ok (x, y), { p with curve := { p.curve with box := some (x, y) } })

/-- PathLib/Bezier.py:276-284 `boundsRectangle`. -/
noncomputable def boundsRectangle : CurveMethod (BoundsRectangle ℝ) := fun p =>
  match p.curve.rect with
  | some r => (.ok r, p)
  | none =>
    match bbox p with
    | (.error e, p) => (.error e, p)
    | (.ok ((minX, maxX), (minY, maxY)), p) =>
      let r := BoundsRectangle.new [(minX, minY), (maxX, maxY)]
      (.ok r, { p with curve := { p.curve with rect := some r } })

/-- PathLib/Bezier.py:386-387: the loop of `getLUT`; `lut` is the list that is filled. -/
noncomputable def lutLoop (lut : Nat) (ps : Segment ℝ) (steps : Int) (ts : List Nat) : Prog ℝ Unit :=
  ts.forM fun (t : Nat) => do
    let pt ← ofPy (do Bezier.get ps (← pdiv (t : ℝ) (steps : ℝ)))
    appendPt lut pt

/-- PathLib/Bezier.py:379-389 `getLUT`: the list kept in the curve, or a new one that is then kept. -/
noncomputable def getLUT (steps : Int) : CurveMethod Nat := fun p =>
  match onHeap (loadPts p.curve.lut) p with
  | (.error e, p) => (.error e, p)
  | (.ok l, p) =>
    if (l.length : Int) = steps then (.ok p.curve.lut, p)
    else
      match onHeap (alloc (.pts [])) p with
      | (.error e, p) => (.error e, p)
      | (.ok lut, p) =>
        let p := { p with curve := { p.curve with lut := lut } }
        match onHeap (do lutLoop lut (← loadPts p.curve.points) (steps - 1) (List.range (steps - 1 + 1).toNat)) p with
        | (.error e, p) => (.error e, p)
        | (.ok _, p) => (.ok lut, p)

/-- PathLib/Bezier.py:414-416, the quadrature loop of `length`. -/
noncomputable def lengthLoop (is : List Nat) (sum : ℝ) : CurveMethod ℝ := fun p =>
  match is with
  | [] => (.ok sum, p)
  | i :: is =>
    match pyGet butils.tValues (i : Int), pyGet butils.cValues (i : Int) with
    | .ok tv, .ok cv =>
      match derivative ((tv : ℝ) * (1 / 2) + 1 / 2) p with
      | (.error e, p) => (.error e, p)
      | (.ok d, p) => lengthLoop is ((cv : ℝ) * Real.sqrt (d.1 * d.1 + d.2 * d.2) + sum) p
    | _, _ => (.error .indexError, p)

/-- PathLib/Bezier.py:407-422 `length`. -/
noncomputable def length : CurveMethod ℝ := fun p =>
  let compute : Unit → Py ℝ × Place := fun _ =>
    match lengthLoop (List.range butils.tValues.length) 0 { p with prec := p.prec + 2 } with
    | (.error e, p) => (.error e, p)
    | (.ok sum, p) =>
      let length := 1 / 2 * sum
      (.ok length, { p with prec := p.prec - 2, curve := { p.curve with len := some length } })
  match p.curve.len with
  | some l => if l = 0 then compute () else (.ok l, p)
  | none => compute ()

/-- The attributes of a curve with the points that its list holds. -/
def view (c : Curve) (ps : Segment ℝ) : Bezier :=
  { controlPoints := ps, t1 := c.t1, t2 := c.t2, direction := c.direction, linear := c.linear, clockwise := c.clockwise }

/-- PathLib/Bezier.py:569-615 `reduce`: completes the third list of `extrema` in place. -/
noncomputable def reduce : CurveMethod (List Bezier) := fun p =>
  match extrema p with
  | (.error e, p) => (.error e, p)
  | (.ok ex, p) => onHeap (do
      let l ← loadNums ex.2.2
      storeNums ex.2.2 (addEnds l)
      let ps ← loadPts p.curve.points
      ofPy (reduceWith (view p.curve ps) l)) p

/-- PathLib/Bezier.py:360-361 `overlaps(curve)`, as seen by `self`; the other curve's rectangle is given. -/
noncomputable def overlaps (r2 : BoundsRectangle ℝ) : CurveMethod Bool := fun p =>
  match boundsRectangle p with
  | (.error e, p) => (.error e, p)
  | (.ok r1, p) => (.ok (r1.intersection r2).isSome, p)

end Curve

/-- PathLib/Bezier.py:818-833: the attributes of a `BContour`; `lut` is the address of a list. -/
structure CurveContour where
  curves : List Curve
  bounds : BoundsRectangle ℝ
  lut : Nat
  start : Pt ℝ
  stop : Pt ℝ

namespace CurveContour

/-- `bezier.boundsRectangle` (PathLib/Bezier.py:825), with the curve afterwards; it does not use the decimal context. -/
noncomputable def boundsOf (bezier : Curve) : Prog ℝ (BoundsRectangle ℝ × Curve) := fun h =>
  match Curve.boundsRectangle ⟨bezier, 0, h⟩ with
  | (.error e, p) => (.error e, p.heap)
  | (.ok r, p) => (.ok (r, p.curve), p.heap)

/-- PathLib/Bezier.py:823-826: one round of the loop of the constructor. -/
noncomputable def buildStep (acc : List Curve × BoundsRectangle ℝ) (segment : Nat) : Prog ℝ (List Curve × BoundsRectangle ℝ) := do
  let bezier ← Curve.new segment
  let (r, bezier) ← boundsOf bezier
  return (acc.1 ++ [bezier], acc.2.union r)

/-- `beziers[i].start` and `beziers[i].end` (PathLib/Bezier.py:831-832): item `j` of the list that the curve holds. -/
def item (curves : List Curve) (i j : Int) : Prog ℝ (Pt ℝ) := do
  let c ← ofPy (pyGet curves i)
  ofPy (pyGet (← loadPts c.points) j)

/-- PathLib/Bezier.py:819-832 `BContour.__init__`. -/
noncomputable def new (contour : Nat) : Prog ℝ CurveContour := do
  let segments ← loadRefs contour
  let (curves, bounds) ← segments.foldlM (fun (acc : List Curve × BoundsRectangle ℝ) (segment : Nat) => buildStep acc segment)
    ([], BoundsRectangle.new [])
  let lut ← alloc (.pts [])
  let start ← item curves 0 0
  let stop ← item curves (-1) (-1)
  return { curves := curves, bounds := bounds, lut := lut, start := start, stop := stop }

/-- PathLib/Bezier.py:1071-1072 `BOutline.pathFromSegments`: the new contour keeps the lists of the curves given. -/
noncomputable def pathFromSegments (segments : List Curve) : Prog ℝ CurveContour := do
  new (← alloc (.refs (segments.map Curve.points)))

end CurveContour
end Heap
end PathLib
