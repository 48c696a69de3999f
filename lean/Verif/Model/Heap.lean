import Verif.Model.SegmentPen

/-!
# Lists as Python objects: Transform.py, SegmentPen.py and `flatten` with shared, mutable lists

The other model files treat lists as values. Here a list is an object with an address; assigning or storing it copies only the
address, and `append`, `extend` and item assignment change the object for everyone who holds it. Points are tuples, which cannot be
changed, and stay values. A program is a function from the heap to a result (or exception) and the heap afterwards.

Simplifications: lists that the code creates and drops again within one expression (the row `[px, py, 1]` and the
row returned by `multiplyRowByMatrix` in `applyToPoint`, the attribute `_segment` of the pen) are not allocated; a `for` loop goes over the items the
list had when the loop started (the bodies change only lists created in the same call); `TypeError` stands for whatever happens when a list
holds things of another kind than expected.
-/

namespace PathLib

/-- The contents of a Python list: numbers (a row of a matrix), points (a segment), or other lists, by address. -/
inductive Cell (K : Type)
  | nums (l : List K)
  | pts (l : List (Pt K))
  | refs (l : List Nat)
  deriving DecidableEq

/-- All lists, by address. No list is ever removed. -/
abbrev Heap (K : Type) := List (Cell K)

namespace Heap
variable {K : Type}

/-- A program that works on the heap. -/
def Prog (K α : Type) := Heap K → Py α × Heap K

instance : Monad (Prog K) where
  pure a := fun h => (.ok a, h)
  bind x f := fun h =>
    match x h with
    | (.ok a, h) => f a h
    | (.error e, h) => (.error e, h)

/-- A computation that does not touch lists. -/
def ofPy {α : Type} (x : Py α) : Prog K α := fun h => (x, h)

/-- `[...]`: a new list; the result is its address. -/
def alloc (c : Cell K) : Prog K Nat := fun h => (.ok h.length, h ++ [c])

/-- The items of a list of numbers. -/
def loadNums (r : Nat) : Prog K (List K) := fun h =>
  match h[r]? with
  | some (.nums l) => (.ok l, h)
  | _ => (.error .typeError, h)

/-- The items of a list of points. -/
def loadPts (r : Nat) : Prog K (List (Pt K)) := fun h =>
  match h[r]? with
  | some (.pts l) => (.ok l, h)
  | _ => (.error .typeError, h)

/-- The items of a list of lists. -/
def loadRefs (r : Nat) : Prog K (List Nat) := fun h =>
  match h[r]? with
  | some (.refs l) => (.ok l, h)
  | _ => (.error .typeError, h)

/-- `r.append(p)` for a list of points. -/
def appendPt (r : Nat) (p : Pt K) : Prog K Unit := fun h =>
  match h[r]? with
  | some (.pts l) => (.ok (), h.set r (.pts (l ++ [p])))
  | _ => (.error .typeError, h)

/-- `r.extend(items)` for a list of lists; `append` for one item. -/
def extendRefs (r : Nat) (items : List Nat) : Prog K Unit := fun h =>
  match h[r]? with
  | some (.refs l) => (.ok (), h.set r (.refs (l ++ items)))
  | _ => (.error .typeError, h)

/-! ### Transform.py -/

section transform
variable [Field K]

/-- The matrix at an address, as read by the tuple unpackings of PathLib/Transform.py:24-28. -/
def loadMatrix (m : Nat) : Prog K (Mat K) := do
  let rows ← loadRefs m
  rows.mapM fun (r : Nat) => loadNums r

/-- `[[a, b, p], [c, d, q], [m, n, s]]` (PathLib/Transform.py:83-86): new lists for the rows and for the matrix. -/
def allocMatrix (m : Mat K) : Prog K Nat := do
  let rows ← m.mapM fun (row : Row K) => alloc (.nums row)
  alloc (.refs rows)

/-- PathLib/Transform.py:20-30 `multiplyRowByMatrix`: a new list. -/
def multiplyRowByMatrix (row matrix : Nat) : Prog K Nat := do
  let r ← (loadNums row : Prog K (List K))
  let m ← loadMatrix matrix
  let product ← ofPy (Transform.multiplyRowByMatrix r m)
  alloc (.nums product)

/-- PathLib/Transform.py:33-41 `multiplyMatrixByMatrix`. -/
def multiplyMatrixByMatrix (m1 m2 : Nat) : Prog K Nat := do
  let result ← alloc (.refs [])
  let rows ← loadRefs m1
  rows.forM fun (row : Nat) => do extendRefs result [← multiplyRowByMatrix row m2]
  return result

/-- PathLib/Transform.py:44-52 `concatenateMatrices`. With one argument the result *is* that argument. -/
def concatenateMatrices (matrices : List Nat) : Prog K Nat :=
  match matrices with
  | [] => ofPy (.error .indexError)
  | m :: ms => ms.foldlM (fun (acc m : Nat) => multiplyMatrixByMatrix acc m) m

variable [DecidableEq K]

/-- PathLib/Transform.py:275-296 `applyToPoint` of a `Transform` whose `_transform` is the list at address `m`. -/
def applyToPoint (m : Nat) (point : Pt K) : Prog K (Pt K) := do
  ofPy (Transform.applyToPoint ⟨← loadMatrix m⟩ point)

/-- PathLib/Transform.py:298-306 `applyToSegment`. -/
def applyToSegment (m segment : Nat) : Prog K Nat := do
  let transformed ← alloc (.pts [])
  let points ← loadPts segment
  points.forM fun (point : Pt K) => do appendPt transformed (← applyToPoint m point)
  return transformed

/-- PathLib/Transform.py:309-317 `applyToContour`. -/
def applyToContour (m contour : Nat) : Prog K Nat := do
  let transformed ← alloc (.refs [])
  let segments ← loadRefs contour
  segments.forM fun (segment : Nat) => do extendRefs transformed [← applyToSegment m segment]
  return transformed

/-- PathLib/Transform.py:320-328 `applyToContours`. -/
def applyToContours (m contours : Nat) : Prog K Nat := do
  let transformed ← alloc (.refs [])
  let cs ← loadRefs contours
  cs.forM fun (contour : Nat) => do extendRefs transformed [← applyToContour m contour]
  return transformed

end transform

/-- PathLib/PathUtilities.py:299-303 `flatten`: a new list of the same segments. -/
def flatten (contours : Nat) : Prog K Nat := do
  let cs ← loadRefs contours
  let segments ← cs.mapM fun (contour : Nat) => loadRefs contour
  alloc (.refs segments.flatten)

/-! ### SegmentPen.py -/

/-- The attributes of a `SegmentPen`; lists by address (PathLib/SegmentPen.py:24-28). -/
structure Pen (K : Type) where
  contours : Nat
  contour : Option Nat
  lastOnCurve : Pt K
  deriving DecidableEq

section pen
variable [Field K] [DecidableEq K]

/-- A method of a pen: the pen afterwards, the result, and the heap afterwards. -/
abbrev PenMethod (K : Type) := Pen K → Heap K → Pen K × Py Unit × Heap K

/-- PathLib/SegmentPen.py:24-28 `__init__`. -/
def newPen : Prog K (Pen K) := do return ⟨← alloc (.refs []), none, (0, 0)⟩

/-- PathLib/SegmentPen.py:33-40 `moveTo`: a new list for the contour. -/
def moveTo (pt : Pt K) : PenMethod K := fun p h =>
  ({ p with lastOnCurve := pt, contour := some h.length }, .ok (), h ++ [.refs []])

/-- `self._contour.append(segment)` for segments created just before, in this order. -/
def appendSegments (p : Pen K) (segments : List (Segment K)) : Prog K Unit :=
  segments.forM fun (segment : Segment K) => do
    let r ← alloc (.pts segment)
    match p.contour with
    | none => ofPy (.error .attributeError)
    | some c => extendRefs c [r]

/-- PathLib/SegmentPen.py:42-49 `lineTo`. -/
def lineTo (pt : Pt K) : PenMethod K := fun p h =>
  if pt ≠ p.lastOnCurve then
    match appendSegments p [[p.lastOnCurve, pt]] h with
    | (.error e, h) => (p, .error e, h)
    | (.ok (), h) => ({ p with lastOnCurve := pt }, .ok (), h)
  else (p, .ok (), h)

/-- PathLib/SegmentPen.py:51-56 `curveTo`. -/
def curveTo (points : List (Pt K)) : PenMethod K := fun p h =>
  match appendSegments p [p.lastOnCurve :: points] h with
  | (.error e, h) => (p, .error e, h)
  | (.ok (), h) =>
    match pyGet points (-1) with
    | .error e => (p, .error e, h)
    | .ok q => ({ p with lastOnCurve := q }, .ok (), h)

/-- PathLib/SegmentPen.py:58-75 `qCurveTo`. The pieces are computed first (`SegmentPen.qSegments`); with at most three points the list
`segment` itself is stored, otherwise it is dropped. -/
def qCurveTo (points : List (Pt K)) : PenMethod K := fun p h =>
  let segment := p.lastOnCurve :: points
  match SegmentPen.qSegments segment with
  | .error e => (p, .error e, h)
  | .ok pieces =>
    match appendSegments p pieces h with
    | (.error e, h) => (p, .error e, h)
    | (.ok (), h) =>
      match pyGet segment (-1) with
      | .error e => (p, .error e, h)
      | .ok q => ({ p with lastOnCurve := q }, .ok (), h)

/-- PathLib/SegmentPen.py:83-84: the closing line is appended to the contour at `c`, which has the given segments. -/
def closing (c : Nat) (segments : List Nat) : Prog K Unit := do
  let first ← ofPy (pyGet (← loadPts (← ofPy (pyGet segments 0))) 0)
  let last ← ofPy (pyGet (← loadPts (← ofPy (pyGet segments (-1)))) (-1))
  if first ≠ last then extendRefs c [← alloc (.pts [last, first])] else pure ()

/-- PathLib/SegmentPen.py:80-86 `closePath`: the contour is stored first, then the closing line is appended to it. -/
def closePath : PenMethod K := fun p h =>
  match p.contour with
  | none => (p, .error .attributeError, h)
  | some c =>
    match loadRefs c h with
    | (.error e, h) => (p, .error e, h)
    | (.ok [], h) => (p, .ok (), h)
    | (.ok segments, h) =>
      match (extendRefs p.contours [c] >>= fun () => closing c segments) h with
      | (.error e, h) => (p, .error e, h)
      | (.ok (), h) => ({ p with contour := some h.length }, .ok (), h ++ [.refs []])

/-- PathLib/SegmentPen.py:95-112: the list of contours that `addComponent` adds. `drawGlyph name` gives the address of the list `contours` of a
new pen after the glyph has been drawn with it. Without a transformation it is that list itself. -/
def component (drawGlyph : String → Prog K Nat) (glyphName : String) (tr : ComponentTransform K) : Prog K Nat := do
  let t ← (if tr ≠ SegmentPen.identityTransformation then do
      let m ← allocMatrix (Transform.matrix tr.xScale tr.xyScale tr.yxScale tr.yScale tr.xOffset tr.yOffset 0 0 1)
      return some (← concatenateMatrices [m])
    else return none : Prog K (Option Nat))
  let drawn ← drawGlyph glyphName
  match t with
  | some t => applyToContours t drawn
  | none => pure drawn

/-- PathLib/SegmentPen.py:93-113 `addComponent`. -/
def addComponent (drawGlyph : String → Prog K Nat) (glyphName : String) (tr : ComponentTransform K) : PenMethod K := fun p h =>
  let body : Prog K Unit := do
    let contours ← component drawGlyph glyphName tr
    let items ← loadRefs contours
    extendRefs p.contours items
  match body h with
  | (r, h) => (p, r, h)

/-- One method call. -/
def call (drawGlyph : String → Prog K Nat) : PenCall K → PenMethod K
  | .moveTo pt => moveTo pt
  | .lineTo pt => lineTo pt
  | .curveTo points => curveTo points
  | .qCurveTo points => qCurveTo points
  | .closePath => closePath
  | .addComponent name t => addComponent drawGlyph name t
  | .addPoint => fun p h => (p, .error .notImplementedError, h)
  | .beginPath => fun p h => (p, .error .notImplementedError, h)
  | .endPath => fun p h => (p, .error .notImplementedError, h)

/-- Consecutive calls; an exception ends them. -/
def run (drawGlyph : String → Prog K Nat) : List (PenCall K) → PenMethod K
  | [], p, h => (p, .ok (), h)
  | c :: cs, p, h =>
    match call drawGlyph c p h with
    | (p, .error e, h) => (p, .error e, h)
    | (p, .ok (), h) => run drawGlyph cs p h

/-- PathLib/SegmentPen.py:109-112: look up a glyph, draw it with a new pen and take its list of contours. -/
def drawGlyph (depth : Nat) (glyphSet : GlyphSet K) (name : String) : Prog K Nat := fun h =>
  match depth with
  | 0 => (.error .recursionError, h)
  | depth + 1 =>
    match glyphSet name with
    | none => (.error .keyError, h)
    | some calls =>
      match newPen h with
      | (.error e, h) => (.error e, h)
      | (.ok p, h) =>
        match run (drawGlyph depth glyphSet) calls p h with
        | (_, .error e, h) => (.error e, h)
        | (p, .ok (), h) => (.ok p.contours, h)

end pen
end Heap
end PathLib
