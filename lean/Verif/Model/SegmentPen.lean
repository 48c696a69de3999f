import Verif.Model.Transform

/-!
# Model of PathLib/SegmentPen.py

A glyph of the glyph set is modelled by the list of pen calls its `draw` method makes: `draw` only calls methods of the pen,
and none of them returns anything, so the calls cannot depend on the pen. Logging is left out, and so is the attribute
`_segment`, which is never read. The special final point `None` that fontTools may pass to `qCurveTo` for
contours without on-curve points is modelled in `Model/SegmentPenNone.lean`.
-/

namespace PathLib

/-- The attributes of a `SegmentPen` (PathLib/SegmentPen.py:24-28). `contour` is missing until `moveTo` creates it. -/
structure SegmentPen (K : Type) where
  contours : List (Contour K)
  contour : Option (Contour K)
  lastOnCurve : Pt K

/-- The six numbers of a component transformation (PathLib/SegmentPen.py:96). -/
structure ComponentTransform (K : Type) where
  xScale : K
  xyScale : K
  yxScale : K
  yScale : K
  xOffset : K
  yOffset : K
  deriving DecidableEq

/-- The method calls a pen can receive. -/
inductive PenCall (K : Type)
  | moveTo (pt : Pt K)
  | lineTo (pt : Pt K)
  | curveTo (points : List (Pt K))
  | qCurveTo (points : List (Pt K))
  | closePath
  | addComponent (glyphName : String) (t : ComponentTransform K)
  | addPoint
  | beginPath
  | endPath

/-- A glyph set: a dictionary from names to glyphs. -/
abbrev GlyphSet (K : Type) := String → Option (List (PenCall K))

namespace SegmentPen
variable {K : Type} [Field K] [DecidableEq K]

/-- PathLib/SegmentPen.py:24-28 `__init__`. -/
def init : SegmentPen K := ⟨[], none, (0, 0)⟩

/-- PathLib/SegmentPen.py:33-40 `moveTo`. -/
def moveTo (s : SegmentPen K) (pt : Pt K) : SegmentPen K :=
  { s with lastOnCurve := pt, contour := some [] }

/-- `self._contour.append(segment)`. -/
def append (s : SegmentPen K) (segment : Segment K) : SegmentPen K × Py Unit :=
  match s.contour with
  | none => (s, .error .attributeError)
  | some c => ({ s with contour := some (c ++ [segment]) }, .ok ())

/-- PathLib/SegmentPen.py:42-49 `lineTo`. -/
def lineTo (s : SegmentPen K) (pt : Pt K) : SegmentPen K × Py Unit :=
  if pt ≠ s.lastOnCurve then
    match append s [s.lastOnCurve, pt] with
    | (s, .error e) => (s, .error e)
    | (s, .ok ()) => ({ s with lastOnCurve := pt }, .ok ())
  else (s, .ok ())

/-- PathLib/SegmentPen.py:51-56 `curveTo`: without points the segment is appended before `points[-1]` raises. -/
def curveTo (s : SegmentPen K) (points : List (Pt K)) : SegmentPen K × Py Unit :=
  match append s (s.lastOnCurve :: points) with
  | (s, .error e) => (s, .error e)
  | (s, .ok ()) =>
    match pyGet points (-1) with
    | .error e => (s, .error e)
    | .ok p => ({ s with lastOnCurve := p }, .ok ())

/-- PathLib/SegmentPen.py:67-72, the loop of `qCurveTo` over the indices `is`, as the list of appended segments and the final
`startPoint`. -/
def qLoop (segment : Segment K) (startPoint : Pt K) (is : List Nat) : Py (List (Segment K) × Pt K) :=
  match is with
  | [] => return ([], startPoint)
  | i :: is => do
    let p1 ← pyGet segment i
    let p2 ← pyGet segment ((i + 1 : Nat) : Int)
    let impliedPoint := (1 / 2 * (p1.1 + p2.1), 1 / 2 * (p1.2 + p2.2))
    let (rest, last) ← qLoop segment impliedPoint is
    return ([startPoint, p1, impliedPoint] :: rest, last)

/-- PathLib/SegmentPen.py:62-73: the segments that `qCurveTo` appends. -/
def qSegments (segment : Segment K) : Py (List (Segment K)) :=
  if segment.length ≤ 3 then return [segment]
  else do
    let startPoint ← pyGet segment 0
    let (pieces, startPoint) ← qLoop segment startPoint (List.range' 1 (segment.length - 3))
    return pieces ++ [[startPoint, ← pyGet segment (-2), ← pyGet segment (-1)]]

/-- PathLib/SegmentPen.py:58-75 `qCurveTo`. All segments are appended together here: no exception can occur between the first and the
last `append`. -/
def qCurveTo (s : SegmentPen K) (points : List (Pt K)) : SegmentPen K × Py Unit :=
  let segment := s.lastOnCurve :: points
  match qSegments segment with
  | .error e => (s, .error e)
  | .ok pieces =>
    match s.contour with
    | none => (s, .error .attributeError)
    | some c =>
      let s := { s with contour := some (c ++ pieces) }
      match pyGet segment (-1) with
      | .error e => (s, .error e)
      | .ok p => ({ s with lastOnCurve := p }, .ok ())

/-- PathLib/SegmentPen.py:83-84: the closing line, if the contour does not end where it starts. -/
def closing (c : Contour K) : Py (Contour K) := do
  let first ← pyGet (← pyGet c 0) 0
  let last ← pyGet (← pyGet c (-1)) (-1)
  if first ≠ last then return c ++ [[last, first]] else return c

/-- PathLib/SegmentPen.py:80-86 `closePath`. The list is stored in `_contours` before the closing line is added to it; both
names refer to the same list. -/
def closePath (s : SegmentPen K) : SegmentPen K × Py Unit :=
  match s.contour with
  | none => (s, .error .attributeError)
  | some [] => (s, .ok ())
  | some c =>
    match closing c with
    | .error e => ({ s with contours := s.contours ++ [c] }, .error e)
    | .ok c' => ({ s with contours := s.contours ++ [c'], contour := some [] }, .ok ())

/-- PathLib/SegmentPen.py:91 `identityTransformation`. -/
def identityTransformation : ComponentTransform K := ⟨1, 0, 0, 1, 0, 0⟩

/-- PathLib/SegmentPen.py:93-113 `addComponent`. `drawGlyph name` is the list of contours found in a new pen after
the glyph has been drawn with it (lines 109-111). -/
def addComponent (drawGlyph : String → Py (List (Contour K))) (s : SegmentPen K) (glyphName : String)
    (tr : ComponentTransform K) : SegmentPen K × Py Unit :=
  let result : Py (List (Contour K)) := do
    let t ← (if tr ≠ identityTransformation then do
        let m := Transform.matrix tr.xScale tr.xyScale tr.yxScale tr.yScale tr.xOffset tr.yOffset 0 0 1
        return some (← Transform.new [m])
      else return none : Py (Option (Transform K)))
    let contours ← drawGlyph glyphName
    match t with
    | some t => t.applyToContours contours
    | none => return contours
  match result with
  | .error e => (s, .error e)
  | .ok contours => ({ s with contours := s.contours ++ contours }, .ok ())

/-- One method call. -/
def call (drawGlyph : String → Py (List (Contour K))) (s : SegmentPen K) : PenCall K → SegmentPen K × Py Unit
  | .moveTo pt => (moveTo s pt, .ok ())
  | .lineTo pt => lineTo s pt
  | .curveTo points => curveTo s points
  | .qCurveTo points => qCurveTo s points
  | .closePath => closePath s
  | .addComponent name t => addComponent drawGlyph s name t
  | .addPoint => (s, .error .notImplementedError)
  | .beginPath => (s, .error .notImplementedError)
  | .endPath => (s, .error .notImplementedError)

/-- Consecutive calls; an exception ends them. -/
def run (drawGlyph : String → Py (List (Contour K))) (s : SegmentPen K) : List (PenCall K) → SegmentPen K × Py Unit
  | [] => (s, .ok ())
  | c :: cs =>
    match call drawGlyph s c with
    | (s, .error e) => (s, .error e)
    | (s, .ok ()) => run drawGlyph s cs

/-- PathLib/SegmentPen.py:109-112: look up a glyph, draw it with a new pen and take its contours. `depth` is the number of
nested components Python's stack still allows. -/
def drawGlyph (depth : Nat) (glyphSet : GlyphSet K) (name : String) : Py (List (Contour K)) :=
  match depth with
  | 0 => .error .recursionError
  | depth + 1 =>
    match glyphSet name with
    | none => .error .keyError
    | some calls =>
      match run (drawGlyph depth glyphSet) init calls with
      | (_, .error e) => .error e
      | (s, .ok ()) => .ok s.contours

end SegmentPen
end PathLib
