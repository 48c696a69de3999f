import Verif.Model.SegmentPen
import Verif.Model.Rounded

/-!
# PathLib/SegmentPen.py with rounded arithmetic

The methods of `SegmentPen` that compute coordinates, with every operation rounded. `moveTo`, `lineTo`, `curveTo` and `closePath` do not
compute anything; they are those of `Model/SegmentPen.lean`.
-/

namespace PathLib
namespace Rounded
namespace Pen
open Spec

/-- PathLib/SegmentPen.py:67-72, the loop of `qCurveTo` over the indices `is`. -/
noncomputable def qLoop (R : Rounding) (segment : Segment ℝ) (startPoint : Pt ℝ) (is : List Nat) : Py (List (Segment ℝ) × Pt ℝ) :=
  match is with
  | [] => return ([], startPoint)
  | i :: is => do
    let p1 ← pyGet segment i
    let p2 ← pyGet segment ((i + 1 : Nat) : Int)
    let impliedPoint := (R.mul (1 / 2) (R.add p1.1 p2.1), R.mul (1 / 2) (R.add p1.2 p2.2))
    let (rest, last) ← qLoop R segment impliedPoint is
    return ([startPoint, p1, impliedPoint] :: rest, last)

/-- PathLib/SegmentPen.py:62-73: the segments that `qCurveTo` appends. -/
noncomputable def qSegments (R : Rounding) (segment : Segment ℝ) : Py (List (Segment ℝ)) :=
  if segment.length ≤ 3 then return [segment]
  else do
    let startPoint ← pyGet segment 0
    let (pieces, startPoint) ← qLoop R segment startPoint (List.range' 1 (segment.length - 3))
    return pieces ++ [[startPoint, ← pyGet segment (-2), ← pyGet segment (-1)]]

/-- PathLib/SegmentPen.py:58-75 `qCurveTo`. -/
noncomputable def qCurveTo (R : Rounding) (s : SegmentPen ℝ) (points : List (Pt ℝ)) : SegmentPen ℝ × Py Unit :=
  let segment := s.lastOnCurve :: points
  match qSegments R segment with
  | .error e => (s, .error e)
  | .ok pieces =>
    match s.contour with
    | none => (s, .error .attributeError)
    | some c =>
      let s := { s with contour := some (c ++ pieces) }
      match pyGet segment (-1) with
      | .error e => (s, .error e)
      | .ok p => ({ s with lastOnCurve := p }, .ok ())

/-- PathLib/Transform.py:298-306 `applyToSegment`. -/
noncomputable def applyToSegment (R : Rounding) (T : Transform ℝ) (segment : Segment ℝ) : Py (Segment ℝ) :=
  segment.mapM (applyToPoint R T)

/-- PathLib/Transform.py:309-317 `applyToContour`. -/
noncomputable def applyToContour (R : Rounding) (T : Transform ℝ) (contour : Contour ℝ) : Py (Contour ℝ) :=
  contour.mapM (applyToSegment R T)

/-- PathLib/Transform.py:320-328 `applyToContours`. -/
noncomputable def applyToContours (R : Rounding) (T : Transform ℝ) (contours : List (Contour ℝ)) : Py (List (Contour ℝ)) :=
  contours.mapM (applyToContour R T)

/-- PathLib/SegmentPen.py:93-113 `addComponent`. The transform is made of one matrix, so nothing is multiplied to make it. -/
noncomputable def addComponent (R : Rounding) (drawGlyph : String → Py (List (Contour ℝ))) (s : SegmentPen ℝ) (glyphName : String)
    (tr : ComponentTransform ℝ) : SegmentPen ℝ × Py Unit :=
  let result : Py (List (Contour ℝ)) := do
    let t ← (if tr ≠ SegmentPen.identityTransformation then do
        let m := Transform.matrix tr.xScale tr.xyScale tr.yxScale tr.yScale tr.xOffset tr.yOffset 0 0 1
        return some (← Transform.new [m])
      else return none : Py (Option (Transform ℝ)))
    let contours ← drawGlyph glyphName
    match t with
    | some t => applyToContours R t contours
    | none => return contours
  match result with
  | .error e => (s, .error e)
  | .ok contours => ({ s with contours := s.contours ++ contours }, .ok ())

/-- One method call. -/
noncomputable def call (R : Rounding) (drawGlyph : String → Py (List (Contour ℝ))) (s : SegmentPen ℝ) :
    PenCall ℝ → SegmentPen ℝ × Py Unit
  | .moveTo pt => (SegmentPen.moveTo s pt, .ok ())
  | .lineTo pt => SegmentPen.lineTo s pt
  | .curveTo points => SegmentPen.curveTo s points
  | .qCurveTo points => qCurveTo R s points
  | .closePath => SegmentPen.closePath s
  | .addComponent name t => addComponent R drawGlyph s name t
  | .addPoint => (s, .error .notImplementedError)
  | .beginPath => (s, .error .notImplementedError)
  | .endPath => (s, .error .notImplementedError)

/-- Consecutive calls; an exception ends them. -/
noncomputable def run (R : Rounding) (drawGlyph : String → Py (List (Contour ℝ))) (s : SegmentPen ℝ) :
    List (PenCall ℝ) → SegmentPen ℝ × Py Unit
  | [] => (s, .ok ())
  | c :: cs =>
    match call R drawGlyph s c with
    | (s, .error e) => (s, .error e)
    | (s, .ok ()) => run R drawGlyph s cs

/-- PathLib/SegmentPen.py:109-112: look up a glyph, draw it with a new pen and take its contours. -/
noncomputable def drawGlyph (R : Rounding) (depth : Nat) (glyphSet : GlyphSet ℝ) (name : String) : Py (List (Contour ℝ)) :=
  match depth with
  | 0 => .error .recursionError
  | depth + 1 =>
    match glyphSet name with
    | none => .error .keyError
    | some calls =>
      match run R (drawGlyph R depth glyphSet) SegmentPen.init calls with
      | (_, .error e) => .error e
      | (s, .ok ()) => .ok s.contours

end Pen
end Rounded
end PathLib
