import Verif.Model.SegmentPen

/-!
# Model of PathLib/SegmentPen.py when points may be `None`

fontTools draws a TrueType contour without on-curve points as `qCurveTo(p1, ..., pn, None)` and `closePath()`, without `moveTo`. The
model in `Model/SegmentPen.lean` has no `None`; here the methods that matter are written once more for points that may be `None`
(`none`). `Verif/Props/SegmentPenNone.lean` shows that for points they do the same.
-/

namespace PathLib

/-- A point or `None`. -/
abbrev OPt (K : Type) := Option (Pt K)

/-- The attributes of a `SegmentPen` (PathLib/SegmentPen.py:24-28). -/
structure OPen (K : Type) where
  contours : List (List (List (OPt K)))
  contour : Option (List (List (OPt K)))
  lastOnCurve : OPt K

namespace OPen
variable {K : Type} [Field K] [DecidableEq K]

/-- `x, y = point`: unpacking `None` raises `TypeError`. -/
def unpack (p : OPt K) : Py (Pt K) :=
  match p with
  | some p => .ok p
  | none => .error .typeError

/-- PathLib/SegmentPen.py:24-28 `__init__`. -/
def init : OPen K := ⟨[], none, some (0, 0)⟩

/-- PathLib/SegmentPen.py:33-40 `moveTo`. -/
def moveTo (s : OPen K) (pt : OPt K) : OPen K := { s with lastOnCurve := pt, contour := some [] }

/-- `self._contour.append(segment)`. -/
def append (s : OPen K) (segment : List (OPt K)) : OPen K × Py Unit :=
  match s.contour with
  | none => (s, .error .attributeError)
  | some c => ({ s with contour := some (c ++ [segment]) }, .ok ())

/-- PathLib/SegmentPen.py:42-49 `lineTo`. -/
def lineTo (s : OPen K) (pt : OPt K) : OPen K × Py Unit :=
  if pt ≠ s.lastOnCurve then
    match append s [s.lastOnCurve, pt] with
    | (s, .error e) => (s, .error e)
    | (s, .ok ()) => ({ s with lastOnCurve := pt }, .ok ())
  else (s, .ok ())

/-- PathLib/SegmentPen.py:67-72, the loop of `qCurveTo`: the segments appended, the final `startPoint`, and the exception that ended
the loop, if any. -/
def qLoop (segment : List (OPt K)) (startPoint : OPt K) (is : List Nat) : List (List (OPt K)) × OPt K × Py Unit :=
  match is with
  | [] => ([], startPoint, .ok ())
  | i :: is =>
    match (do
      let q1 ← pyGet segment i
      let p1 ← unpack q1
      let p2 ← unpack (← pyGet segment ((i + 1 : Nat) : Int))
      return (q1, some (1 / 2 * (p1.1 + p2.1), 1 / 2 * (p1.2 + p2.2))) : Py (OPt K × OPt K)) with
    | .error e => ([], startPoint, .error e)
    | .ok (p1, impliedPoint) =>
      let (rest, last, r) := qLoop segment impliedPoint is
      ([startPoint, p1, impliedPoint] :: rest, last, r)

/-- PathLib/SegmentPen.py:62-73: the segments that `qCurveTo` appends, and the exception that ended it, if any. -/
def qSegments (segment : List (OPt K)) : List (List (OPt K)) × Py Unit :=
  if segment.length ≤ 3 then ([segment], .ok ())
  else
    match pyGet segment 0 with
    | .error e => ([], .error e)
    | .ok startPoint =>
      let (pieces, startPoint, r) := qLoop segment startPoint (List.range' 1 (segment.length - 3))
      match (do
        r
        return [startPoint, ← pyGet segment (-2), ← pyGet segment (-1)] : Py (List (OPt K))) with
      | .error e => (pieces, .error e)
      | .ok last => (pieces ++ [last], .ok ())

/-- PathLib/SegmentPen.py:58-75 `qCurveTo`. Without a contour the first `append` raises; if the very first implied point cannot be
computed, that exception comes first. -/
def qCurveTo (s : OPen K) (points : List (OPt K)) : OPen K × Py Unit :=
  let segment := s.lastOnCurve :: points
  let (pieces, r) := qSegments segment
  match s.contour with
  | none => (s, if pieces = [] then r else .error .attributeError)
  | some c =>
    let s := { s with contour := some (c ++ pieces) }
    match (do r; pyGet segment (-1) : Py (OPt K)) with
    | .error e => (s, .error e)
    | .ok p => ({ s with lastOnCurve := p }, .ok ())

/-- PathLib/SegmentPen.py:83-84: the closing line, if the contour does not end where it starts. -/
def closing (c : List (List (OPt K))) : Py (List (List (OPt K))) := do
  let first ← pyGet (← pyGet c 0) 0
  let last ← pyGet (← pyGet c (-1)) (-1)
  if first ≠ last then return c ++ [[last, first]] else return c

/-- PathLib/SegmentPen.py:80-86 `closePath`. -/
def closePath (s : OPen K) : OPen K × Py Unit :=
  match s.contour with
  | none => (s, .error .attributeError)
  | some [] => (s, .ok ())
  | some c =>
    match closing c with
    | .error e => ({ s with contours := s.contours ++ [c] }, .error e)
    | .ok c' => ({ s with contours := s.contours ++ [c'], contour := some [] }, .ok ())

/-- PathLib/Transform.py:275-328 `applyToContours`: unpacking the point comes first. -/
def applyToContours (T : Transform K) (contours : List (List (List (OPt K)))) : Py (List (Contour K)) :=
  contours.mapM fun (contour : List (List (OPt K))) => contour.mapM fun (segment : List (OPt K)) =>
    segment.mapM fun (p : OPt K) => do T.applyToPoint (← unpack p)

end OPen
end PathLib
