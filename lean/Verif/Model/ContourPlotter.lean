import Verif.Model.BContour

/-!
# Model of PathLib/ContourPlotter.py

The base class `FontDocTools.GlyphPlotterEngine` is not part of the repository. It is taken to behave as its method names say: the
setters store their argument in the attribute that `ContourPlotter` reads, `moveToXY` sets `_pen`, `_strokeAttributes()` and
`_fillAttributes()` depend on the stroke and fill attributes only, and `drawCircle`, `drawLabel` and `drawArrow` append one element
to `_content` and change no attribute, `setLabelFontSize` keeps both its arguments. An element of `_content` is kept as an `Item` instead of the SVG text it is printed as.
The layout computed in `__init__` (margins and the first label font size, lines 18-25) is in `Model/Accessors.lean`.

`C` is the type of colours; a colour is always true in a Python condition, a missing colour is `none`. Python's `str` on coordinates
is the parameter `str`.
-/

namespace PathLib

/-- The attributes saved by `pushFillAttributes`. -/
structure FillAttributes (K C : Type) where
  color : C
  opacity : K
  deriving DecidableEq

/-- The attributes saved by `pushStrokeAttributes`. -/
structure StrokeAttributes (K C : Type) where
  width : K
  color : C
  opacity : K
  dash : Option (List Char)
  deriving DecidableEq

/-- The elements of `_content`. -/
inductive Item (K C : Type)
  /-- `<path d='...' fill='none' .../>` -/
  | path (d : List Char) (stroke : StrokeAttributes K C)
  /-- `drawCircle` in fill mode -/
  | disc (centre : Pt K) (radius : K) (fill : FillAttributes K C)
  /-- `drawCircle` in stroke mode -/
  | circle (centre : Pt K) (radius : K) (stroke : StrokeAttributes K C)
  /-- `drawLabel` in the coordinate system `contentMargins` or (for `margin` false) `content` -/
  | label (margin : Bool) (at_ : Pt K) (alignment text : List Char) (size : K × K) (fill : FillAttributes K C)
  /-- `drawArrow` -/
  | arrow (start stop : Pt K) (stroke : StrokeAttributes K C)
  deriving DecidableEq

/-- What `drawPaths` uses of a path: `path.start` and the control points of the curves it iterates over. -/
structure PlotPath (K : Type) where
  start : Pt K
  segments : List (Segment K)

/-- `BContour` as an argument of `drawPaths`. -/
def BContour.plotPath (c : BContour) : PlotPath ℝ := { start := c.start, segments := c.beziers.map (·.controlPoints) }

/-- PathLib/ContourPlotter.py:13-29: the attributes of a `ContourPlotter` (`_lastCommand` is `none` for `""`). -/
structure ContourPlotter (K C : Type) where
  poly : Bool
  lastCommand : Option Char
  fill : FillAttributes K C
  stroke : StrokeAttributes K C
  fillStack : List (FillAttributes K C)
  strokeStack : List (StrokeAttributes K C)
  /-- the arguments of the last `setLabelFontSize` -/
  labelFontSize : K × K
  pen : Pt K
  content : List (Item K C)

namespace ContourPlotter

open BContour (pointToString Path)

variable {K C : Type} [Field K] [DecidableEq K]

/-- PathLib/ContourPlotter.py:39-42 `pushFillAttributes`; an opacity of 0 is false. -/
def pushFillAttributes (color : Option C) (opacity : Option K) (s : ContourPlotter K C) : ContourPlotter K C :=
  { s with
    fillStack := s.fillStack ++ [s.fill]
    fill := { color := color.getD s.fill.color
              opacity := match opacity with
                | some x => if x ≠ 0 then x else s.fill.opacity
                | none => s.fill.opacity } }

/-- PathLib/ContourPlotter.py:44-47 `popFillAttributes`. -/
def popFillAttributes (s : ContourPlotter K C) : Py Unit × ContourPlotter K C :=
  match s.fillStack.getLast? with
  | some a => (.ok (), { s with fillStack := s.fillStack.dropLast, fill := a })
  | none => (.error .indexError, s)

/-- PathLib/ContourPlotter.py:49-54 `pushStrokeAttributes`; a width or opacity of 0 and an empty dash are false. -/
def pushStrokeAttributes (width : Option K) (color : Option C) (opacity : Option K) (dash : Option (List Char))
    (s : ContourPlotter K C) : ContourPlotter K C :=
  { s with
    strokeStack := s.strokeStack ++ [s.stroke]
    stroke := { width := match width with
                  | some x => if x ≠ 0 then x else s.stroke.width
                  | none => s.stroke.width
                color := color.getD s.stroke.color
                opacity := match opacity with
                  | some x => if x ≠ 0 then x else s.stroke.opacity
                  | none => s.stroke.opacity
                dash := match dash with
                  | some d => if d ≠ [] then some d else s.stroke.dash
                  | none => s.stroke.dash } }

/-- PathLib/ContourPlotter.py:56-61 `popStrokeAtributes`. -/
def popStrokeAtributes (s : ContourPlotter K C) : Py Unit × ContourPlotter K C :=
  match s.strokeStack.getLast? with
  | some a => (.ok (), { s with strokeStack := s.strokeStack.dropLast, stroke := a })
  | none => (.error .indexError, s)

/-- `if color: self.pushStrokeAttributes(color=color)` (e.g. PathLib/ContourPlotter.py:78-79). -/
def pushColor (color : Option C) (s : ContourPlotter K C) : ContourPlotter K C :=
  match color with
  | some _ => pushStrokeAttributes none color none none s
  | none => s

/-- `if color: self.popStrokeAtributes()` (e.g. PathLib/ContourPlotter.py:133). -/
def popColor (color : Option C) (s : ContourPlotter K C) : Py Unit × ContourPlotter K C :=
  match color with
  | some _ => popStrokeAtributes s
  | none => (.ok (), s)

/-- PathLib/ContourPlotter.py:66-73 `getCommand`: the text and the new `_lastCommand`. -/
def getCommand (poly : Bool) (command : Char) (lastCommand : Option Char) : Char × Option Char :=
  if poly then
    if lastCommand ≠ some command then (command, some command) else (' ', lastCommand)
  else (command, lastCommand)

/-- `command = self.getCommand(name)`, `commands.append(f"{command}{text}")` and the new pen. -/
def emit (poly : Bool) (st : Path K) (name : Char) (text : List Char) (pen : Pt K) : Path K :=
  let (command, lastCommand) := getCommand poly name st.lastCommand
  { commands := st.commands ++ [command :: text], lastCommand := lastCommand, pen := pen }

/-- PathLib/ContourPlotter.py:106-108: `getCommand` is called but its result is not used. -/
def emitL (poly : Bool) (st : Path K) (text : List Char) (pen : Pt K) : Path K :=
  let (_, lastCommand) := getCommand poly 'L' st.lastCommand
  { commands := st.commands ++ ['L' :: text], lastCommand := lastCommand, pen := pen }

/-- PathLib/ContourPlotter.py:90-122: the body of the inner loop of `drawContours`. -/
def contourStep (str : K → List Char) (poly : Bool) (st : Path K) (segment : Segment K) : Path K :=
  match segment with
  | [_, p] =>
    if st.pen.1 = p.1 ∧ st.pen.2 = p.2 then st
    else if st.pen.1 = p.1 then emit poly st 'V' (str p.2) p
    else if st.pen.2 = p.2 then emit poly st 'H' (str p.1) p
    else emitL poly st (pointToString str p) p
  | [_, p1, p2] => emit poly st 'Q' (pointToString str p1 ++ ' ' :: pointToString str p2) p2
  | [_, p1, p2, p3] =>
    emit poly st 'C' (pointToString str p1 ++ ' ' :: pointToString str p2 ++ ' ' :: pointToString str p3) p3
  | _ => st

/-- PathLib/ContourPlotter.py:84-124: the loop over the contours; what is left when it raises is returned as well. -/
def contoursLoop (str : K → List Char) (poly close : Bool) (contours : List (Contour K)) (st : Path K) : Py Unit × Path K :=
  match contours with
  | [] => (.ok (), st)
  | contour :: contours =>
    match (do pyGet (← pyGet contour 0) 0 : Py (Pt K)) with
    | .error e => (.error e, st)
    | .ok firstPoint =>
      let st := { st with pen := firstPoint, commands := st.commands ++ ['M' :: pointToString str firstPoint] }
      let st := contour.foldl (contourStep str poly) st
      let st := if close then { st with commands := st.commands ++ [['Z']] } else st
      contoursLoop str poly close contours st

/-- PathLib/ContourPlotter.py:75-135 `drawContours`. With `fill` the call `pushFillAttributes(color=color, fill=fill)` passes a
keyword that does not exist. -/
def drawContours (str : K → List Char) (contours : List (Contour K)) (color : Option C) (fill close : Bool)
    (s : ContourPlotter K C) : Py Unit × ContourPlotter K C :=
  if fill then (.error .typeError, s)
  else
    let s := pushColor color s
    match contoursLoop str s.poly close contours { commands := [], lastCommand := s.lastCommand, pen := s.pen } with
    | (.error e, st) => (.error e, { s with lastCommand := st.lastCommand, pen := st.pen })
    | (.ok _, st) =>
      let item := Item.path st.commands.flatten s.stroke
      match popColor color { s with lastCommand := st.lastCommand, pen := st.pen } with
      | (.error e, s) => (.error e, s)
      | (.ok _, s) => (.ok (), { s with content := s.content ++ [item] })

/-- PathLib/ContourPlotter.py:155-189: the body of the inner loop of `drawPaths`. -/
def pathStep (str : K → List Char) (poly : Bool) (st : Path K) (segment : Segment K) : Path K :=
  match segment with
  | [_, p] =>
    if st.pen.1 = p.1 ∧ st.pen.2 = p.2 then st
    else if st.pen.1 = p.1 then emit poly st 'V' (str p.2) p
    else if st.pen.2 = p.2 then emit poly st 'H' (str p.1) p
    else emit poly st 'L' (pointToString str p) p
  | [_, p1, p2] => emit poly st 'Q' (pointToString str p1 ++ ' ' :: pointToString str p2) p2
  | [_, p1, p2, p3] =>
    emit poly st 'C' (pointToString str p1 ++ ' ' :: pointToString str p2 ++ ' ' :: pointToString str p3) p3
  | _ => st

/-- PathLib/ContourPlotter.py:147-194: one round of the loop of `drawPaths`. -/
def drawPath (str : K → List Char) (s : ContourPlotter K C) (path : PlotPath K) : ContourPlotter K C :=
  let st := path.segments.foldl (pathStep str s.poly)
    { commands := ['M' :: pointToString str path.start], lastCommand := s.lastCommand, pen := path.start }
  { s with lastCommand := st.lastCommand, pen := st.pen, content := s.content ++ [.path st.commands.flatten s.stroke] }

/-- PathLib/ContourPlotter.py:137-199 `drawPaths` (the argument `close` is not used). -/
def drawPaths (str : K → List Char) (paths : List (PlotPath K)) (color : Option C) (fill : Bool)
    (s : ContourPlotter K C) : Py Unit × ContourPlotter K C :=
  if fill then (.error .typeError, s)
  else popColor color (paths.foldl (drawPath str) (pushColor color s))

/-- PathLib/ContourPlotter.py:212-221: the body of the loop of `drawPointsAsSegments`; the state is `command`, the commands and the
pen. -/
def pointStep (str : K → List Char) (st : Char × List (List Char) × Pt K) (point : Pt K) : Char × List (List Char) × Pt K :=
  if st.2.2.1 = point.1 ∧ st.2.2.2 = point.2 then st
  else (' ', st.2.1 ++ [st.1 :: pointToString str point], point)

/-- PathLib/ContourPlotter.py:202-227 `drawPointsAsSegments`. -/
def drawPointsAsSegments (str : K → List Char) (points : List (Pt K)) (color : Option C)
    (s : ContourPlotter K C) : Py Unit × ContourPlotter K C :=
  let s := pushColor color s
  match points with
  | [] => (.error .indexError, s)
  | firstPoint :: rest =>
    let st := rest.foldl (pointStep str) ('L', ['M' :: pointToString str firstPoint], firstPoint)
    popColor color { s with pen := st.2.2, content := s.content ++ [.path st.2.1.flatten s.stroke] }

/-- PathLib/ContourPlotter.py:243-252: the loop of `drawPointsAsCircles` from index `i`. -/
def circlesLoop (radius : K) (colors : List C) (fill : Bool) (i : Nat) (points : List (Pt K)) (s : ContourPlotter K C) :
    ContourPlotter K C :=
  match points with
  | [] => s
  | p :: points =>
    let s := match colors[i % colors.length]? with
      | some c => if fill then { s with fill := { s.fill with color := c } } else { s with stroke := { s.stroke with color := c } }
      | none => s
    let item := if fill then Item.disc p radius s.fill else Item.circle p radius s.stroke
    circlesLoop radius colors fill (i + 1) points { s with content := s.content ++ [item] }

/-- PathLib/ContourPlotter.py:229-254 `drawPointsAsCircles`; `colors=None` is the empty list. Points are pairs; for points that
are complex numbers see `Model/ComplexPoints.lean`. -/
def drawPointsAsCircles (points : List (Pt K)) (radius : K) (colors : List C) (fill : Bool)
    (s : ContourPlotter K C) : Py Unit × ContourPlotter K C :=
  match points with
  | [] => (.error .indexError, s)
  | _ =>
    let s := match colors with
      | [] => s
      | c :: _ => if fill then { s with fill := { s.fill with color := c } } else pushStrokeAttributes none (some c) none none s
    let s := circlesLoop radius colors fill 0 points s
    if colors ≠ [] ∧ fill = false then popStrokeAtributes s else (.ok (), s)

/-- PathLib/ContourPlotter.py:256-275 `drawComplexPointsAsCircles`: the same without the test of the first point. -/
def drawComplexPointsAsCircles (points : List (Pt K)) (radius : K) (colors : List C) (fill : Bool)
    (s : ContourPlotter K C) : Py Unit × ContourPlotter K C :=
  let s := match colors with
    | [] => s
    | c :: _ => if fill then { s with fill := { s.fill with color := c } } else pushStrokeAttributes none (some c) none none s
  let s := circlesLoop radius colors fill 0 points s
  if colors ≠ [] ∧ fill = false then popStrokeAtributes s else (.ok (), s)

/-- PathLib/ContourPlotter.py:277-278 `drawCurve`. -/
def drawCurve (str : K → List Char) (segment : Segment K) (color : Option C) (s : ContourPlotter K C) :
    Py Unit × ContourPlotter K C :=
  drawContours str [[segment]] color false false s

/-- PathLib/ContourPlotter.py:280-282 `drawText`. -/
def drawText (x y : K) (alignment text : List Char) (margin : Bool) (s : ContourPlotter K C) : ContourPlotter K C :=
  { s with content := s.content ++ [.label margin (x, y) alignment text s.labelFontSize s.fill] }

/-- PathLib/ContourPlotter.py:287-298 `drawSkeleton`. `_strokWidth` (289) is not an attribute that anything reads; `label` is the text
of a point (297), `black` is `colorBlack`. -/
def drawSkeleton (str : K → List Char) (label : Pt K → List Char) (black : C) (curve : Segment K) (lineColor : Option C)
    (pointColors : List C) (s : ContourPlotter K C) : Py Unit × ContourPlotter K C :=
  match drawPointsAsSegments str curve lineColor s with
  | (.error e, s) => (.error e, s)
  | (.ok _, s) =>
    match drawPointsAsCircles curve 2 pointColors true s with
    | (.error e, s) => (.error e, s)
    | (.ok _, s) =>
      let s := pushFillAttributes (some black) none s
      let s := { s with labelFontSize := (6, 6) }
      let s := curve.foldl (fun (s : ContourPlotter K C) (p : Pt K) =>
        drawText (p.1 + 4) (p.2 - 4) ['l', 'e', 'f', 't'] (label p) false s) s
      popFillAttributes s

/-- PathLib/ContourPlotter.py:307-311: the loop of `drawHull`. -/
def hullLoop (str : K → List Char) (lineColor : Option C) (hull : List (Pt K)) (start order : Nat) (s : ContourPlotter K C) :
    Py Unit × ContourPlotter K C :=
  if order > 1 then
    let stop := start + order
    match drawPointsAsSegments str ((hull.take stop).drop start) lineColor s with
    | (.error e, s) => (.error e, s)
    | (.ok _, s) => hullLoop str lineColor hull stop (order - 1) s
  else (.ok (), s)
termination_by order

end ContourPlotter

namespace ContourPlotter

variable {K C : Type} [Field K] [LinearOrder K]

/-- PathLib/ContourPlotter.py:300-313 `drawHull`. -/
def drawHull (str : K → List Char) (label : Pt K → List Char) (black : C) (curve : Segment K) (t : K) (lineColor : Option C)
    (pointColor : C) (s : ContourPlotter K C) : Py Unit × ContourPlotter K C :=
  match drawSkeleton str label black curve lineColor [pointColor] s with
  | (.error e, s) => (.error e, s)
  | (.ok _, s) =>
    let s := match lineColor with
      | some _ => pushStrokeAttributes none lineColor (some (1 / 2)) none s
      | none => s
    match hullLoop str lineColor (Bezier.hull curve t) curve.length (curve.length - 1) s with
    | (.error e, s) => (.error e, s)
    | (.ok _, s) => popColor lineColor s

/-- PathLib/ContourPlotter.py:315-323 `drawArrowBetweenPoints`. -/
def drawArrowBetweenPoints (startPoint endPoint : Pt K) (color : Option C) (s : ContourPlotter K C) : ContourPlotter K C :=
  let s := match color with
    | some c => { s with stroke := { s.stroke with color := c } }
    | none => s
  let s := { s with stroke := { s.stroke with dash := some ['2', ',', ' ', '1'] } }
  let s := { s with content := s.content ++ [Item.arrow startPoint endPoint s.stroke] }
  { s with stroke := { s.stroke with dash := none } }

end ContourPlotter

end PathLib
