import Verif.Model.ContourPlotter

/-!
# Model of the SVG text written by PathLib/ContourPlotter.py

`Model/ContourPlotter.lean` keeps the elements of `_content` as `Item`s. Here is the text of the elements that the class writes
itself, the paths; the other elements are written by the base class. `strokeAttributes` is the text that `_strokeAttributes()` of the
base class returns for the current attributes.
-/

namespace PathLib.ContourPlotter

variable {K C : Type}

/-- PathLib/ContourPlotter.py:82, 126, 132: `drawContours` puts the element together in three steps. -/
def contoursText (strokeAttributes : StrokeAttributes K C → List Char) (d : List Char) (s : StrokeAttributes K C) : List Char :=
  let path := "<path d='".toList
  let path := path ++ d
  path ++ "' fill='none' ".toList ++ strokeAttributes s ++ "/>".toList

/-- PathLib/ContourPlotter.py:145, 194: `drawPaths` computes the attributes first. -/
def pathsText (strokeAttributes : StrokeAttributes K C → List Char) (d : List Char) (s : StrokeAttributes K C) : List Char :=
  let attributes := "fill='none' ".toList ++ strokeAttributes s
  "<path d='".toList ++ d ++ "' ".toList ++ attributes ++ "/>".toList

/-- PathLib/ContourPlotter.py:205, 223-225: `drawPointsAsSegments`. -/
def pointsText (strokeAttributes : StrokeAttributes K C → List Char) (d : List Char) (s : StrokeAttributes K C) : List Char :=
  let path := "<path d='".toList
  let path := path ++ d
  path ++ "' fill='none' ".toList ++ strokeAttributes s ++ "/>".toList

end PathLib.ContourPlotter
