import Verif.Model.BContour
import Mathlib.Algebra.Order.Floor.Defs

/-!
# Model of small accessors: Bezier.py, PathUtilities.py, and the layout computed in ContourPlotter.py
-/

namespace PathLib
namespace Bezier
variable {K : Type} [Field K] [LinearOrder K]

/-- PathLib/Bezier.py:230-232 `start`. -/
def start (ps : Segment K) : Py (Pt K) := pyGet ps 0

/-- PathLib/Bezier.py:234-236 `startX`. -/
def startX (ps : Segment K) : Py K := do return (← start ps).1

/-- PathLib/Bezier.py:238-240 `startY`. -/
def startY (ps : Segment K) : Py K := do return (← start ps).2

/-- PathLib/Bezier.py:242-244 `end`. -/
def stop (ps : Segment K) : Py (Pt K) := pyGet ps (-1)

/-- PathLib/Bezier.py:246-248 `endX`. -/
def endX (ps : Segment K) : Py K := do return (← stop ps).1

/-- PathLib/Bezier.py:250-252 `endY`. -/
def endY (ps : Segment K) : Py K := do return (← stop ps).2

/-- PathLib/Bezier.py:313-315 `midpoint`. -/
def midpoint (ps : Segment K) : Py (Pt K) := get ps (1 / 2)

end Bezier

/-- PathLib/PathUtilities.py:72-73 `BoundsRectangle.__str__`; `str` is Python's `str` on coordinates. -/
def BoundsRectangle.toStr {K : Type} (str : K → List Char) (b : BoundsRectangle K) : List Char :=
  ['[', '('] ++ str b.left ++ [',', ' '] ++ str b.bottom ++ [')', ',', ' ', '('] ++ str b.right ++ [',', ' '] ++ str b.top ++ [')', ']']

/-- What `ContourPlotter.__init__` passes to `setContentMargins`, `setFrameMargins` and `setLabelFontSize`; the four margins are in the
order of the arguments of `GlyphPlotterEngine.Margins`. -/
structure PlotLayout (K : Type) where
  content : K × K × K × K
  frame : K × K × K × K
  labelFontSize : K × K

/-- PathLib/ContourPlotter.py:16-25: the layout in `__init__`. `x // 20` is the integer below `x / 20`. The top margin is the second or
the fourth of the four arguments; these are equal. -/
def plotLayout {K : Type} [Field K] [LinearOrder K] [FloorRing K] (bounds : K × K × K × K) : PlotLayout K :=
  let (left, bottom, right, top) := bounds
  let width := right - left
  let height := top - bottom
  let floorDiv (x : K) : K := (⌊x / 20⌋ : ℤ)
  let margins := (floorDiv width, floorDiv height, floorDiv width, floorDiv height)
  let fs := margins.2.1 / 2
  { content := margins, frame := (10, 10, 10, 10), labelFontSize := (fs, fs) }

end PathLib
