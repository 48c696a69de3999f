import Verif.Lemmas.Bernstein
import Verif.Lemmas.BernsteinUnique
import Verif.Lemmas.Bezier
import Verif.Lemmas.BezierBounds
import Verif.Lemmas.BezierCalc
import Verif.Lemmas.Bounds
import Verif.Lemmas.CurveFitting
import Verif.Lemmas.Double
import Verif.Lemmas.Flipped
import Verif.Lemmas.FlippedContour
import Verif.Lemmas.Float
import Verif.Lemmas.FloatFit
import Verif.Lemmas.FloatRun
import Verif.Lemmas.Grid
import Verif.Lemmas.Grown
import Verif.Lemmas.GrownContour
import Verif.Lemmas.GrownMeet
import Verif.Lemmas.GrownOffset
import Verif.Lemmas.Heap
import Verif.Lemmas.HeapCurve
import Verif.Lemmas.HeapPen
import Verif.Lemmas.Matrix
import Verif.Lemmas.MatrixInversion
import Verif.Lemmas.Mirrored
import Verif.Lemmas.MirroredContour
import Verif.Lemmas.Moved
import Verif.Lemmas.MovedContour
import Verif.Lemmas.MovedMeet
import Verif.Lemmas.Relative
import Verif.Lemmas.RoundedFit
import Verif.Lemmas.Rounding
import Verif.Lemmas.Svg
import Verif.Lemmas.SvgClash
import Verif.Lemmas.Transform
import Verif.Lemmas.Turned
import Verif.Lemmas.TurnedContour
import Verif.Lemmas.TwelvePoints
import Verif.Model.Accessors
import Verif.Model.BContour
import Verif.Model.Bezier
import Verif.Model.BezierCache
import Verif.Model.BezierCore
import Verif.Model.BezierUtilities
import Verif.Model.Color
import Verif.Model.ComplexPoints
import Verif.Model.ContourPlotter
import Verif.Model.CurveFitting
import Verif.Model.Heap
import Verif.Model.HeapCurve
import Verif.Model.Legendre
import Verif.Model.MatrixInversion
import Verif.Model.NumberText
import Verif.Model.PathUtilities
import Verif.Model.Rounded
import Verif.Model.RoundedAlign
import Verif.Model.RoundedBounds
import Verif.Model.RoundedClosest
import Verif.Model.RoundedColor
import Verif.Model.RoundedFit
import Verif.Model.RoundedGeometry
import Verif.Model.RoundedIntersect
import Verif.Model.RoundedPen
import Verif.Model.RoundedRoots
import Verif.Model.SegmentPen
import Verif.Model.SegmentPenNone
import Verif.Model.SignedZero
import Verif.Model.Special
import Verif.Model.SvgText
import Verif.Model.Transform
import Verif.Props.Accessors
import Verif.Props.BContour
import Verif.Props.BContourClosest
import Verif.Props.BContourMiddle
import Verif.Props.BContourNear
import Verif.Props.BContourPath
import Verif.Props.Bezier
import Verif.Props.BezierBounds
import Verif.Props.BezierCache
import Verif.Props.BezierIntersect
import Verif.Props.BezierLength
import Verif.Props.BezierOffset
import Verif.Props.BezierQuadrature
import Verif.Props.BezierRaise
import Verif.Props.BezierReduce
import Verif.Props.BezierRoots
import Verif.Props.BezierSelf
import Verif.Props.BezierShape
import Verif.Props.BezierTight
import Verif.Props.BezierUtilities
import Verif.Props.Bounds
import Verif.Props.Coinciding
import Verif.Props.Color
import Verif.Props.ComplexPoints
import Verif.Props.ContourLut
import Verif.Props.ContourPlotter
import Verif.Props.CurveFit
import Verif.Props.CurveFitting
import Verif.Props.Double
import Verif.Props.DoubleClosest
import Verif.Props.DoubleColor
import Verif.Props.DoubleGlyph
import Verif.Props.DoubleIntersect
import Verif.Props.DoubleLines
import Verif.Props.Exchanged
import Verif.Props.Fitted
import Verif.Props.Glyph
import Verif.Props.Grown
import Verif.Props.Heap
import Verif.Props.HeapCurve
import Verif.Props.Ieee
import Verif.Props.LeastSquares
import Verif.Props.LutLength
import Verif.Props.LutPolygon
import Verif.Props.Mirrored
import Verif.Props.Moved
import Verif.Props.Near
import Verif.Props.NumberText
import Verif.Props.PathUtilities
import Verif.Props.Placed
import Verif.Props.PlotPoly
import Verif.Props.Plotting
import Verif.Props.RepoTests
import Verif.Props.Reversed
import Verif.Props.Rotate
import Verif.Props.Rounded
import Verif.Props.RoundedAlign
import Verif.Props.RoundedBounds
import Verif.Props.RoundedClosest
import Verif.Props.RoundedColor
import Verif.Props.RoundedDyadic
import Verif.Props.RoundedFit
import Verif.Props.RoundedGlyph
import Verif.Props.RoundedGrid
import Verif.Props.RoundedIntersect
import Verif.Props.RoundedLength
import Verif.Props.RoundedMatrix
import Verif.Props.RoundedPen
import Verif.Props.RoundedReduce
import Verif.Props.RoundedRoots
import Verif.Props.RoundedSimple
import Verif.Props.SamePoints
import Verif.Props.SegmentPen
import Verif.Props.SegmentPenNone
import Verif.Props.SignedZero
import Verif.Props.SimpleParts
import Verif.Props.Special
import Verif.Props.SpecialBounds
import Verif.Props.SpecialCurve
import Verif.Props.SpecialFinite
import Verif.Props.SpecialFiniteRun
import Verif.Props.SpecialLine
import Verif.Props.SpecialRun
import Verif.Props.SpecialTurn
import Verif.Props.SplitParts
import Verif.Props.SvgText
import Verif.Props.Transform
import Verif.Props.Turned
import Verif.Py
import Verif.Spec.Bernstein
import Verif.Spec.Bounds
import Verif.Spec.Contour
import Verif.Spec.Css
import Verif.Spec.Decimal
import Verif.Spec.Geometry
import Verif.Spec.Grown
import Verif.Spec.Heap
import Verif.Spec.HeapCurve
import Verif.Spec.Hypot
import Verif.Spec.Matrix
import Verif.Spec.Mirrored
import Verif.Spec.Moved
import Verif.Spec.Rounding
import Verif.Spec.Svg
import Verif.Spec.Turned
import Verif.Spec.Xml
