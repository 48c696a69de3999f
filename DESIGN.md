# Formal model of ermader/PathLib in Lean 4

## Layout

* `lean/Verif/Py.lean` – exceptions-as-values, Python list indexing, Python division.
* `lean/Verif/Model/*.lean` – the model, one file per Python module, function by function.
  Every definition cites the file and lines it models.
* `lean/Verif/Spec/*.lean` – small, independent specifications (Bernstein sum, point sets of
  rectangles and segments, SVG path interpreter, connectedness of contours, ...). They do not use the model.
* `lean/Verif/Lemmas/*.lean` – helper proofs.
* `lean/Verif/Props/*.lean` – the property theorems (`Cxx_...`), each followed by `example`s showing that
  its hypotheses are met by a concrete non-trivial case.

## Trusted base

* Lean 4.33.0's kernel, and Mathlib definitions used in the statements (`ℝ`, `Real.sqrt`,
  `Real.sin/cos`, `Complex.arg`, `Matrix`, `Finset.sum`, `HasDerivAt`, `Nat.choose`).
* Axioms: only `propext`, `Classical.choice`, `Quot.sound` (checked with `#print axioms` on every property theorem).
  No `sorry`, `native_decide`, `bv_decide` and no added axioms.
* The reading of the Python source: the code was not executed. Every definition carries its source lines.

### Modelling conventions (what is *not* the code)

* **Numbers.** Python ints/floats/Decimals become elements of an ordered field `K` (any `K`: ℚ, ℝ, ...),
  or `ℝ` where `sqrt`, trigonometry or calculus are involved. Floating point and Decimal rounding, overflow, signed
  zero and infinities are *not* modelled, except: `Model/Rounded.lean` has `get`, `hull`, `split`, matrix products, `applyToPoint`,
  `midpoint`, `centerPoint`, `normal`, `simple`, `extrema`, `reduce` and `length` once more with every operation rounded, `Model/RoundedGeometry.lean` the functions on lines and `Model/RoundedBounds.lean` `bbox` and `boundsRectangle`, `Model/RoundedIntersect.lean` `overlaps`, `pairiteration` and `curveIntersects`, `Model/RoundedClosest.lean` `findClosestPoint` with any `math.hypot` of bounded error, `Model/RoundedPen.lean` the pen, `Model/RoundedFit.lean` `matrixInvert` and `fit` with `math.pow` and `math.hypot` taken to be correctly rounded, `Model/RoundedColor.lean` `randomHSLColor`, `Model/RoundedAlign.lean` aligning and the attributes of a new curve with any `math.atan2`, `sin`, `cos` accurate to one ulp (`Spec.LibmGood`), `Model/RoundedRoots.lean` `roots`, `lineIntersects` and `intersectWithLine` (C82-C85, C89-C99, C103, C111, C117; no overflow or
  underflow, which `Lemmas/Double.lean` adds: C124 shows that they do not happen in most of `Model/Rounded.lean`, in `bbox`, in drawing glyphs (`Model/RoundedPen.lean`), in the functions on lines (`Model/RoundedGeometry.lean`) in `findClosestPoint` (`Model/RoundedClosest.lean`) in `curveIntersects` (`Model/RoundedIntersect.lean`) and in `randomHSLColor` (`Model/RoundedColor.lean`) for moderate numbers, but not for `reduce`, `fit`, `roots` of cubics and aligning; signed zeros only in `Model/SignedZero.lean`, C112; NaN and infinite coordinates only in `Model/Special.lean`, C115, with exact finite arithmetic; apart from C111 and C117 the values of `acos`, `atan2` and π are exact there: `simple` uses the signs of two angles and compares `acos` with π/3); `round(·, 15)` in `Transform.sin/cos` is
  modelled exactly (half-even rounding of the exact sine/cosine); NaN from `BezierUtilities.sqrt` is modelled
  as `none`, with Python's "every comparison with NaN is false"; `math.inf` from `slope` is a separate
  constructor. Theorems about `BoundsRectangle` that use only comparisons hold for any linear order, hence for
  NaN-free floats as they are.
* **Exceptions** are values of `Except PyErr`. Division is `pdiv`, which returns `ZeroDivisionError` on 0; indexing is
  `pyGet`, with Python's negative indices and `IndexError`.
* **Objects** are immutable structures; a method that mutates returns the new object *and* the result,
  also when it raises (`Py α × Obj`). Aliasing of caller-owned lists (e.g. a caller mutating the list it passed to `Bezier(...)`, or
  a list returned by `getLUT`) is not modelled there; `Model/Heap.lean` has transforms, `flatten` and pens once more with lists on a heap, where any two
  structures may share lists (C100), and `Model/HeapCurve.lean` curves and the construction of contours (C101).
* **Loops** become structural recursion/folds; `while` loops and unbounded recursion take a fuel argument and are
  accompanied by a theorem that the fuel suffices (or the theorem quantifies over all fuels).
* **External code** (FontDocTools, fontTools glyph objects, `logging`, `random`) is a parameter
  or a minimal structure whose assumed behaviour is stated at its definition.

## Plan per property

| id | property | model and proof |
|---|---|---|
| C01 | Concatenated transforms apply left to right | Lists of 3x3 rows over a field; induction on the matrix list via homogeneous coordinates. |
| C02 | translate moves every point by toPoint-fromPoint and is undone by the reverse translate | Direct algebra. |
| C03 | Rotations fix their centre and are isometries up to the 15-digit rounding of sin/cos | Real sin/cos with exact half-even rounding to 15 digits; bound |c²+s²-1| from |round15 x - x| <= 5e-16. |
| C04 | mirrorAround is an exact involutive reflection fixing the centre | Algebra by cases on the flags. |
| C05 | Perspective transforms fix their centre; applyToPoint fails exactly when the homogeneous weight is zero | Algebra; iff by cases on the weight. |
| C06 | Transforming segments, contours and contour lists preserves structure | Induction on the lists. |
| C07 | Bezier evaluation is affine invariant | Via C30 and linearity of the Bernstein sum (weights sum to 1). |
| C08 | BoundsRectangle encloses every point it was built from, in any order | Fold invariant over the list, any linear order. |
| C09 | BoundsRectangle is tight inside the +-32768 design space | Fold invariant; minimality. |
| C10 | union is the least enclosing rectangle | Order algebra. |
| C11 | intersection describes exactly the common points | Order algebra. |
| C12 | relationTo classifies every pair of rectangles correctly | Corners decide inclusion; order algebra. |
| C13 | Contour bounds equal the bounds of all their points | Fold of unions = fold over flattened points. |
| C14 | Rectangle measurements agree with the sides | Order algebra. |
| C15 | intersectionPoint returns exactly the common point of two non-parallel segments | Cramer; parameters from the box conditions. |
| C16 | pointOnLine decides membership in the segment | Case split dx=0; the exact condition, which excludes the start point. |
| C17 | Slope and line-kind predicates are consistent and orientation independent | Case analysis; Complex.arg bounds for slopeAngle. |
| C18 | length is a metric and midpoint is equidistant | Euclidean norm facts. |
| C19 | matrixInvert returns a two-sided inverse | Loop invariant: (C | I) = E·(M | 1) with E invertible; columns < i of C are unit columns. |
| C20 | matrixInvert returns None exactly for singular or non-square input | Same invariant; when no pivot exists the current C is singular. |
| C21 | binomial(n,k) is the binomial coefficient whatever was called before | State-passing model of the table; invariant over histories. |
| C22 | multiply and transpose satisfy the matrix laws | Bridge lists <-> Mathlib Matrix. |
| C23 | basisMatrix converts between monomial and Bernstein form | Binomial theorem. |
| C24 | computeTimeValues yields an increasing parametrisation from 0 to 1 | Induction on prefix sums. |
| C25 | fit interpolates | C19,C20,C22,C23,C24 + Vandermonde determinant. |
| C26 | removeDuplicates keeps exactly the first occurrence of each value | Induction. |
| C27 | droots returns exactly the real roots | Completing the square. |
| C28 | lli returns the unique intersection of two infinite lines | Cramer. |
| C29 | lerp and map are affine interpolations | Algebra; Real.rpow. |
| C30 | get evaluates the Bernstein form for every order | de Casteljau = Bernstein by induction; small orders by ring. |
| C31 | hull lists the de Casteljau pyramid and ends in get(t) | Induction on the pyramid. |
| C32 | split(t) cuts a quadratic or cubic into two halves of the same curve | ring after unfolding. |
| C33 | split(t1,t2) extracts the subcurve | From C32. |
| C34 | Nested splits keep track of the parameter range | Invariant over split histories. |
| C35 | The curve stays inside the convex hull / bounding box of its control points | Convexity of each de Casteljau step. |
| C36 | Derivative and normal are the analytic ones | HasDerivAt. |
| C37 | bbox/boundsRectangle enclose the whole curve and are attained | Extreme value theorem + C27. |
| C38 | Cached properties do not depend on call history | Cache-coherence invariant over method histories. |
| C39 | extrema are exactly the critical parameters in [0,1] | C27. |
| C40 | getLUT samples the curve uniformly | Invariant over histories. |
| C41 | direction is truthful | Derivative sign / Bernstein difference. |
| C42 | When raiseOrder keeps the curve | Exact degree elevation without the first point; Bernstein bases are unique, so the same curve means equal control points. |
| C43 | roots returns exactly the zero crossings | Quadratic: completing the square; cubic: Cardano, trigonometric triple-angle identity. |
| C44 | lineIntersects returns only parameters whose points are in the line's box | Filter characterisation. |
| C45 | Reported curve intersections are close | C34+C37, induction on fuel; whole curves via C48. |
| C46 | No curve intersection is missed | C34+C37, induction on fuel; whole curves and self intersections via the tiling of C48. |
| C47 | pairiteration terminates for every positive threshold | Lipschitz bound on the curve gives geometric shrinking of the boxes. |
| C48 | reduce tiles the curve with simple pieces | Loop invariants of both passes; exact arithmetic (for floats see C89, C90). |
| C49 | offset and scale move the ends along the normals | Cramer for the common point of the normals; chain rule for the normals of a part. |
| C50 | getABC returns collinear A,B,C with the right ratio | Algebra. |
| C51 | length is a sensible curve length and leaves the decimal context alone | Weights positive/symmetric, finite table arithmetic; context precision as explicit state. |
| C52 | A BContour's start, end and iteration follow its edits | Refinement to list operations. |
| C53 | Contour and outline bounds enclose every curve point | C37 + fold; negation by witness. |
| C54 | Which lookup table BContour.getLUT returns | Simulation by a machine that remembers what the kept table was computed from. |
| C55 | Closest point search is consistent | Fold invariant; case analysis on the number of steps. |
| C56 | The d-string describes the contour | Independent SVG interpreter; simulation. |
| C57 | SegmentPen contours are connected, closed and non-empty | Invariant over pen calls. |
| C58 | qCurveTo decomposes TrueType splines correctly | Induction on the off-curve points. |
| C59 | addComponent adds exactly the transformed component contours | Induction on nesting. |
| C60 | Attribute push/pop is balanced | Induction over well-nested sequences. |
| C61 | When drawContours path data describes the contours | SVG interpreter; with a clash the data is read as something else or not at all. |
| C62 | Filled drawing always fails | By definition. |
| C63 | Colour keywords are case-insensitive, in range, and complete | Finite table lifted to all strings. |
| C64 | randomHSLColor cycles through all 360 hues | Arithmetic mod 360; bounds. |
| C65 | Elementary matrices act as documented | Algebra. |
| C66 | align puts the chord on the x axis | Rounded trig error bound. |
| C67 | tightbbox contains the curve | C37 + rotation algebra. |
| C68 | drawHull slices the de Casteljau levels | List slicing arithmetic on C31; SVG interpreter. |
| C69 | intersectWithLine returns a point of the curve near the line | C43 and the rounded-trigonometry bound of C66. |
| C70 | push*Attributes sets what is asked for and pop*Attributes restores it | Case analysis; negation by witness. |
| C71 | simple() | Complex.arg signs for the S shape, arccos for the angle. |
| C72 | scale and the directions at the ends | Similar triangles; strict Cauchy-Schwarz for the negative result. |
| C73 | length is close to the arc length | Kernel-checked table error for the powers of `2t-1` up to 47; truncated binomial series of the square root of the squared speed, whose remainder is an explicit polynomial. |
| C74 | rotate functions act by one near-rotation | All four reduce to one affine matrix; accuracy and near-isometry from C03, nesting and curves from C06. |
| C75 | minMax and toMicros | Case split; field arithmetic. |
| C76 | glyphs end to end | Invariant on the pen (every segment has two to four points), then C57 for closedness and C52, C56, C61 for the outline and its path data. |
| C77 | circles, curves and arrows that the plotter adds | Induction over the points with the index; C60 and C61 for drawCurve. |
| C78 | the bounds of a transformed outline | Bounds are characterised by containing and touching the curves (C53), which commute with affine maps (C07). |
| C79 | `bestFit` is the least-squares fit | Normal equations and Pythagoras; the Gram matrix of the powers is singular exactly when there are fewer than `n` distinct times (roots of polynomials). |
| C80 | How fast a curve moves | Mean value theorem along the chord; the derivative stays in the convex hull of its control points. |
| C81 | How good the closest point search is | Nearest sample by C80; one of the points of the first refinement round is within 4/5 of a step of it. Counterexample for the index used on later curves. |
| C82 | Rounding errors of curve evaluation | Standard model of rounded arithmetic; the relation "at most k rounding errors relative to M" is closed under the operations. De Casteljau: one pass multiplies bound plus error by g. |
| C83 | Rounding errors of splitting | As C82, level by level; counterexample by computing with 53 bits. |
| C84 | Rounding errors of transforms | As C82; integers of at most 53 bits are representable. |
| C85 | Midpoints stay between the ends in floating point | Monotonicity of rounding; doubling is exact. |
| C86 | Contours without on-curve points are not supported | A second model of the pen whose points may be `None`, shown to agree with the first on points. |
| C87 | Layout of a plot | Floor. |
| C88 | Accessors | Unfolding; cutting strings at separators. |
| C89 | Rounding errors of normals and of `simple` | A relation "equal up to k relative errors", closed under products, quotients, square roots and sums of positive numbers. Concrete runs in `float` are evaluated in `Lemmas/Float.lean` and `Lemmas/FloatRun.lean`, whose functions on ℚ are proved equal to the rounded model. |
| C90 | `reduce` in floating point | The loop of the rounded model has an explicit number of allowed passes; `t1 + t2` grows by at least 0.008 in each. |
| C91 | rounding errors of `length` | Exact conversion of `float` to `Decimal`; three roundings: float, the context with two more digits, the context of the caller; no overflow or underflow. |
| C92 | Lines with font coordinates lose nothing to rounding | Products of integers of 16 bits fit into 53 bits; two different quotients of such integers are further apart than a rounding error. |
| C93 | Bounds of a curve in floating point | On the grid the coefficients and the discriminant are exact integers; the computed root is within 2^-30 of the true one, and the curve is flat there, so the error of the value is of second order. |
| C94 | points given as complex numbers | a second model of the functions that take points apart; compared with the first on positions |
| C95 | TrueType glyphs lose nothing to rounding | invariant of the pen: coordinates are multiples of a power of two below a bound, so every float operation is exact |
| C96 | Matrix inversion in floating point | Invariant of the elimination loop for triangular matrices; closed formula for 2x2; `1/δ` bounded by the grid of the quotients. |
| C97 | Curve fitting in floating point | Monotonicity and idempotence of rounding for the time values; two points by evaluating the (exact) coefficient matrix; the failures by evaluating float arithmetic on rationals in the kernel. |
| C98 | The colours of `randomHSLColor` in floating point | all 360 integer hues by evaluation in the kernel; float hues: the channel is a 3-Lipschitz function on the circle, bounded rounding errors |
| C99 | Curve intersection in floating point | induction over the nested calls with a bound for the distance from the exact part of the curve; Lipschitz bound for termination; evaluation of the rounded model for the counterexamples |
| C100 | Which lists transforms, flatten and pens share | A heap of lists (address = position, new lists are appended); a list structure with its set of addresses stands for a value; each function is proved against the model with lists as values, with the set of addresses changed. |
| C101 | Which lists curves and contours keep, and which values go stale | Refinement: a curve on the heap stands for one of the model with lists as values, in which other code may replace the control points between calls; an invariant says what calls leave alone. |
| C102 | Moving a curve moves everything computed from it | Each function of the model commutes with translation, from the arithmetic helpers up; loops by induction; bounds by the characterisation of C37, closest points by a relation between the two runs. |
| C103 | The closest point search in floating point | the search with every operation rounded; error of the computed distances, of the rounded parameters and of the chosen sample, added up; 201 steps by evaluating the rounding |
| C104 | Reversing a curve | reflection of Bernstein polynomials; uniqueness of control points; order independence of minimum, maximum and union |
| C105 | Path elements are well-formed XML | independent reader for empty-element tags; invariant of the content over all calls |
| C106 | Scaling a curve | each function commutes with scaling: induction over the hull and derivative levels, invariance of atan2, of quotients and of the quadratic formula; order characterisation of minima for the boxes; counterexamples for the absolute tolerances |
| C107 | Bounds depend only on the points traced | touched and enclosing rectangles determine each other; parts of a curve stay in the design space because control points are unique; coverage from the tiling of C48 |
| C108 | Small changes of the control points | curves are linear in the control points, so the difference of two curves is the curve of the differences, which stays within the hull; rectangles by touching points; length by the triangle inequality for the quadrature |
| C109 | Rotating a curve | each function commutes with rotation: induction over the hull and derivative levels and over the steps of the search, invariance of cross and dot products and of distances; counterexamples for direction and bounds |
| C110 | Fitting transformed, reversed and sampled points | a polynomial of degree below n in Bernstein form is determined by n values (counting roots); path lengths of similar and reversed polygons by induction; counterexample by computation |
| C111 | Aligning, `linear` and `clockwise` in floating point | every operation rounded, `math` functions a parameter with an error of one ulp; errors of angle, sine and cosine added up; integers of 16 bits keep the sign of the cross product |
| C112 | What the sign of zero decides | numbers with a sign bit that zero keeps; IEEE rules for sums, products and atan2; case analysis over the signs of the coordinates |
| C113 | Mirroring a curve mirrors what is computed from it | crossed products change sign and scalar products stay; roots of p and -p are permutations of each other; sentinels of the bounds are symmetric; counterexamples by computation |
| C114 | Exchanging the two curves exchanges the parameters of their intersections | induction on the recursion limit; permutations; duplicates removed from permuted lists |
| C115 | NaN and infinite coordinates | a second model over numbers with NaN and two infinities, shown to agree with the exact one for finite coordinates; case analysis, induction over levels and recursion depth |
| C116 | coinciding control points | every part of a curve that stops stops too; alignment without direction is a translation; signed zeros from C112 |
| C117 | roots and intersections with lines, in floating point | exact coefficients on the grid; discriminant exact; error of the root formula; quarter turns are exact up to the weight; tolerance beats error times slope |
| C118 | the polygon through the samples of a curve | the error of linear interpolation is the second derivative at the mean of three parameters; chords are integrals of the velocity |
| C119 | what is computed from a part of a curve agrees with the whole | a part is the curve after an affine change of parameter; chain rule, Bernstein coefficients of the part as blossoms, substitution in the arc length |
| C120 | parameters with few bits lose nothing to rounding | every intermediate result is a multiple of a power of two that fits into 53 bits; the limit is shown by a point with 54 bits |
| C121 | simple curves and their parts, number of parts | direction of a quadratic as a convex combination of the legs; induction over the loop of `reduce` |
| C122 | numbers in path data read back | the layout with and without exponent read digit by digit; two decimals of 15 digits differ by more than two rounding errors; shortest decimals by minimality |
| C123 | from a font to SVG text in floating point | invariant of the pen with rounded arithmetic; rounded results are floats; C122 |
| C124 | no underflow or overflow for moderate numbers | `roundDouble`: 53 bits, last bit at least 2^-1074, infinity from 2^1024; both computations run side by side, with the invariant that numbers are equal, multiples of 2^-e and at most 2^k. The value in place of infinity is arbitrary. `Props/Ieee.lean` characterises both roundings by the numbers of the format: nearest, ties to even, where overflow begins. |

## What is modelled

| Python file | Lean model | not modelled |
|---|---|---|
| PathTypes.py | `Py.lean` (`Pt`, `Segment`, `Contour`) | |
| PathUtilities.py | `Model/PathUtilities.lean`, `Model/Accessors.lean`, `Model/ComplexPoints.lean` (points given as complex numbers) | nothing |
| Transform.py | `Model/Transform.lean`, `Model/Heap.lean` | |
| MatrixInversion.py | `Model/MatrixInversion.lean`, `Model/RoundedFit.lean` | |
| CurveFitting.py | `Model/CurveFitting.lean`, `Model/RoundedFit.lean` | the module's `test()` printing |
| BezierUtilities.py | `Model/BezierUtilities.lean`, `Model/Legendre.lean` | Decimal rounding in this model (the precision of the context *is* modelled; `length` with decimal rounding is in `Model/Rounded.lean`, C91) |
| Bezier.py, class `Bezier` | `Model/BezierCore.lean`, `Model/Bezier.lean`, `Model/BezierCache.lean`, `Model/Accessors.lean`, `Model/HeapCurve.lean`, `Model/RoundedAlign.lean`, `Model/RoundedRoots.lean`, `Model/SignedZero.lean`, `Model/Special.lean` | the accessors `controlPoints`, `direction`, `pointXY`, `xyPoint`, which return what they are given |
| Bezier.py, `BContour`, `BOutline` | `Model/BContour.lean`, `Model/HeapCurve.lean` (construction), `Model/RoundedClosest.lean` | |
| SegmentPen.py | `Model/SegmentPen.lean`, `Model/SegmentPenNone.lean`, `Model/RoundedPen.lean`, `Model/Heap.lean` | logging |
| Color.py | `Model/Color.lean`, `Model/RoundedColor.lean` | `FontDocTools.Color` beyond storing its components |
| ContourPlotter.py | `Model/ContourPlotter.lean`, `Model/SvgText.lean`, `Model/NumberText.lean`, `Model/Accessors.lean` | the SVG text of the elements written by the base class (circles, labels, arrows) |

### Comparison with the repository's tests

`Props/RepoTests.lean` states every assertion of `/repo/tests` as an example about the model; all hold. (These are checks of the model,
not proofs of properties.)

### Assumptions about external code

* `FontDocTools.GlyphPlotterEngine`: the setters store what they are given, `moveToXY` sets the pen, and drawing a circle, label or
  arrow appends one element and changes no attribute (stated at the top of `Model/ContourPlotter.lean`). `_strokeAttributes()` writes
  attributes with different names and plain values in single quotes (`Spec.StrokeText`, used by C105 only).
* `FontDocTools.Color`: stores its three components; `str.isalpha` and `str.lower` are parameters.
* `fontTools` pens: a glyph is the list of calls it makes on the pen; component recursion has an explicit depth.
* Python's `str` on numbers is a parameter of the model of path data. Most theorems about path data assume only that the coordinates
  which occur are printed without command letters or separators in a form that reads back as the same number (`Spec.Svg.Printable`).
  C122 proves this assumption for floats from what the documentation of Python says of `repr`: it chooses a shortest decimal that
  rounds to the number (`Spec.Decimal.Shortest`). The layout of the digits (`Model/NumberText.lean`) follows CPython's
  `format_float_short`. `nan` and `inf` are not printed numbers.

## Defects of the code found while proving

Each is a theorem ending in `_counterexample` (or is mentioned in the theorem's comment).

* Transform/PathUtilities: the +-32768 sentinels leak (C09, C13, C15); the start of a line is not "on" it (C16).
* Bezier: `raiseOrder` duplicates the first point (C42); `split(t1, 0)`-style calls ignore a zero `t2` (C33); `_derivative` is wrong for
  order 1 and above 3 (C36); in floats `split(1)` can miss the end of the curve (C83), `simple` and `reduce` raise
  `ValueError` for straight curves such as (0,0), (3,3), (6,6) (C89, C90), and the parts between neighbouring parameters do not join (C90); `bbox` for order above 3 (C37), and in floats for cubics whose third difference is only a rounding error (C93); `extrema` depends on the call history (C38); `length` leaks the decimal
  precision (C51); `roots` of cubics with a tiny discriminant (C43);
  `scale` with a number turns the ends of the curve, and `scale` with a function fails for quadratics (C72);
  whether a cubic with an inner control point on its base line is `simple()` depends on its direction (C104) and on its side (C113);
  the absolute tolerances make small cubics lose their roots and small curves straight lines (C106),
  and long flat curves such as (0,0), (1,0), (20000,1) straight (C111); the sign of zero makes `simple` and `clockwise` depend on the direction of the chord (C112);
  with NaN or infinite coordinates `hull` and `get` disagree, bounds shrink to the ends or grow to +-9007199254740991, transforms lose the finite coordinate too, control points at infinity are overlooked when a curve is tested for being straight, and `pairiteration` recurses without end (C115);
  for curves without a handle at the start `reduce`, `offset` and `intersects` raise `ZeroDivisionError`, curves that stop are never found to intersect anything, and a line without direction counts as horizontal (C116);
  `simple()` is True for some cubics with a loop or a cusp (C121); curves of a size near 2^-600 raise `ZeroDivisionError` in `normal` by underflow (C124).
* BContour: `__setitem__`/`__delitem__` leave bounds and lookup table stale (C53, C54); deleting the last curve raises after the change (C52);
  `getLUT` compares the wrong length (C54); `findClosestPoint` fails for 402 and more steps and never returns the ends (C55), and looks one sample too early on later curves (C81);
  curves of order 4 and above are omitted from `d` (C56).
* ContourPlotter: `fill=True` always raises (C62); poly mode writes wrong path data (C61); raising calls and filled circles leak attributes
  (C60); zero widths and opacities are ignored (C70); plots less than 20 units high get labels of size 0 (C87);
  `drawSkeleton` and `drawHull` change the fill colour and the label font size for everything drawn later (C68).
* MatrixInversion, CurveFitting: in floats a singular matrix can be inverted and a regular one rejected (C96); `fit` does not notice
  repeated points and is far off for twelve points (C97).
* Color: in floats twelve of the 360 colours of `randomHSLColor` are one off in a component, and the hue can become 360 (C98).
* Transform/SegmentPen: `Transform(m)` keeps the caller's list and `contours` returns the pen's own (C100). Bezier: the curve keeps the caller's list, and after a change of it the cached values
  and `direction` are stale while `get` is not (C101).
* SegmentPen: contours without on-curve points raise or contain `None` (C86).
