{"id": "C01", "title": "Concatenated transforms apply left to right", "statement": "For any sequence of 3x3 matrices m1..mn, Transform(m1,...,mn).applyToPoint(p) equals applying Transform(m1), then Transform(m2), ... to p in that order whenever every single step is defined; if every matrix is affine (last column 0,0,1) this is unconditional. Transform() with no matrix raises IndexError.", "quantifier": "every number n>=1 of matrices, every matrix entry, every point", "why_tests_cant": "a test fixes the number of matrices and their entries; the law is over unbounded chains and all reals", "anchors": ["PathLib/Transform.py:Transform.__init__", "PathLib/Transform.py:concatenateMatrices", "PathLib/Transform.py:multiplyMatrixByMatrix", "PathLib/Transform.py:applyToPoint"]}
{"id": "C02", "title": "translate moves every point by toPoint-fromPoint and is undone by the reverse translate", "statement": "Transform.translate(a,b).applyToPoint(p) = p + (b-a); in particular a goes to b, and translate(b,a) after translate(a,b) gives back p.", "quantifier": "all points a, b, p", "why_tests_cant": "universally quantified over the plane", "anchors": ["PathLib/Transform.py:translate", "PathLib/Transform.py:_translateMatrix", "PathLib/Transform.py:applyToPoint"]}
{"id": "C03", "title": "Rotations fix their centre and are isometries up to the 15-digit rounding of sin/cos", "statement": "rotationAbout(c,deg,ccw) maps c to c exactly, for every angle; it multiplies every squared distance by one common factor that differs from 1 by at most 3e-15; for multiples of 90 degrees the factor is exactly 1 and the map is the exact quarter turn; the cw rotation by the same angle undoes the ccw rotation up to that factor.", "quantifier": "all centres, points, angles and both directions", "why_tests_cant": "sampled angles cannot show the bound for every real angle", "anchors": ["PathLib/Transform.py:rotationAbout", "PathLib/Transform.py:_rotationMatrix", "PathLib/Transform.py:sin", "PathLib/Transform.py:cos", "PathLib/PathUtilities.py:rotatePointAbout"]}
{"id": "C04", "title": "mirrorAround is an exact involutive reflection fixing the centre", "statement": "mirrorAround(c,xAxis,yAxis) applied twice is the identity, fixes c, maps (x,y) to (2cx-x if yAxis else x, 2cy-y if xAxis else y) and preserves distances exactly; mirror(xAxis,yAxis) likewise about the origin.", "quantifier": "all centres, points and flag combinations", "why_tests_cant": "infinitely many points and centres", "anchors": ["PathLib/Transform.py:mirrorAround", "PathLib/Transform.py:_mirrorMatrix", "PathLib/Transform.py:mirror"]}
{"id": "C05", "title": "Perspective transforms fix their centre; applyToPoint fails exactly when the homogeneous weight is zero", "statement": "perspectiveFrom(c,p,q) maps c to c; applyToPoint on a 3x3 transform raises ZeroDivisionError if and only if px*m13+py*m23+m33 = 0, and otherwise returns the normalised point.", "quantifier": "all centres, p, q, matrices and points", "why_tests_cant": "the failing set is a line of measure zero that random tests never hit", "anchors": ["PathLib/Transform.py:perspectiveFrom", "PathLib/Transform.py:_perspectiveMatrix", "PathLib/Transform.py:applyToPoint"]}
{"id": "C06", "title": "Transforming segments, contours and contour lists preserves structure", "statement": "applyToSegment / applyToContour / applyToContours return lists with the same lengths and nesting, whose every point is applyToPoint of the corresponding input point; they fail exactly if some point fails.", "quantifier": "all nested lists of any length", "why_tests_cant": "unbounded nesting lengths", "anchors": ["PathLib/Transform.py:applyToSegment", "PathLib/Transform.py:applyToContour", "PathLib/Transform.py:applyToContours"]}
{"id": "C07", "title": "Bezier evaluation is affine invariant", "statement": "For every affine Transform and every control polygon of any order, transforming the control points and then evaluating at t gives the transform of the evaluated point.", "quantifier": "every affine matrix, order>=1, t, control points", "why_tests_cant": "needs all orders and all real inputs", "anchors": ["PathLib/Transform.py:applyToSegment", "PathLib/Bezier.py:Bezier.get", "PathLib/Bezier.py:Bezier._compute"]}
{"id": "C08", "title": "BoundsRectangle encloses every point it was built from, in any order", "statement": "For every list of points, BoundsRectangle(*points).enclosesPoint(p) holds for each p in the list, and the rectangle does not depend on the order or multiplicity of the points.", "quantifier": "all point lists of any length and every permutation", "why_tests_cant": "lists are unbounded and permutations factorial", "anchors": ["PathLib/PathUtilities.py:BoundsRectangle.__init__", "PathLib/PathUtilities.py:BoundsRectangle.enclosesPoint"]}
{"id": "C09", "title": "BoundsRectangle is tight inside the +-32768 design space", "statement": "If the list is non-empty and all coordinates lie in [-32768, 32768], each side of the rectangle touches a point, and any rectangle enclosing all the points encloses it. In general each side is the least (greatest) of the coordinates and the sentinel 32768 (-32768), so the sentinel leaks when all the points are beyond it.", "quantifier": "all non-empty point lists", "why_tests_cant": "all lists, and minimality quantifies over every other rectangle", "anchors": ["PathLib/PathUtilities.py:BoundsRectangle.__init__"]}
{"id": "C10", "title": "union is the least enclosing rectangle", "statement": "a.union(b) encloses a and b and is enclosed by each rectangle that encloses both; union is commutative, associative and idempotent on non-empty rectangles; the empty rectangle is its identity on them. (The union of the empty rectangle with itself is the whole +-32768 square.)", "quantifier": "all pairs/triples of rectangles", "why_tests_cant": "algebraic law over all rectangles", "anchors": ["PathLib/PathUtilities.py:BoundsRectangle.union", "PathLib/PathUtilities.py:BoundsRectangle.encloses"]}
{"id": "C11", "title": "intersection describes exactly the common points", "statement": "For non-empty rectangles in the design space a.intersection(b) is None iff no point is enclosed by both, and otherwise encloses exactly the points enclosed by both; the operation is symmetric.", "quantifier": "all rectangle pairs and all points", "why_tests_cant": "point-set equality ranges over the whole plane", "anchors": ["PathLib/PathUtilities.py:BoundsRectangle.intersection", "PathLib/PathUtilities.py:BoundsRectangle.enclosesPoint"]}
{"id": "C12", "title": "relationTo classifies every pair of rectangles correctly", "statement": "relationTo answers Encloses iff all points of other are in self; otherwise Enclosed iff all points of self are in other; otherwise Intersects iff they share a point; otherwise Separate.", "quantifier": "all pairs of non-empty rectangles", "why_tests_cant": "set inclusion over all points", "anchors": ["PathLib/PathUtilities.py:BoundsRectangle.relationTo", "PathLib/PathUtilities.py:BoundsRectangle.encloses", "PathLib/PathUtilities.py:BoundsRectangle.intersection"]}
{"id": "C13", "title": "Contour bounds equal the bounds of all their points", "statement": "fromContour(c) and fromCoutours(cs) enclose every point of every segment and equal BoundsRectangle of the flattened points, provided the first segment (contour) is not empty; a leading empty segment turns the result into the whole +-32768 square.", "quantifier": "all contours with any number of segments", "why_tests_cant": "unbounded nesting", "anchors": ["PathLib/PathUtilities.py:BoundsRectangle.fromContour", "PathLib/PathUtilities.py:BoundsRectangle.fromCoutours", "PathLib/PathUtilities.py:flatten"]}
{"id": "C14", "title": "Rectangle measurements agree with the sides", "statement": "For a non-empty rectangle width, height and area are non-negative, area is width*height, centerPoint is enclosed, yFromBottom/xFromLeft are affine with values bottom/top (left/right) at 0/1 and stay inside for fractions in [0,1]; contour is a closed chain of 4 sides whose bounds are the rectangle again.", "quantifier": "all rectangles and fractions", "why_tests_cant": "all reals", "anchors": ["PathLib/PathUtilities.py:BoundsRectangle.width", "PathLib/PathUtilities.py:BoundsRectangle.centerPoint", "PathLib/PathUtilities.py:BoundsRectangle.yFromBottom", "PathLib/PathUtilities.py:BoundsRectangle.xFromLeft", "PathLib/PathUtilities.py:BoundsRectangle.contour", "PathLib/PathUtilities.py:BoundsRectangle.area"]}
{"id": "C15", "title": "intersectionPoint returns exactly the common point of two non-parallel segments", "statement": "If intersectionPoint(l1,l2) returns a point, the point lies on both segments; if two non-parallel segments have a common point, that point is returned; parallel lines give None. (Design space +-32768.)", "quantifier": "all pairs of segments", "why_tests_cant": "geometric iff over all segment pairs", "anchors": ["PathLib/PathUtilities.py:intersectionPoint", "PathLib/BezierUtilities.py:lli", "PathLib/BezierUtilities.py:lli8"]}
{"id": "C16", "title": "pointOnLine decides membership in the segment", "statement": "For a line that starts in the design space +-32768, pointOnLine(p,line) is true iff p lies on the segment and is not the start of a non-vertical segment; it never raises for two points. (So the start point of a non-vertical segment is reported as not on it, and outside the design space points on the segment can be missed or others accepted.)", "quantifier": "all points and segments", "why_tests_cant": "iff over all reals; the failure is a measure zero case", "anchors": ["PathLib/PathUtilities.py:pointOnLine", "PathLib/PathUtilities.py:slope"]}
{"id": "C17", "title": "Slope and line-kind predicates are consistent and orientation independent", "statement": "slope is inf iff dx=0, otherwise dy/dx; reversing a segment does not change slope, isVerticalLine, isHorizontalLine, isDiagonalLine; a two-point segment with distinct ends is exactly one of vertical, horizontal, diagonal; curves are none of them; slopeAngle lies in [0,90].", "quantifier": "all segments", "why_tests_cant": "all reals and all segment lengths", "anchors": ["PathLib/PathUtilities.py:slope", "PathLib/PathUtilities.py:isVerticalLine", "PathLib/PathUtilities.py:isHorizontalLine", "PathLib/PathUtilities.py:isDiagonalLine", "PathLib/PathUtilities.py:slopeAngle", "PathLib/PathUtilities.py:getDeltas"]}
{"id": "C18", "title": "length is a metric and midpoint is equidistant", "statement": "length([a,b]) is symmetric, zero iff a=b, satisfies the triangle inequality and is invariant under translation; midpoint(line) is at half the length from both ends and lies on the line.", "quantifier": "all points", "why_tests_cant": "triangle inequality over all triples", "anchors": ["PathLib/PathUtilities.py:length", "PathLib/PathUtilities.py:midpoint"]}
{"id": "C19", "title": "matrixInvert returns a two-sided inverse", "statement": "Whenever matrixInvert(M) returns a matrix I for an n x n M, multiply(M,I) and multiply(I,M) are the identity of size n.", "quantifier": "every n and every matrix", "why_tests_cant": "unbounded size", "anchors": ["PathLib/MatrixInversion.py:matrixInvert", "PathLib/CurveFitting.py:multiply"]}
{"id": "C20", "title": "matrixInvert returns None exactly for singular or non-square input", "statement": "For an n x n matrix, matrixInvert returns None iff its determinant is 0; for a non-square matrix (len(M) != len(M[0])) it returns None; no exception for a square one.", "quantifier": "every n and matrix", "why_tests_cant": "pivoting must never miss a usable row, at any size", "anchors": ["PathLib/MatrixInversion.py:matrixInvert"]}
{"id": "C21", "title": "binomial(n,k) is the binomial coefficient whatever was called before", "statement": "For every history of binomial calls (which grow the shared module-level table), binomial(n,k) for 0<=k<=n returns n choose k, and the table is always Pascal's triangle.", "quantifier": "every finite history of calls, every n, k", "why_tests_cant": "the shared cache makes the result history dependent in principle", "anchors": ["PathLib/CurveFitting.py:binomial", "PathLib/CurveFitting.py:binomialCoefficients"]}
{"id": "C22", "title": "multiply and transpose satisfy the matrix laws", "statement": "multiply is the matrix product (associative, identity neutral), transpose is an involution and transpose(A*B)=transpose(B)*transpose(A), for all rectangular sizes.", "quantifier": "all compatible sizes", "why_tests_cant": "unbounded sizes", "anchors": ["PathLib/CurveFitting.py:multiply", "PathLib/CurveFitting.py:transpose", "PathLib/CurveFitting.py:col"]}
{"id": "C23", "title": "basisMatrix converts between monomial and Bernstein form", "statement": "For every n>=1 and t, the row vector [1,t,...,t^(n-1)] times basisMatrix(n) is the vector of Bernstein polynomials of degree n-1 at t; the matrix is lower triangular with determinant != 0.", "quantifier": "every n, t", "why_tests_cant": "unbounded n", "anchors": ["PathLib/CurveFitting.py:basisMatrix", "PathLib/CurveFitting.py:binomial"]}
{"id": "C24", "title": "computeTimeValues yields an increasing parametrisation from 0 to 1", "statement": "For any list of at least two points with consecutive points distinct, computeTimeValues returns n values starting at 0, ending at 1, strictly increasing (polygonal), and i/(n-1) otherwise; when all points coincide the polygonal variant raises ZeroDivisionError.", "quantifier": "all point lists", "why_tests_cant": "unbounded lists of reals", "anchors": ["PathLib/CurveFitting.py:computeTimeValues", "PathLib/CurveFitting.py:dist"]}
{"id": "C25", "title": "fit interpolates", "statement": "For any list of at least two points whose consecutive points differ, fit(points) succeeds and the Bezier curve with the returned control points passes through points[i] at time s[i].", "quantifier": "all point lists of every length", "why_tests_cant": "needs Gaussian elimination, Vandermonde and Bernstein facts for every n", "anchors": ["PathLib/CurveFitting.py:fit", "PathLib/CurveFitting.py:bestFit", "PathLib/CurveFitting.py:formTMatrix", "PathLib/MatrixInversion.py:matrixInvert"]}
{"id": "C26", "title": "removeDuplicates keeps exactly the first occurrence of each value", "statement": "The result has no duplicates, the same members as the input, preserves order of first occurrences, and applying it twice changes nothing.", "quantifier": "all lists", "why_tests_cant": "unbounded lists", "anchors": ["PathLib/BezierUtilities.py:removeDuplicates"]}
{"id": "C27", "title": "droots returns exactly the real roots", "statement": "For 2 or 3 Bernstein coefficients, not all equal to zero, the non-NaN values returned by droots are exactly the real roots of the polynomial; for any other length the result is empty.", "quantifier": "all coefficient lists", "why_tests_cant": "iff over all reals", "anchors": ["PathLib/BezierUtilities.py:droots", "PathLib/BezierUtilities.py:sqrt"]}
{"id": "C28", "title": "lli returns the unique intersection of two infinite lines", "statement": "lli returns None iff the lines are parallel (or a line is degenerate); otherwise it returns the only point on both lines, and it is symmetric in its arguments.", "quantifier": "all line pairs", "why_tests_cant": "uniqueness quantifies over all points", "anchors": ["PathLib/BezierUtilities.py:lli", "PathLib/BezierUtilities.py:lli4", "PathLib/BezierUtilities.py:lli8"]}
{"id": "C29", "title": "lerp and map are affine interpolations", "statement": "lerp(r,a,b) is a at 0, b at 1 and stays in the bounds for r in [0,1]; map sends ds to ts, de to te, is inverse to the swapped map, and raises ZeroDivisionError iff ds=de; crt(v) cubed is v and crt is odd.", "quantifier": "all reals", "why_tests_cant": "all reals", "anchors": ["PathLib/BezierUtilities.py:lerp", "PathLib/BezierUtilities.py:map", "PathLib/BezierUtilities.py:crt"]}
{"id": "C30", "title": "get evaluates the Bernstein form for every order", "statement": "For every Bezier of any order and any t, get(t) is the Bernstein sum over its control points; get(0) and get(1) are exactly the first and last control points.", "quantifier": "every order, t, control points", "why_tests_cant": "unbounded order", "anchors": ["PathLib/Bezier.py:Bezier.get", "PathLib/Bezier.py:Bezier._compute"]}
{"id": "C31", "title": "hull lists the de Casteljau pyramid and ends in get(t)", "statement": "hull(t) starts with the control points, has n(n+1)/2 points for n control points, and its last point is get(t).", "quantifier": "every order, t", "why_tests_cant": "unbounded order", "anchors": ["PathLib/Bezier.py:Bezier.hull", "PathLib/BezierUtilities.py:lerp"]}
{"id": "C32", "title": "split(t) cuts a quadratic or cubic into two halves of the same curve", "statement": "For curves of order 2 or 3, (left,right,_)=split(t): left.get(s)=get(t*s) and right.get(s)=get(t+s*(1-t)) for all s, and they share the point get(t).", "quantifier": "all t, s, control points", "why_tests_cant": "functional identity over all reals", "anchors": ["PathLib/Bezier.py:Bezier.split", "PathLib/Bezier.py:Bezier.hull"]}
{"id": "C33", "title": "split(t1,t2) extracts the subcurve", "statement": "For order 2 or 3, t2 not 0, and t1 != 1 or t2 = 1, split(t1,t2).get(s) = get(t1+s*(t2-t1)); for t1=1 and t2 not in {0,1} it raises ZeroDivisionError.", "quantifier": "all t1,t2,s", "why_tests_cant": "includes shortcut and division-by-zero corner cases for all reals", "anchors": ["PathLib/Bezier.py:Bezier.split", "PathLib/BezierUtilities.py:map"]}
{"id": "C34", "title": "Nested splits keep track of the parameter range", "statement": "After any sequence of split operations starting from a fresh curve, each piece records two parameters t1 and t2 of the original curve, and the piece at s is the original at t1 + s*(t2-t1) for all s.", "quantifier": "every finite history of splits", "why_tests_cant": "inductive over histories", "anchors": ["PathLib/Bezier.py:Bezier.split", "PathLib/BezierUtilities.py:map"]}
{"id": "C35", "title": "The curve stays inside the convex hull / bounding box of its control points", "statement": "For t in [0,1] and any order, get(t) lies in the bounding rectangle of the control points, and skeletonBounds encloses the curve.", "quantifier": "every order, t in [0,1]", "why_tests_cant": "unbounded order, continuum of t", "anchors": ["PathLib/Bezier.py:Bezier.get", "PathLib/Bezier.py:Bezier.skeletonBounds", "PathLib/PathUtilities.py:BoundsRectangle.fromContour"]}
{"id": "C36", "title": "Derivative and normal are the analytic ones", "statement": "For order 2 and 3 the internal derivative used by normal is the derivative of get at t; normal(t) is a unit vector orthogonal to it, and raises ZeroDivisionError iff the derivative vanishes; the internal tangent is the unit vector along the derivative.", "quantifier": "all t, control points", "why_tests_cant": "calculus statement", "anchors": ["PathLib/Bezier.py:Bezier._derivative", "PathLib/Bezier.py:Bezier.normal", "PathLib/Bezier.py:Bezier.dcPoints"]}
{"id": "C37", "title": "bbox/boundsRectangle enclose the whole curve and are attained", "statement": "For order 1,2,3 boundsRectangle.enclosesPoint(get(t)) for each t in [0,1]; within the design space every side is touched by a curve point. For order 4 and more the enclosure can fail.", "quantifier": "all control points and all t in [0,1]", "why_tests_cant": "continuum of t and of curves", "anchors": ["PathLib/Bezier.py:Bezier.bbox", "PathLib/Bezier.py:Bezier.boundsRectangle", "PathLib/Bezier.py:Bezier.extrema", "PathLib/Bezier.py:Bezier._getminmax"]}
{"id": "C38", "title": "Cached properties do not depend on call history", "statement": "Whatever sequence of property reads/method calls was made on a Bezier before, bbox, boundsRectangle, dcPoints, getLUT(n), length, reduce return the value a fresh object would return; extrema does not (bbox and reduce insert 0 and 1 into the cached lists).", "quantifier": "every finite history of method calls", "why_tests_cant": "history quantifier", "anchors": ["PathLib/Bezier.py:Bezier.bbox", "PathLib/Bezier.py:Bezier.extrema", "PathLib/Bezier.py:Bezier.getLUT", "PathLib/Bezier.py:Bezier.reduce", "PathLib/Bezier.py:Bezier.length"]}
{"id": "C39", "title": "extrema are exactly the critical parameters in [0,1]", "statement": "On a fresh order-2/3 curve extrema[d] lists only t in [0,1] at which the first (or for cubics second) derivative of coordinate d vanishes, contains every interior critical point of a non-constant coordinate, and extrema[2] is their sorted duplicate-free union.", "quantifier": "all control points", "why_tests_cant": "iff over reals", "anchors": ["PathLib/Bezier.py:Bezier.extrema", "PathLib/BezierUtilities.py:droots"]}
{"id": "C40", "title": "getLUT samples the curve uniformly", "statement": "For steps>=2 getLUT(steps) has steps points, point i being get(i/(steps-1)); steps=1 raises ZeroDivisionError; repeated calls with different steps never return a stale table.", "quantifier": "all steps, all call histories", "why_tests_cant": "history and unbounded steps", "anchors": ["PathLib/Bezier.py:Bezier.getLUT"]}
{"id": "C41", "title": "direction is truthful", "statement": "If direction is dir_up (dir_down) then y is monotone non-decreasing (non-increasing) along t in [0,1]; a line is dir_flat iff horizontal; reversing the control points swaps up and down, except for quadratics and cubics whose ordinates all agree: these are up in both directions.", "quantifier": "all curves of order 1..3", "why_tests_cant": "monotonicity over a continuum", "anchors": ["PathLib/Bezier.py:Bezier._computeDirection", "PathLib/Bezier.py:Bezier.direction"]}
{"id": "C42", "title": "When raiseOrder keeps the curve", "statement": "raiseOrder() should return a curve of order+1 tracing the same points, but the code emits one control point too many (the first point twice). Exactly: the curve returned has order+2, dropping its first control point gives a curve with get(t) equal to the original's for all t, and the curve returned itself traces the original exactly when all control points coincide.", "quantifier": "every order and t", "why_tests_cant": "all orders; the violation needs all t", "anchors": ["PathLib/Bezier.py:Bezier.raiseOrder"]}
{"id": "C43", "title": "roots returns exactly the zero crossings", "statement": "For a quadratic, roots() is exactly the list of t (within 1e-6 of [0,1]) with y(t)=0; for a cubic whose leading coefficient and discriminant are not within 1e-6 of 0, each returned t satisfies y(t)=0 and every zero in [0,1] is returned. For every curve of order 2 or more and every line, roots() returns normally with at most three parameters, all within 1e-6 of [0,1]; above order 3 it looks only at the first four control points.", "quantifier": "all control points", "why_tests_cant": "Cardano correctness over reals", "anchors": ["PathLib/Bezier.py:Bezier.roots", "PathLib/BezierUtilities.py:crt", "PathLib/BezierUtilities.py:sqrt"]}
{"id": "C44", "title": "lineIntersects returns only parameters whose points are in the line's box", "statement": "Each t returned by lineIntersects(line) is returned by roots(line) and get(t) lies in the bounding box of line within 1e-6; none that satisfies this is dropped.", "quantifier": "all curves and lines", "why_tests_cant": "all reals", "anchors": ["PathLib/Bezier.py:Bezier.lineIntersects", "PathLib/BezierUtilities.py:between", "PathLib/BezierUtilities.py:approximately"]}
{"id": "C45", "title": "Reported curve intersections are close", "statement": "Each pair (s,t) returned by curveIntersects on order 2/3 curves satisfies |x1(s)-x2(t)| + |y1(s)-y2(t)| < 2*threshold, with s,t in the curves' ranges; pairiteration called directly on curves with disjoint boxes gives no such guarantee. The same holds for intersects(curve), whose pairs are parameters in [0,1] of the two curves, and for intersects(None), whose pairs satisfy s < t.", "quantifier": "all curve pairs, thresholds", "why_tests_cant": "recursion of unbounded depth", "anchors": ["PathLib/Bezier.py:Bezier.pairiteration", "PathLib/Bezier.py:Bezier.curveIntersects", "PathLib/Bezier.py:Bezier.overlaps", "PathLib/Bezier.py:Bezier.intersects", "PathLib/Bezier.py:Bezier.selfIntersects"]}
{"id": "C46", "title": "No curve intersection is missed", "statement": "If two order 2/3 curves in the design space meet at c1(s)=c2(t), pairiteration returns a pair whose points are within the threshold of the meeting point. intersects(curve) and intersects(None) find every meeting point, too, unless the reduction of a curve is empty; leaving out neighbouring parts in selfIntersects loses nothing.", "quantifier": "all curve pairs and all meeting points", "why_tests_cant": "completeness over continuum", "anchors": ["PathLib/Bezier.py:Bezier.pairiteration", "PathLib/Bezier.py:Bezier.split", "PathLib/Bezier.py:Bezier.overlaps", "PathLib/Bezier.py:Bezier.intersects", "PathLib/Bezier.py:Bezier.selfIntersects"]}
{"id": "C47", "title": "pairiteration terminates for every positive threshold", "statement": "For order 2/3 curves inside the design space and threshold>0 the recursion depth is finite; for threshold<=0 a curve paired with itself recurses forever. intersects returns a result for curves in the design space unless reduce raises.", "quantifier": "all curve pairs, thresholds", "why_tests_cant": "termination", "anchors": ["PathLib/Bezier.py:Bezier.pairiteration"]}
{"id": "C48", "title": "reduce tiles the curve with simple pieces", "statement": "For order 2/3, when reduce() returns a non-empty list its pieces are consecutive: the first starts at t=0, each starts where the previous ended, the last ends at 1; each piece is the corresponding subcurve and satisfies simple(); the loop terminates; no extremum lies strictly inside a piece; reduce raises only ZeroDivisionError, and only for a curve whose derivative vanishes somewhere; such a curve never has a non-empty reduction; an empty list means that some part of parameter length at most 1/100 is not simple.", "quantifier": "all curves", "why_tests_cant": "loop over unbounded data", "anchors": ["PathLib/Bezier.py:Bezier.reduce", "PathLib/Bezier.py:Bezier.simple", "PathLib/Bezier.py:Bezier.split"]}
{"id": "C49", "title": "offset and scale move the ends along the normals", "statement": "For quadratics and cubics: offset(t,d) with d != 0 returns [get(t), normal(t), p] with p at the signed distance d along the normal (ZeroDivisionError where the curve stops); offset(t,0) is treated as a missing d; scale(d) with a number keeps the order, moves the end points by d along the end normals and every other control point by |d| on its line through the common point of the end normals, raising ValueError iff the end legs are parallel and ZeroDivisionError iff one is zero; offset(t) returns one curve per part of reduce(), starting and ending at distance t from the ends of the part along the normals, and raises only for curves that stop or for collinear parts not recognised as linear.", "quantifier": "all curves, t, d", "why_tests_cant": "all reals", "anchors": ["PathLib/Bezier.py:Bezier.offset", "PathLib/Bezier.py:Bezier.scale", "PathLib/Bezier.py:Bezier.normal"]}
{"id": "C50", "title": "getABC returns collinear A,B,C with the right ratio", "statement": "For order 2/3 and 0<t<1, with A,B,C defined, B=get(t) lies on the segment AC and |B-C| = ratio*|A-B|.", "quantifier": "all curves and t", "why_tests_cant": "algebraic identity over reals", "anchors": ["PathLib/Bezier.py:Bezier.getABC", "PathLib/BezierUtilities.py:quadraticRatio", "PathLib/BezierUtilities.py:cubicRatio"]}
{"id": "C51", "title": "length is a sensible curve length and leaves the decimal context alone", "statement": "For order 2/3, length is non-negative, invariant under translation and reversal, scales linearly, lies between the chord and the control polygon length (up to 1e-35 of the latter), equals |end-start| (up to 1e-35 relative) for straight curves with monotone control points, is zero exactly when all control points coincide, and getcontext().prec is unchanged after every call that returns, whatever was called before. (For lines the call raises IndexError and leaves the precision raised by 2.)", "quantifier": "all curves and call histories", "why_tests_cant": "quadrature identities over all curves; leak accumulates over histories", "anchors": ["PathLib/Bezier.py:Bezier.length", "PathLib/Bezier.py:Bezier._arcfun", "PathLib/BezierUtilities.py:tValues", "PathLib/BezierUtilities.py:cValues"]}
{"id": "C52", "title": "A BContour's start, end and iteration follow its edits", "statement": "After any sequence of item assignments and deletions, iteration and indexing agree with a plain list of control polygons subjected to the same edits, and so do start and end while a curve is left. An edit raises IndexError exactly when the index is out of range, the new segment has fewer than two points, or nothing is left (the only curve is then deleted although the call raises, and start and end keep their old values).", "quantifier": "every finite edit history", "why_tests_cant": "refinement over histories", "anchors": ["PathLib/Bezier.py:BContour.__setitem__", "PathLib/Bezier.py:BContour.__delitem__", "PathLib/Bezier.py:BContour.__iter__", "PathLib/Bezier.py:BContour.start"]}
{"id": "C53", "title": "Contour and outline bounds enclose every curve point", "statement": "BContour(c).boundsRectangle and BOutline(cs).boundsRectangle enclose every point of each order-1..3 segment, and in the design space every side is touched. Item assignment and deletion never change them (a defect: an assigned curve can leave them); so after edits they still enclose the curves that were there from the start, in particular everything after deletions.", "quantifier": "all contours, t, edit histories", "why_tests_cant": "continuum of points and histories", "anchors": ["PathLib/Bezier.py:BContour.__init__", "PathLib/Bezier.py:BOutline.__init__", "PathLib/Bezier.py:BContour.boundsRectangle"]}
{"id": "C54", "title": "Which lookup table BContour.getLUT returns", "statement": "getLUT(steps) should return n*(steps-1)+1 points that follow the n curves in order, for any history of calls and edits. Exactly: it does so unless the table kept from an earlier call has exactly `steps` points, whatever curves and steps that one was for; then the kept table is returned, which is never right on two or more curves, and right on one curve exactly when the samples agree.", "quantifier": "every history of getLUT calls and edits", "why_tests_cant": "history quantifier", "anchors": ["PathLib/Bezier.py:BContour.getLUT"]}
{"id": "C55", "title": "Closest point search is consistent", "statement": "_findClosest returns the first index of a minimal distance LUT point; findClosestPoint(p,steps) returns (dist, q) with dist=|p-q| and q on one of the curves, for 2..201 steps and points within MAX_SAFE_INTEGER. With 402 or more steps it always returns (MAX_SAFE_INTEGER,(0,0)); with 202..401 it does so exactly when the first closest table entry is the first or last of the first curve or the second of a later one.", "quantifier": "all points, contours, steps", "why_tests_cant": "argmin over unbounded lists", "anchors": ["PathLib/Bezier.py:BContour._findClosest", "PathLib/Bezier.py:BContour._refineBinary", "PathLib/Bezier.py:BContour.findClosestPoint"]}
{"id": "C56", "title": "The d-string describes the contour", "statement": "Interpreting BContour.d() as an SVG path (with repeated commands implicit) draws exactly the control polygons of the contour, except zero-length lines, for connected contours of order 1..3.", "quantifier": "all contours", "why_tests_cant": "round trip over unbounded sequences", "anchors": ["PathLib/Bezier.py:BContour.d"]}
{"id": "C57", "title": "SegmentPen contours are connected, closed and non-empty", "statement": "After any sequence of pen calls, every stored contour is non-empty, each segment starts where the previous ended, and the last segment ends at the first point. The calls the pen does not support (addPoint, beginPath, and endPath for open contours) raise NotImplementedError, change nothing, and end the drawing of the glyph.", "quantifier": "every finite sequence of pen calls", "why_tests_cant": "history quantifier", "anchors": ["PathLib/SegmentPen.py:moveTo", "PathLib/SegmentPen.py:lineTo", "PathLib/SegmentPen.py:curveTo", "PathLib/SegmentPen.py:qCurveTo", "PathLib/SegmentPen.py:closePath"]}
{"id": "C58", "title": "qCurveTo decomposes TrueType splines correctly", "statement": "qCurveTo with n>=2 off-curve points appends n quadratics that join at the midpoints of consecutive off-curve points, start at the current point, end at the final point, with matching tangents at the joints; shorter calls append the single segment.", "quantifier": "any number of points", "why_tests_cant": "unbounded argument count", "anchors": ["PathLib/SegmentPen.py:qCurveTo"]}
{"id": "C59", "title": "addComponent adds exactly the transformed component contours", "statement": "addComponent(name, t) appends the contours drawn by the component with every point mapped by (x,y) -> (a x + c y + m, b x + d y + n), leaves earlier contours and the open contour untouched; nested components compose; a cyclic component never completes; an unknown glyph raises KeyError.", "quantifier": "all glyph sets, nesting depths and transforms", "why_tests_cant": "unbounded nesting", "anchors": ["PathLib/SegmentPen.py:addComponent", "PathLib/Transform.py:applyToContours"]}
{"id": "C60", "title": "Attribute push/pop is balanced", "statement": "After any well-nested sequence of pushFill/pushStroke ... pop and of drawContours/drawPaths/drawPointsAsSegments without fill that completes, the fill and stroke attributes and stacks and the label font size are what they were before; it completes when every contour drawn starts with a non-empty segment. (Calls that raise leave attributes pushed; filled circles, arrows, drawSkeleton and drawHull change them.)", "quantifier": "every well-nested operation sequence", "why_tests_cant": "history quantifier", "anchors": ["PathLib/ContourPlotter.py:pushFillAttributes", "PathLib/ContourPlotter.py:popFillAttributes", "PathLib/ContourPlotter.py:pushStrokeAttributes", "PathLib/ContourPlotter.py:popStrokeAtributes", "PathLib/ContourPlotter.py:drawContours"]}
{"id": "C61", "title": "When drawContours path data describes the contours", "statement": "The emitted path data, read as SVG, draws the given contours: with poly=False for every input; with poly=True exactly when no contour starts with the command used last, unless that is L (a defect: the last command is not reset at M). Likewise for drawPaths.", "quantifier": "all contour lists and drawing histories", "why_tests_cant": "history dependent compression", "anchors": ["PathLib/ContourPlotter.py:drawContours", "PathLib/ContourPlotter.py:getCommand"]}
{"id": "C62", "title": "Filled drawing always fails", "statement": "drawContours(...,fill=True)/drawPaths(...,fill=True) should emit a filled path, but every such call raises TypeError and leaves the plotter as it was.", "quantifier": "all inputs", "why_tests_cant": "all inputs fail", "anchors": ["PathLib/ContourPlotter.py:drawContours", "PathLib/ContourPlotter.py:drawPaths", "PathLib/ContourPlotter.py:pushFillAttributes"]}
{"id": "C63", "title": "Colour keywords are case-insensitive, in range, and complete", "statement": "fromName(name) depends only on the lower-cased name, returns components in 0..255 for each keyword, gray/grey spellings agree, None exactly for non-alphabetic names and ValueError exactly for unknown alphabetic ones.", "quantifier": "all strings", "why_tests_cant": "all strings", "anchors": ["PathLib/Color.py:Color._forKeyword", "PathLib/Color.py:Color.fromName", "PathLib/Color.py:Color._keywords"]}
{"id": "C64", "title": "randomHSLColor cycles through all 360 hues", "statement": "From any integer start hue, 360 successive calls use pairwise different hues and the 361st repeats the first; each colour has the hue in question: every component is 255/4 plus 255/2 times the amount of its primary colour, rounded to the nearest integer (to the even one in the middle of two) (1 within 60 degrees of 0, 120 or 240 for red, green or blue, 0 beyond 120 degrees, linear between), so components lie in 64..191. setCurrentHue restarts the sequence; hues count modulo 360. randomRGBColor(), which draws three numbers from 0 to 255, uses them as red, green and blue in that order.", "quantifier": "every start hue and every number of calls", "why_tests_cant": "history quantifier", "anchors": ["PathLib/Color.py:Color.randomHSLColor", "PathLib/Color.py:Color.setCurrentHue", "PathLib/Color.py:Color.randomRGBColor"]}
{"id": "C65", "title": "Elementary matrices act as documented", "statement": "scale, shear, mirror (through two points, see C04), rotation, perspective and the identity act on a point by the documented formula; scale/shear by the inverse parameter undo each other.", "quantifier": "all parameters and points", "why_tests_cant": "all reals", "anchors": ["PathLib/Transform.py:scale", "PathLib/Transform.py:shear", "PathLib/Transform.py:mirror", "PathLib/Transform.py:perspective", "PathLib/Transform.py:_matrix"]}
{"id": "C66", "title": "align puts the chord on the x axis", "statement": "align(segment) maps the segment start to the origin exactly and, for every curve, the y coordinate of the aligned segment end is at most 2e-15 times the chord length; roots(segment) is roots() of the aligned curve; for a quadratic, and for a cubic whose leading coefficient and discriminant are not within 1e-6 of 0, these are parameters whose curve points are within the corresponding distance of the line.", "quantifier": "all curves and segments", "why_tests_cant": "all angles", "anchors": ["PathLib/Bezier.py:Bezier.align", "PathLib/Bezier.py:Bezier._align", "PathLib/Transform.py:moveAndRotate", "PathLib/PathUtilities.py:rawSlopeAngle"]}
{"id": "C67", "title": "tightbbox contains the curve", "statement": "tightbbox returns four edges forming a closed rectangle with a side along the chord of the curve; every point of the curve lies in it and every edge is touched, up to the 15-digit rounding of sin/cos (a stretching from the start point by a factor within 2e-15 of 1).", "quantifier": "all order 1..3 curves and t", "why_tests_cant": "continuum", "anchors": ["PathLib/Bezier.py:Bezier.tightbbox", "PathLib/Transform.py:rotateAndMove"]}
{"id": "C68", "title": "drawHull slices the de Casteljau levels, drawSkeleton draws the control polygon", "statement": "drawHull draws exactly the intermediate de Casteljau levels with at least two points, once each, for every order. drawSkeleton draws the control polygon, a disc on each control point and a black label beside each in size 6, and drawHull starts with that; both leave the fill colour at the point colour and the label font size at 6.", "quantifier": "every order, t", "why_tests_cant": "unbounded order", "anchors": ["PathLib/ContourPlotter.py:drawHull", "PathLib/Bezier.py:Bezier.hull"]}
{"id": "C69", "title": "intersectWithLine returns a point of the curve near the line", "statement": "intersectWithLine(line) for a line segment is the common point of the two infinite lines; for order 2 and above it never fails and is None exactly when roots(line) is empty, otherwise it is the curve point at the first root moved into [0,1].", "quantifier": "all curves and lines", "why_tests_cant": "all reals", "anchors": ["PathLib/Bezier.py:Bezier.intersectWithLine", "PathLib/Bezier.py:Bezier.roots"]}
{"id": "C70", "title": "push*Attributes sets what is asked for and pop*Attributes restores it", "statement": "pushFillAttributes/pushStrokeAttributes set exactly the given attributes and keep the others; the matching pop restores the previous ones; popping an empty stack raises IndexError and changes nothing. A width or opacity of 0 and an empty dash count as not given.", "quantifier": "all plotter states and arguments", "why_tests_cant": "all states", "anchors": ["PathLib/ContourPlotter.py:pushFillAttributes", "PathLib/ContourPlotter.py:popFillAttributes", "PathLib/ContourPlotter.py:pushStrokeAttributes", "PathLib/ContourPlotter.py:popStrokeAtributes"]}
{"id": "C71", "title": "simple measures the angle between the end legs", "statement": "For order 2/3, simple() is False for a cubic whose inner control points are strictly on different sides of the base line; otherwise it raises ZeroDivisionError iff the first or last leg of the control polygon is zero, and else is True iff the legs enclose an angle of less than 60 degrees.", "quantifier": "all quadratics and cubics", "why_tests_cant": "all reals, degenerate cases", "anchors": ["PathLib/Bezier.py:Bezier.simple", "PathLib/Bezier.py:Bezier.normal", "PathLib/BezierUtilities.py:angle"]}
{"id": "C72", "title": "scale and the directions at the ends", "statement": "scale(f) with a function on a cubic keeps the directions of both end legs (their lengths change by the factor by which the distance of the end point to the common point of the end normals changes) and raises TypeError when that point is an end point; scale(f) raises ZeroDivisionError on every quadratic; scale(d) with a number d != 0 never keeps the direction, at neither end.", "quantifier": "all quadratics and cubics, all distances and distance functions", "why_tests_cant": "all real control points and all functions", "anchors": ["PathLib/Bezier.py:Bezier.scale", "PathLib/Bezier.py:Bezier.raiseOrder"]}
{"id": "C73", "title": "length is close to the arc length", "statement": "For order 2/3, if the speed stays between v and V > 0, length() differs from the integral of the speed by at most V*(q^24/4 + 1e-20) for a quadratic and V*(0.35*q^12 + 1e-20) for a cubic, q = (V^2-v^2)/(V^2+v^2); if the speed is within d of a polynomial of degree at most 47 the difference is at most 2*d, up to 1e-39 of d and of the coefficients; in particular it is exact up to that rounding for polynomial speed.", "quantifier": "all quadratics and cubics, all bounds and polynomials", "why_tests_cant": "an error bound against an integral over all real control points; depends on every digit of the 24 nodes and weights", "anchors": ["PathLib/Bezier.py:Bezier.length", "PathLib/Bezier.py:Bezier._arcfun", "PathLib/BezierUtilities.py:tValues", "PathLib/BezierUtilities.py:cValues"]}
{"id": "C74", "title": "rotate functions act by one near-rotation", "statement": "rotatePointAbout, rotateSegmentAbout, rotateContourAbout and rotateContoursAbout with the same centre, angle and direction apply one and the same map to every point and keep the nesting. The map leaves the centre fixed, is the rotation by the given angle (counter-clockwise when ccw) up to 5e-16 times the distance from the centre, multiplies all squared distances by one factor within 2e-15 of 1, and takes the curve of a segment to the curve of the rotated segment.", "quantifier": "all points, segments, contours, centres, angles and directions", "why_tests_cant": "all real angles and nested lists of any size", "anchors": ["PathLib/PathUtilities.py:rotatePointAbout", "PathLib/PathUtilities.py:rotateSegmentAbout", "PathLib/PathUtilities.py:rotateContourAbout", "PathLib/PathUtilities.py:rotateContoursAbout"]}
{"id": "C75", "title": "minMax and toMicros", "statement": "minMax returns its two arguments, the smaller first, in either order of the arguments. toMicros raises ZeroDivisionError exactly for unitsPerEM = 0; otherwise it is linear, takes the em to 1000 and is strictly increasing for a positive em size.", "quantifier": "all numbers and em sizes", "why_tests_cant": "all numbers", "anchors": ["PathLib/PathUtilities.py:minMax", "PathLib/PathUtilities.py:toMicros"]}
{"id": "C76", "title": "glyphs end to end: from pen calls to path data", "statement": "If every glyph of the glyph set makes ordinary calls (curveTo with one to three points, qCurveTo with at least one) and a glyph can be drawn by a SegmentPen, then its contours consist of lines, quadratics and cubics, the BOutline built from them exists and has one contour per pen contour in order, each closed, and the path data of each, read as SVG, draws exactly the curves of the contour except lines of length zero.", "quantifier": "all glyph sets, glyphs with nested components of any depth, all coordinates that print in a form that reads back", "why_tests_cant": "unbounded call sequences and component nesting; composition of three classes", "anchors": ["PathLib/SegmentPen.py:SegmentPen", "PathLib/Bezier.py:BOutline", "PathLib/Bezier.py:BContour.d", "PathLib/ContourPlotter.py:ContourPlotter.drawPaths"]}
{"id": "C77", "title": "circles, curves and arrows that the plotter adds", "statement": "drawPointsAsCircles and drawComplexPointsAsCircles add one circle or disc per point, in order, at the point and of the given radius, the i-th in colour i modulo the number of colours (the current colour if none are given); outlines leave the attributes as they were, discs leave the last colour as fill colour; both agree except that the first raises IndexError on no points. drawCurve adds one unclosed path that draws exactly the curve and keeps the attributes. drawArrowBetweenPoints adds one dashed arrow in the given colour.", "quantifier": "all lists of points and colours, radii, curves of order 1 to 3 and plotter states", "why_tests_cant": "lists of any length and any prior state", "anchors": ["PathLib/ContourPlotter.py:ContourPlotter.drawPointsAsCircles", "PathLib/ContourPlotter.py:ContourPlotter.drawComplexPointsAsCircles", "PathLib/ContourPlotter.py:ContourPlotter.drawCurve", "PathLib/ContourPlotter.py:ContourPlotter.drawArrowBetweenPoints"]}
{"id": "C78", "title": "the bounds of a transformed outline", "statement": "For an outline of lines, quadratics and cubics in the design space: applying a transform that maps the axes to the axes (translation, scaling with any signs, mirroring, quarter turns) and building the outline gives exactly the transformed bounds; applying any affine transform gives bounds within the bounds of the transformed corners.", "quantifier": "all outlines with image in the design space, all affine transforms", "why_tests_cant": "all outlines and all real transforms", "anchors": ["PathLib/Transform.py:Transform.applyToContours", "PathLib/Bezier.py:BOutline", "PathLib/PathUtilities.py:GTBoundsRectangle"]}
{"id": "C79", "title": "bestFit is the least-squares fit", "statement": "Given as many times as points and at least n distinct times, bestFit with the basis matrix for n control points returns the curve with n control points whose sum of squared distances to the points at those times is the smallest, and it is the only such curve. With fewer than n distinct times it raises TypeError. A missing or zero n means the number of points.", "quantifier": "all lists of points and times, all n", "why_tests_cant": "minimality ranges over all control polygons, and over all point and time lists of any length", "anchors": ["PathLib/CurveFitting.py:bestFit", "PathLib/CurveFitting.py:formTMatrix", "PathLib/CurveFitting.py:basisMatrix"]}
{"id": "C80", "title": "how fast a curve moves", "statement": "Between two parameters in [0, 1] the point returned by get moves at most L times the difference of the parameters, where L is the order times the longest distance of two consecutive control points.", "quantifier": "all curves of order 1 and above, all pairs of parameters in [0, 1]", "why_tests_cant": "a bound over a continuum of parameter pairs and all control polygons", "anchors": ["PathLib/Bezier.py:Bezier.get"]}
{"id": "C81", "title": "how good the closest point search is", "statement": "With 2 to 201 steps on a new contour the distance returned by findClosestPoint is at most the true distance plus 13/10 of L/(steps-1) for a connected contour, and 9/5 of it for any contour, where L bounds the speed of every curve. On the second and later curves the search starts one sample early: the same line gives a worse result there than on its own.", "quantifier": "all contours, all points within MAX_SAFE_INTEGER, all steps from 2 to 201", "why_tests_cant": "the bound compares with the distance of every point of every curve", "anchors": ["PathLib/Bezier.py:BContour.findClosestPoint", "PathLib/Bezier.py:BContour._refineBinary", "PathLib/Bezier.py:BContour._findClosest", "PathLib/Bezier.py:BContour.getLUT"]}
{"id": "C82", "title": "rounding errors of curve evaluation", "statement": "When every arithmetic operation has a relative error of at most u, the point get(t) returns for t in [0, 1] differs in each coordinate from the exact point by at most ((1+u)^9-1)*B for orders 1 to 3 and (g^order-1)*B, g = 1+3*((1+u)^3-1), for order 4 and above, where B bounds the coordinates. In 53 bit arithmetic that is less than B*10^-15 for orders 1 to 3. At 0 and 1 the result is exactly the first and the last control point.", "quantifier": "all curves, all parameters in [0, 1], all roundings with relative error u", "why_tests_cant": "rounding errors depend on every bit of the input; tests compare with a tolerance at a few parameters", "anchors": ["PathLib/Bezier.py:Bezier.get", "PathLib/Bezier.py:Bezier._compute"]}
{"id": "C83", "title": "rounding errors of splitting", "statement": "When every arithmetic operation has a relative error of at most u, every point of hull(t) and every control point of the two parts split(t) returns is off by at most (g^order-1)*B. Whatever the rounding, the left part starts exactly at the start of the curve, the right part ends exactly at its end, and the left part ends exactly where the right part starts. In 53 bit arithmetic the left part of split(1) need not end at the end of the curve.", "quantifier": "all quadratics and cubics (hull: all curves), all parameters in [0, 1], all roundings with relative error u", "why_tests_cant": "rounding errors depend on every bit of the input", "anchors": ["PathLib/Bezier.py:Bezier.hull", "PathLib/Bezier.py:Bezier.split", "PathLib/BezierUtilities.py:lerp"]}
{"id": "C84", "title": "rounding errors of transforms", "statement": "When every arithmetic operation has a relative error of at most u, the entries of a product of matrices and the coordinates of a point after an affine transform are off by at most (1+u)^3-1 times the sum of the absolute values of the products they are made of; dividing by the third component adds no error in binary arithmetic. In 53 bit arithmetic an affine transform with integer entries takes integer points exactly to the right integer points while those sums are at most 2^53.", "quantifier": "all matrices, all points, all roundings with relative error u", "why_tests_cant": "rounding errors depend on every bit of the input", "anchors": ["PathLib/Transform.py:Transform.multiplyRowByMatrix", "PathLib/Transform.py:Transform.multiplyMatrixByMatrix", "PathLib/Transform.py:Transform.applyToPoint"]}
{"id": "C85", "title": "midpoints stay between the ends in floating point", "statement": "In binary floating point arithmetic (without overflow) the midpoint of a line lies between its ends in both coordinates, and the centerPoint of a rectangle lies in the rectangle.", "quantifier": "all lines and rectangles with representable coordinates, all binary roundings", "why_tests_cant": "holds for every pair of floating point numbers because of the monotonicity of rounding", "anchors": ["PathLib/PathUtilities.py:midpoint", "PathLib/PathUtilities.py:BoundsRectangle.centerPoint"]}
{"id": "C86", "title": "contours without on-curve points are not supported", "statement": "fontTools draws a TrueType contour without on-curve points as qCurveTo(p1, ..., pn, None) and closePath(). As the first contour of a glyph this raises AttributeError. After another contour it stores a contour that starts at the end of that contour and contains None, not the closed spline; applying a transform to it (as addComponent does) raises TypeError.", "quantifier": "all lists of off-curve points, all states of the pen", "why_tests_cant": "the test glyphs have on-curve points in every contour", "anchors": ["PathLib/SegmentPen.py:SegmentPen.qCurveTo", "PathLib/SegmentPen.py:SegmentPen.closePath", "PathLib/SegmentPen.py:SegmentPen.addComponent"]}
{"id": "C87", "title": "layout of a plot", "statement": "The content margins of a new ContourPlotter are whole numbers, at most 1/20 of the width and height of the bounds and less than 1 below that, the same on opposite sides; the frame margins are 10; the label font size is half the top margin. It is 0 exactly when the bounds are less than 20 high.", "quantifier": "all bounds", "why_tests_cant": "no test creates a plotter; the statement is about all bounds", "anchors": ["PathLib/ContourPlotter.py:ContourPlotter.__init__"]}
{"id": "C88", "title": "accessors", "statement": "start, end and midpoint of a curve are its points at 0, 1 and 1/2, and what get returns there; startX, startY, endX, endY are their coordinates. Rectangles with different edges have different texts.", "quantifier": "all curves, all rectangles", "why_tests_cant": "all curves of all orders", "anchors": ["PathLib/Bezier.py:Bezier.start", "PathLib/Bezier.py:Bezier.end", "PathLib/Bezier.py:Bezier.midpoint", "PathLib/PathUtilities.py:BoundsRectangle.__str__"]}
{"id": "C89", "title": "rounding errors of normals and of simple", "statement": "With floating point arithmetic of unit roundoff u, the unit normal at the start and at the end of a curve of order 2 or 3 is off, relatively in each coordinate, by at most the error of 7 roundings; it raises ZeroDivisionError exactly when the leg of the control polygon there has no length. simple() returns what exact arithmetic gives whenever the inner control points of a cubic are clear of the base line, and the cosine of the turn is not within 16 roundings of 1/2 or of 1 or beyond. It raises ValueError only if the first and last leg are parallel up to 16 roundings; it does so in Python floats for (0,0), (3,3), (6,6), which is simple.", "quantifier": "all curves of order 2 and 3, all roundings", "why_tests_cant": "a test sees the rounding errors of single curves", "anchors": ["PathLib/Bezier.py:Bezier.simple", "PathLib/Bezier.py:Bezier.normal", "PathLib/Bezier.py:Bezier._derivative"]}
{"id": "C90", "title": "reduce in floating point", "statement": "reduce() ends for every curve, after at most 251 passes of its loop for each part between extrema, if every operation is rounded with a relative error of at most 1/10000; without rounding it returns what the exact model returns. In Python floats it raises ValueError for the straight curve (0,0), (3,3), (6,6), for which exact arithmetic gives a list of parts; and neighbouring parts of a curve need not join: split(0.4, 0.5) of (0,0), (1,2), (3,0) does not end where split(0.5, 1) starts.", "quantifier": "all curves, all roundings", "why_tests_cant": "termination for all curves and roundings", "anchors": ["PathLib/Bezier.py:Bezier.reduce", "PathLib/Bezier.py:Bezier.split", "PathLib/Bezier.py:Bezier.extrema"]}
{"id": "C91", "title": "Rounding errors of length", "statement": "With rounded arithmetic length() of a quadratic or cubic curve differs from the exact quadrature by at most a bound that depends only on the unit roundoffs and the size of the derivative: in Python, with floats and the default 28-digit decimal context, by at most 1e-27 of the length plus 4e-16 times B, where B bounds the coordinates of the control points of the derivative. Without rounding it is the length of the exact model.", "quantifier": "all quadratic and cubic curves, all roundings", "why_tests_cant": "quantifies over all real control points and roundings", "anchors": ["PathLib/Bezier.py:Bezier.length", "PathLib/Bezier.py:Bezier._arcfun", "PathLib/Bezier.py:Bezier._derivative", "PathLib/BezierUtilities.py"]}
{"id": "C92", "title": "Lines with font coordinates lose nothing to rounding", "statement": "In floating point arithmetic isVerticalLine, isHorizontalLine and isDiagonalLine answer as in exact arithmetic for all segments. For lines whose coordinates are integers between -32768 and 32768, pointOnLine answers as in exact arithmetic, lli returns None exactly when the lines are parallel, intersectionPoint returns None exactly when it does in exact arithmetic, and a point returned is the exact point rounded once. For other coordinates the answers can differ.", "quantifier": "all segments; all lines and points with integer coordinates of 16 bits", "why_tests_cant": "quantifies over more than 10^30 pairs of lines, and over all real coordinates", "anchors": ["PathLib/PathUtilities.py:isVerticalLine", "PathLib/PathUtilities.py:isHorizontalLine", "PathLib/PathUtilities.py:isDiagonalLine", "PathLib/PathUtilities.py:intersectionPoint", "PathLib/PathUtilities.py:pointOnLine", "PathLib/PathUtilities.py:slope", "PathLib/BezierUtilities.py:lli"]}
{"id": "C93", "title": "Bounds of a curve in floating point", "statement": "For lines, quadratic and cubic curves whose control points have integer coordinates between -32768 and 32768, bbox and boundsRectangle computed in floating point arithmetic do not fail, the whole exact curve lies within the box enlarged by 1e-10, and each side of the box is within 1e-10 of a point of the curve. For lines and quadratic curves the same holds for all coordinates between -32768 and 32768. For cubic curves with other coordinates the box can be far too small: for a cubic that is a quadratic with its degree raised, rounded to floats, the extremum can be lost.", "quantifier": "all lines and quadratic curves in the design space, all cubic curves with integer control points of 16 bits, all parameters in [0, 1]", "why_tests_cant": "quantifies over more than 10^38 curves and all real parameters", "anchors": ["PathLib/Bezier.py:Bezier.bbox", "PathLib/Bezier.py:Bezier.boundsRectangle", "PathLib/Bezier.py:Bezier._getminmax", "PathLib/Bezier.py:Bezier.extrema", "PathLib/BezierUtilities.py:droots"]}
{"id": "C94", "title": "Points given as complex numbers", "statement": "endPoints, getDeltas, isVerticalLine, isHorizontalLine, isDiagonalLine, length, slope, slopeAngle, rawSlopeAngle and midpoint accept points that are complex numbers, mixed with tuples in any way, and give what they give for the tuples (real part, imaginary part). BoundsRectangle(*points), enclosesPoint, intersectionPoint (of two lines of two points), pointOnLine and Transform.applyToPoint raise TypeError when one of their points is a complex number. ContourPlotter.drawPointsAsCircles draws the same for complex numbers as for tuples when all points are of one kind; otherwise it raises at the first point of another kind than the first one (AttributeError after a complex number, TypeError after a tuple), the circles before that point stay in the drawing, and with colors and fill=False the pushed stroke attributes are not popped. drawComplexPointsAsCircles draws the same for complex numbers and raises AttributeError at the first tuple.", "quantifier": "every segment of tuples and complex numbers in any mixture; every plotter state, radius and list of colours", "why_tests_cant": "no test uses complex points; mixtures of both kinds are unbounded in number and length", "anchors": ["PathLib/PathUtilities.py:pointXY", "PathLib/PathUtilities.py:endPoints", "PathLib/PathUtilities.py:pointOnLine", "PathLib/PathUtilities.py:intersectionPoint", "PathLib/Transform.py:Transform.applyToPoint", "PathLib/ContourPlotter.py:ContourPlotter.drawPointsAsCircles", "PathLib/ContourPlotter.py:ContourPlotter.drawComplexPointsAsCircles"]}
{"id": "C95", "title": "TrueType glyphs lose nothing to rounding", "statement": "For a glyph set in which all coordinates are integers between -32768 and 32768 and all component scales are multiples of 1/16384 between -2 and 2 (as in TrueType fonts), drawing a glyph whose components are nested at most two deep gives in floating point arithmetic exactly the contours of exact arithmetic: the implied on-curve points halfway between off-curve points and the transformed component points are not rounded. If components are only moved, mirrored or turned by quarter turns the same holds for any depth below 2^37. Three nested scaled components can be rounded.", "quantifier": "all glyph sets, glyph names and pen call sequences; all depths of the stack", "why_tests_cant": "quantifies over all fonts and over every float operation on the way to a coordinate; a test compares a few glyphs", "anchors": ["PathLib/SegmentPen.py:58-75", "PathLib/SegmentPen.py:93-113", "PathLib/Transform.py:275-328"]}
{"id": "C96", "title": "Matrix inversion in floating point", "statement": "With every operation rounded to a Python float, matrixInvert of a square matrix never raises and returns None or a matrix of the same size. A lower triangular matrix without zeros on the diagonal (in particular the basis matrix for at most 27 points) is always inverted: the diagonal of the result consists of the rounded reciprocals and the part above it is exactly zero. A regular 2x2 matrix of 16 bit integers is never taken for singular, and the second row of the result has a relative error of at most 2^-21. In general None is no test for singularity: [[49, 1], [49, 1]] is 'inverted', and [[3, 1], [1, 1/3]] (1/3 as a float), which is regular, gives None.", "quantifier": "all square matrices of all sizes; all triangular float matrices; all integer 2x2 matrices in the given range", "why_tests_cant": "whether a pivot that should be zero is hit by rounding depends on every single operation; a test looks at a few matrices", "anchors": ["PathLib/MatrixInversion.py:15-100"]}
{"id": "C97", "title": "Curve fitting in floating point", "statement": "With every operation rounded to a Python float: the time values of points that are not all the same begin at 0, end at exactly 1, are floats between 0 and 1, never decrease, and are equal for repeated points; if all points are the same ZeroDivisionError is raised. fit of two different points returns exactly these two points as control points. For more points the guarantees of exact arithmetic (C25) are lost: a repeated point does not raise but gives a curve that leaves the points far behind (the curve for (0,0), (2,0), (4,0), (4,0) ends at x > 72), and for the twelve points (0,0), ..., (11,0) the curve ends at x < -26 instead of 11.", "quantifier": "all lists of points for the time values; all pairs of different float points", "why_tests_cant": "quantifies over all float coordinates and every rounding on the way", "anchors": ["PathLib/CurveFitting.py:28-34", "PathLib/CurveFitting.py:51-66", "PathLib/CurveFitting.py:117-125", "PathLib/CurveFitting.py:150-189"]}
{"id": "C98", "title": "The colours of randomHSLColor in floating point", "statement": "With an integer current hue, randomHSLColor in floating point uses the exact hue and returns the exact colour, except for the hues 66, 106, 114, 174, 210, 226, 270, 278, 306, 314, 346 and 354, where exactly one component (which lies half way between two integers before rounding) is one off. With a float current hue between -360 and 360 every component is at most one off and between 64 and 191; the hue is between 0 and 360 and can become 360, which it cannot in exact arithmetic.", "quantifier": "all integer hues; all float hues between -360 and 360", "why_tests_cant": "the float hues are too many to try, and which of the integer ones go wrong is only visible next to the exact result", "anchors": ["PathLib/Color.py:Color.randomHSLColor", "PathLib/Color.py:Color.setCurrentHue"]}
{"id": "C99", "title": "Curve intersection in floating point", "statement": "With every operation rounded, curveIntersects on quadratic and cubic curves with coordinates up to 32767 and a threshold of at least 4/10^6 ends after at most 41 nested calls (24 for the default threshold), with a result that does not depend on the recursion limit. Every pair of numbers it reports is, up to 10^-12, the pair of middles of a part of a curve of each list got by halving the curve at most 40 times; the ends of these parts are no further apart than the threshold (within a part) and twice the threshold (between the parts), up to 10^-7. The box of such a curve contains both ends and no side is more than 10^-10 beyond the curve. What holds without rounding and not with it: a crossing of two curves can be missed; the points at the reported parameters can be much further apart than the threshold; with a threshold below the distance of two floating point numbers the recursion need not end.", "quantifier": "all lists of quadratic and cubic curves with coordinates up to 32767 and parameters in [0, 1], all thresholds from 4/10^6, all recursion limits", "why_tests_cant": "the error of up to 41 nested splits must be bounded for all curves, and the curves for which it goes wrong are rare", "anchors": ["PathLib/Bezier.py:Bezier.pairiteration", "PathLib/Bezier.py:Bezier.curveIntersects", "PathLib/Bezier.py:Bezier.overlaps", "PathLib/Bezier.py:Bezier.split"]}
{"id": "C100", "title": "Which lists transforms, flatten and pens share", "statement": "applyToSegment, applyToContour and applyToContours change no list and return only new lists, so later changes of the arguments do not change the result and the other way round. A Transform made of two or more matrices has a matrix of its own; one made of a single matrix keeps the caller's list, so a later change of that list changes the transform. flatten returns a new list with the same segment lists. A pen call changes, of the lists that existed before, at most the list of contours (to which it only adds) and the contour being drawn; stored contours and their segments never change again; the property contours always returns the same list, which is the pen's own. As long as other code does not change the pen's lists, the pen behaves as if lists were values.", "quantifier": "all heaps, all lists, matrices and contours on them in any sharing, all pens, calls and histories of calls mixed with changes of other lists", "why_tests_cant": "the arguments can share lists in any way, and the order of calls and changes is free", "anchors": ["PathLib/Transform.py:Transform.applyToSegment", "PathLib/Transform.py:Transform.applyToContour", "PathLib/Transform.py:Transform.applyToContours", "PathLib/Transform.py:Transform.concatenateMatrices", "PathLib/PathUtilities.py:flatten", "PathLib/SegmentPen.py:SegmentPen"]}
{"id": "C101", "title": "Which lists curves and contours keep, and which values go stale", "statement": "Bezier(points) keeps the caller's list. controlPoints, start, end, get and hull use what the list holds when they are called; the other attributes (direction and so on) are those of the list at construction for ever. Every other method returns what it returned before, if it returned something before, whatever has been done to the list since (boundsRectangle, bbox, a non-zero length, non-empty derivative points, a table of the same size as long as no other size was asked for); changes before the first call are as if the list had held these points from the start. A method changes, of the lists that exist, at most the three lists of extrema of the curve; two curves on the same list do not disturb each other. getLUT returns the list it keeps, so a change of it by the caller is returned by the next call of the same size. BContour(contour) and pathFromSegments keep the lists of the segments but not the list that contains them, change no list, and have the bounds, start and end of the points at construction.", "quantifier": "all heaps, all lists of control points in any sharing, all histories of calls (also calls that raised), changes of the control points and changes of lists that are not the curve's", "why_tests_cant": "the order of calls and changes is free and the lists can be shared in any way", "anchors": ["PathLib/Bezier.py:Bezier.__init__", "PathLib/Bezier.py:Bezier.getLUT", "PathLib/Bezier.py:Bezier.boundsRectangle", "PathLib/Bezier.py:Bezier.bbox", "PathLib/Bezier.py:Bezier.length", "PathLib/Bezier.py:Bezier.extrema", "PathLib/Bezier.py:BContour.__init__", "PathLib/Bezier.py:BContour.pathFromSegments"]}
{"id": "C102", "title": "Moving a curve moves everything computed from it", "statement": "Let a curve, contour or outline be translated (as Transform.translate does to its points). Points, hulls, lookup tables, parts, raised, scaled and offset curves, the pieces of reduce(), tight boxes and meeting points with translated lines are the translated ones; derivatives, normals, tangents, direction, clockwise, length, simplicity, parameters of extrema and of meeting points with translated lines are the same; the constructors accept the same points. Bounds (bbox, boundsRectangle, of contours and outlines), overlaps, intersects and self-intersections behave likewise while all control points are between -32768 and 32768 before and after. A translated contour object answers edits, getLUT and findClosestPoint with the translated result. Not so: roots() without a line, bounds outside -32768..32768, the bounds of the empty outline.", "quantifier": "all control points of all orders (scale: at most 3; intersects: 2 and 3), all translations, parameters, thresholds, recursion limits, contours, outlines and numbers of steps", "why_tests_cant": "it relates the results of two runs for every curve and every translation", "anchors": ["PathLib/Transform.py:Transform.translate", "PathLib/Bezier.py:Bezier.get", "PathLib/Bezier.py:Bezier.split", "PathLib/Bezier.py:Bezier.reduce", "PathLib/Bezier.py:Bezier.offset", "PathLib/Bezier.py:Bezier.scale", "PathLib/Bezier.py:Bezier.boundsRectangle", "PathLib/Bezier.py:Bezier.tightbbox", "PathLib/Bezier.py:Bezier.intersects", "PathLib/Bezier.py:BContour.__init__", "PathLib/Bezier.py:BContour.findClosestPoint", "PathLib/Bezier.py:BOutline.__init__"]}
{"id": "C103", "title": "The closest point search in floating point", "statement": "findClosestPoint computed in Python's float arithmetic returns, whatever the state of the contour, either the initial values or a point that get computes on one of the curves for a parameter strictly between 0 and 1, together with its distance as math.hypot computes it. On every new contour of lines, quadratics and cubics with coordinates up to B (at most 2^51), and for 2 up to 201 steps, a point is found: it lies on a curve up to B * 10^-15 in each coordinate, the distance is right up to 3 * B * 10^-15, and it exceeds the distance of every point of every curve by at most 9/5 (13/10 on connected contours) of the longest way a curve can move between two samples and (9 * B + L) * 10^-15, where L bounds the speed of the curves. math.hypot may have any error below one unit in the last place.", "quantifier": "every contour, every point, every number of steps from 2 to 201 (any number and any state for the form of the result), every math.hypot with relative error at most 2^-52; without rounding the functions are those of the exact model", "why_tests_cant": "Tests see a few curves and points. Comparisons of rounded distances may choose another sample than exact ones would, the parameters of the refinement are rounded, and with 201 steps the first step is 0.001 up to rounding, where the search ends if it is smaller.", "anchors": ["PathLib/Bezier.py:379-389", "PathLib/Bezier.py:852-877", "PathLib/Bezier.py:879-916", "PathLib/Bezier.py:918-948"]}
{"id": "C104", "title": "Reversing a curve", "statement": "The curve with the control points in reverse order has at t the point the curve has at 1 - t, for every order, and its table of points is the table in reverse order. Its derivative, tangent and normal at t are the opposites of those at 1 - t, with the same exceptions. Splitting it at t gives the reversed parts of the curve split at 1 - t. Its extrema are the reflected ones, and it has the same bounding box and rectangle and overlaps the same curves. A quadratic turns the other way and is simple() exactly when its reverse is; for cubics both hold when the inner control points are off the base line (and on the same side of it, for the turning); otherwise simple() can depend on the direction. A reversed contour has the same rectangle, with start and end exchanged.", "quantifier": "every list of control points, every parameter and every number of steps; quadratics and cubics for derivatives, splitting and simple()", "why_tests_cant": "Nothing in the code treats both directions alike: de Casteljau's scheme, the roots of the derivative, the minimum and maximum loop and the union of rectangles all run from the first point to the last. Tests check a few curves in one direction.", "anchors": ["PathLib/Bezier.py:101-159", "PathLib/Bezier.py:174-213", "PathLib/Bezier.py:215-228", "PathLib/Bezier.py:339-361", "PathLib/Bezier.py:379-389", "PathLib/Bezier.py:430-454", "PathLib/Bezier.py:558-567", "PathLib/Bezier.py:819-832"]}
{"id": "C105", "title": "Path elements are well-formed XML", "statement": "Whatever sequence of attribute and drawing calls is made on a plotter, and also when one of them raises, elements are only added, and the text of every path element that is added is one XML empty-element tag named path, whose attributes are d with the path data exactly as computed, fill with the value none, and the attributes of the stroke in force, in this order and each once. The three methods that write path elements use the same text. Reading the element and then its path data gives back the contours that were drawn.", "quantifier": "every sequence of calls, every state of the plotter, every way of printing numbers without quotes, < and &, every list of stroke attributes with plain values and different names other than d and fill", "why_tests_cant": "The text is pasted together from quoted pieces in three places. A missing quote or space, or an attribute written twice, makes the whole document unreadable for a viewer, and the repository has no test that reads the output.", "anchors": ["PathLib/ContourPlotter.py:63-135", "PathLib/ContourPlotter.py:137-199", "PathLib/ContourPlotter.py:202-227"]}
{"id": "C106", "title": "Scaling a curve", "statement": "Multiplying all coordinates by a positive k (which is what Transform.scale(k, k) does) multiplies by k: points, hulls, tables, derivatives, raised curves, parts, reductions, the length, scale() with k times the distance or distance function, the point of offset(t, k d), and, in the design space, bounding boxes, rectangles, contours, outlines and their edits. Normals, tangents, direction, orientation, simple(), the parameters of the extrema and of the parts, the roots of quadratics, and the pairs found by intersects() with k times the threshold stay the same. Exceptions are the same. It is false for the attribute linear (and so for offset curves, unless the same pieces are taken for lines) and for the roots of cubics, whose tolerances are absolute: a cubic of size 1e-7 has no roots.", "quantifier": "every positive k, every list of control points, every parameter; order at most 3 for scale(); quadratics and cubics in the design space before and after for intersects()", "why_tests_cant": "The code mixes relative and absolute quantities: a fixed offset 10 in scale(), sentinels, the tolerances 1e-6 and 1e-4. Only a proof for all sizes tells which of them can be observed.", "anchors": ["PathLib/Bezier.py:91-99", "PathLib/Bezier.py:101-159", "PathLib/Bezier.py:174-228", "PathLib/Bezier.py:339-454", "PathLib/Bezier.py:456-567", "PathLib/Bezier.py:645-732", "PathLib/Bezier.py:739-832", "PathLib/BezierUtilities.py:125-133", "PathLib/Transform.py:96-100"]}
{"id": "C107", "title": "Bounds depend only on the points traced", "statement": "For contours of lines, quadratics and cubics in the design space: if every point traced by one contour is traced by another, its boundsRectangle lies within the other's; contours (and outlines) tracing the same points have the same boundsRectangle, so the order of the contours of an outline does not matter. Replacing a curve of a contour by the two parts of split(t), or by the curves of a non-empty reduce(), keeps the boundsRectangle, the start point and the end point. The union of the rectangles of the two parts is the rectangle of the curve. Splitting the left part at u gives the left part of splitting the curve at t*u, and the table of 2n+1 points of a curve is the table of n+1 points of its first half followed by that of its second half without the shared point.", "quantifier": "every pair of contours or outlines in the design space with segments of 2 to 4 points; every quadratic or cubic, every t in [0,1] (any t, u for nested splits), every n >= 1", "why_tests_cant": "The set of points of a contour is infinite and can be cut into curves in infinitely many ways.", "anchors": ["PathLib/Bezier.py:233-281", "PathLib/Bezier.py:377-391", "PathLib/Bezier.py:424-454", "PathLib/Bezier.py:569-615", "PathLib/Bezier.py:818-840", "PathLib/Bezier.py:1014-1016", "PathLib/Bezier.py:1029-1045", "PathLib/Bezier.py:1083-1085"]}
{"id": "C108", "title": "Small changes of the control points", "statement": "If every control point of a curve is moved by at most d (Euclidean distance), then get(t) for t in [0,1], every point of getLUT(n), every point of hull(t) and every control point of the two parts of split(t) move by at most d; the derivative of a curve of order k changes by at most 2*k*d and its length by at most 2*k*d, up to a relative error of 1e-35. In the design space every side of the boundsRectangle of a curve, of a contour and of an outline moves by at most d.", "quantifier": "every d, every pair of lists of control points of the same length (order 2 or 3 for split, derivative and length; segments of 2 to 4 points for the rectangles), every t in [0,1], every n >= 2", "why_tests_cant": "A bound on the change for all curves and all perturbations; the extrema found by the code appear and disappear under small changes, and only the proof shows that the rectangle does not jump.", "anchors": ["PathLib/Bezier.py:101-159", "PathLib/Bezier.py:174-203", "PathLib/Bezier.py:205-228", "PathLib/Bezier.py:363-391", "PathLib/Bezier.py:400-454", "PathLib/Bezier.py:818-840", "PathLib/Bezier.py:1029-1045"]}
{"id": "C109", "title": "Rotating a curve", "statement": "Rotating all control points about the origin (which is what Transform.rotation does, exactly for multiples of a quarter turn) rotates points, hulls, tables, derivatives, normals, tangents, the points A, B and C, raised curves, the parts given by split(), the results of scale() for numbers and functions, the points of offset(t, d), offset lines, the curves and ends of contour objects, and the point found by findClosestPoint() for the rotated point, whose distance stays the same. The length, simple() and the attribute clockwise stay the same. Exceptions are the same. It is false for the attribute direction and for bounding boxes, which depend on the axes.", "quantifier": "every a, b with a*a + b*b = 1, every list of control points, every parameter, every contour; order at most 3 for scale()", "why_tests_cant": "The code computes with single coordinates. That no result except the named ones depends on the choice of the axes is a statement about all angles and all curves.", "anchors": ["PathLib/Bezier.py:91-99", "PathLib/Bezier.py:174-228", "PathLib/Bezier.py:339-454", "PathLib/Bezier.py:456-567", "PathLib/Bezier.py:739-832", "PathLib/Bezier.py:852-948", "PathLib/BezierUtilities.py:101-133", "PathLib/Transform.py:130-140"]}
{"id": "C110", "title": "Fitting transformed, reversed and sampled points", "statement": "The control points returned by fit() are the only ones, as many as there are points, whose curve passes through the points at the time values. So fitting commutes with affine maps of the points for the uniform parametrisation, with similarities (translations, rotations, mirrorings, uniform scalings) for the polygonal one, and with reversing the points, for which the time values are reflected. Fitting n evenly spaced points of a curve with n control points, as getLUT(n) returns them, with the uniform parametrisation gives the control points back. For the polygonal parametrisation and a map that does not keep proportions the first is false.", "quantifier": "every list of at least two points (consecutive ones different for the polygonal parametrisation), every affine map, every history of the binomial table", "why_tests_cant": "The result comes out of two matrix inversions; that it depends on the points only through this characterisation is a statement about polynomials of every degree.", "anchors": ["PathLib/CurveFitting.py:28-34", "PathLib/CurveFitting.py:51-62", "PathLib/CurveFitting.py:168-189", "PathLib/Bezier.py:174-185"]}
{"id": "C111", "title": "Aligning, linear and clockwise in floating point", "statement": "In floats, with the math functions accurate to one ulp, align returns points within 2e-14 times the size of the coordinates of the exact positions along and across the line. The attribute linear of a new curve is True if all control points are closer than 1/10000 to the chord and False if one is farther, up to that error. So integer control points of 16 bits on a line with different ends are always found straight, and up to 3535 in size no others are; beyond that (0,0), (1,0), (20000,1) is called straight. The attribute clockwise is the sign of the cross product, for 16-bit integer coordinates in every case where the first control point is not on the chord.", "quantifier": "every list of control points (at least two), every implementation of atan2, sin, cos, pi with an error of at most one ulp", "why_tests_cant": "The error passes through an angle in degrees, rounding to 15 decimals and two matrix products; tests see only the libm they run on.", "anchors": ["PathLib/Bezier.py:41-63", "PathLib/Bezier.py:295-299", "PathLib/Bezier.py:546-550", "PathLib/Transform.py:55-70", "PathLib/Transform.py:103-139", "PathLib/Transform.py:205-208", "PathLib/PathUtilities.py:270-272"]}
{"id": "C112", "title": "What the sign of zero decides", "statement": "With the signed zeros of floats, and 16-bit integer coordinates, the angle from o to v1 and v2 is positive exactly if v2 is to the left, or is behind o on a direction that points left or straight up, or is o itself in the cases listed; negative correspondingly. So clockwise and the first test of simple() are known exactly, also when control points are on the chord. Away from these cases the sign of zero has no effect. In these cases it has: turning a curve by 180 degrees can change simple() and clockwise.", "quantifier": "all curves whose control points have float coordinates that are integers of 16 bits (with coordinates of type int there is no negative zero)", "why_tests_cant": "atan2(-0.0, -1) is -pi and atan2(0.0, -1) is pi; which zero arises depends on the signs of four products, which tests on typical curves never bring to the boundary.", "anchors": ["PathLib/Bezier.py:62-63", "PathLib/Bezier.py:558-567", "PathLib/BezierUtilities.py:211-222"]}
{"id": "C113", "title": "Mirroring a curve mirrors what is computed from it", "statement": "Mirroring in a line through the origin mirrors points, hulls, tables, derivatives, tangents, raised curves, parts, contour objects and closest points; normals turn to the other side, lengths stay, and scale() and offset() by a distance give the image of the result for the opposite distance. The sense of rotation changes when the second control point is off the base line, and whether the curve is simple stays unless an inner control point is on the base line behind the start; for such points both can fail. For Transform.mirror (signs of x, of y or of both changed) straightness, the parameters of the extrema and overlaps stay, bounds of curves, contours and outlines, unions and intersections are mirrored without restriction to the design space, up and down are exchanged with the sign of y unless the curve is level, and intersections are found at the same parameters: for the recursion on all quadratics and cubics, and for reduce() and intersects() on quadratics, and on cubics for a half turn.", "quantifier": "every curve, contour and outline, every line through the origin, every choice of signs, exceptions included", "why_tests_cant": "Mirroring exchanges minima and maxima, roots and the signs of angles in every function; a mistake in one branch shows only for curves that reach it on one side. The exceptions are curves with points exactly on the base line.", "anchors": ["PathLib/Transform.py:122-128", "PathLib/Transform.py:180-185", "PathLib/Bezier.py:41-63", "PathLib/Bezier.py:65-99", "PathLib/BezierUtilities.py:211-222"]}
{"id": "C114", "title": "Exchanging the two curves exchanges the parameters of their intersections", "statement": "overlaps() gives the same answer for a and b as for b and a. The search for intersections of two quadratics or cubics, and of two lists of them, gives for the exchanged arguments the same pairs with their parameters exchanged, as often as before and in some order, or ends with the same exception. If a.intersects(b) returns a list, then b.intersects(a) returns the list of the exchanged pairs, in some order.", "quantifier": "all quadratics and cubics, all lists of them, every threshold (also zero and negative) and every recursion limit", "why_tests_cant": "The recursion visits the four pairs of halves in an order that is not symmetric, drops duplicates at every level and stops on a test of both boxes; a test compares a few pairs of curves, the symmetry is a statement about all recursion trees.", "anchors": ["PathLib/Bezier.py:360-361", "PathLib/Bezier.py:645-666", "PathLib/Bezier.py:668-685", "PathLib/Bezier.py:703-708", "PathLib/BezierUtilities.py:106-123"]}
{"id": "C115", "title": "NaN and infinite coordinates", "statement": "BoundsRectangle ignores NaN coordinates: its sides are never NaN and depend only on the other coordinates; it contains every point without NaN it was made from and no point with NaN. Width and height are never NaN; the area is NaN exactly if one of them is infinite and the other zero. A NaN in one coordinate of a control point makes that coordinate of every inner point of the curve NaN, in get() and at the end of hull(). Infinite control points make get() infinite (if their signs agree), but the end of hull() is NaN unless only the last control point is infinite. The bounds of a line, quadratic or cubic never raise and have no NaN side; in a coordinate in which some control point is NaN they are the bounds of the two ends alone, and if both ends are NaN they reach from -9007199254740991 to 9007199254740991. Affine transforms, also the identity, send every point with a NaN or infinite coordinate to (NaN, NaN). Every such curve can be constructed: a line with a NaN ordinate goes down, other curves are mixed; with a start that is not finite or an end with NaN it counts as straight; with finite ends it counts as straight exactly if the curve through its finite control points does; with a finite start and an infinite end the finite control points must be at most 1/10000 from the horizontal, vertical or diagonal through the start; and with NaN in the start, second or last point as not clockwise; with finite ends and a second control point infinitely far to the right (left) it is clockwise exactly if the end is lower (higher) than the start and not vertically below or above it, with one infinitely far above (below) exactly if the end is to the right (left) of the start and not at its height, with one infinitely far in both directions never. Searching for intersections with a curve of NaN exceeds every recursion limit. For finite coordinates all this agrees with the exact model.", "quantifier": "all lists of points, all control points, each coordinate finite, infinite or NaN; all parameters; all second curves and recursion limits", "why_tests_cant": "Every comparison with NaN is false, so each function silently takes the branch that happens to be last; which branch that is depends on the order of the arguments of min, max and of the tests.", "anchors": ["PathLib/PathUtilities.py:28-48", "PathLib/PathUtilities.py:76-94", "PathLib/PathUtilities.py:137-143", "PathLib/PathUtilities.py:164-185", "PathLib/Transform.py:20-30", "PathLib/Transform.py:275-296", "PathLib/BezierUtilities.py:89-99", "PathLib/BezierUtilities.py:148-183", "PathLib/Bezier.py:41-99", "PathLib/Bezier.py:101-159", "PathLib/Bezier.py:215-228", "PathLib/Bezier.py:255-299", "PathLib/Bezier.py:340-376", "PathLib/Bezier.py:430-454", "PathLib/Bezier.py:645-666"]}
{"id": "C116", "title": "Coinciding control points", "statement": "If the first two control points of a quadratic or cubic are the same point (a corner without a handle), then normal(0), simple(), reduce(), scale(d), offset(t), offset(0,d) and intersects(), with any other curve, with itself, or as the other curve, all raise ZeroDivisionError. If the last two are, then normal(1), simple(), scale(d) and offset(1,d) raise it. A curve that stops anywhere, also at a cusp, is never found to intersect anything: reduce() and intersects() raise ZeroDivisionError or return the empty list. A curve all of whose control points are the same point stays there, has that point as bounds and length 0, and has no roots even on the axis. Aligning with a segment that ends where it starts only moves: a closed curve is linear exactly if it is level, and a line without direction is taken for a horizontal one, so that intersectWithLine can return a point far from it. In floats simple() of a cubic without a handle at its start is False, instead of raising, exactly if the end is to the left of and below the start and the third control point is to the right of the chord.", "quantifier": "all quadratics and cubics with coinciding control points, all other curves, thresholds and recursion depths", "why_tests_cant": "The tests use curves in general position; fonts are full of handles of length zero. Whether a function raises for them depends on every split made on the way, and in floats on the direction of the chord.", "anchors": ["PathLib/Bezier.py:552-555", "PathLib/Bezier.py:558-567", "PathLib/Bezier.py:569-615", "PathLib/Bezier.py:632-643", "PathLib/Bezier.py:703-708", "PathLib/Bezier.py:745-759", "PathLib/Bezier.py:295-299"]}
{"id": "C117", "title": "Roots and intersections with lines, in floating point", "statement": "For a quadratic with integer coordinates of 16 bits, computed in IEEE double precision, every number returned by roots() is within 7.3e-12 of a zero of the second coordinate, and every zero between 0 and 1 is found; at most two numbers are returned. If the line is between two such points and parallel to an axis, in either direction, every number returned by lineIntersects(line) is within 7.3e-12 of a parameter at which the curve is on the line, at most 3e-6 beyond its ends, and every such parameter between 0 and 1 is found, those at the ends of the line and of the curve included. For every quadratic and cubic whose coordinates are floats and every line, roots(line) returns at most three numbers, all within 1.1e-6 of the unit interval, and raises no exception: no division by a rounded zero, no arc cosine outside its domain. With exact arithmetic and exact functions all three methods are those of the exact model.", "quantifier": "all quadratics and lines on the grid; all curves and lines for the absence of exceptions; all mathematical libraries that are accurate to one unit in the last place and return the nearest float to pi and pi/2 on the axes", "why_tests_cant": "Whether a zero is lost depends on the cancellation in the discriminant, on the rotation that aligns the line with the axis and on the tolerance of the test at the ends; the error bound times the largest slope (0.956e-6) is only just below that tolerance, which no sample of curves shows.", "anchors": ["PathLib/Bezier.py:456-544", "PathLib/Bezier.py:617-630", "PathLib/Bezier.py:632-643", "PathLib/BezierUtilities.py:84-104"]}
{"id": "C118", "title": "The polygon through the samples of a curve", "statement": "Let M be the order times one less times the largest second difference of the control points of a line, quadratic or cubic. Every point of the curve is within M/(8*(steps-1)^2) of the polygon through the points of getLUT(steps), between the two samples next to its parameter; so steps with (steps-1)^2 >= M/(8*tolerance) keep the polygon within the tolerance. For quadratics the bound is attained halfway between any two samples. The polygon is never longer than the curve (the integral of its speed), and for every order shorter by at most M/(steps-1).", "quantifier": "all control points, all steps from 2 on, all parameters in [0, 1]", "why_tests_cant": "A test compares finitely many points of finitely many curves with the polygon; the bound is for all of them, and it is sharp.", "anchors": ["PathLib/Bezier.py:378-389", "PathLib/Bezier.py:101-159"]}
{"id": "C119", "title": "What is computed from a part of a curve agrees with the whole", "statement": "Let a curve be the part from u to v of a quadratic or cubic, as split(t) and split(t1, t2) return them. Its derivative is that of the curve at the same point times v-u; its tangent and normal are the same and raise ZeroDivisionError at the same points; its extrema are the extrema of the curve lying in the part; for a quadratic its roots and its intersections with a line, between its ends, are those of the curve in the part; if the curve goes up (down) so does the part. For the two parts of split(t): in the design space the union of their bounds is the bounds of the curve, their arc lengths add up to that of the curve, and for t = k/(k+m) their tables of k+1 and m+1 points make up the table of k+m+1 points.", "quantifier": "all quadratics and cubics, all 0 <= u < v <= 1, all parameters, all lines, all numbers of samples", "why_tests_cant": "A test splits finitely many curves at finitely many parameters; the agreement holds for every curve and parameter, including the calls that raise.", "anchors": ["PathLib/Bezier.py:424-454", "PathLib/Bezier.py:339-389", "PathLib/Bezier.py:456-555", "PathLib/Bezier.py:617-630"]}
{"id": "C120", "title": "Parameters with few bits lose nothing to rounding", "statement": "Let the coordinates of a curve be multiples of 2^-e, at most B in absolute value, and t in [0, 1] a multiple of 2^-n. If B*2^(e+order*n) is at most 2^53, then get(t) of a line, quadratic or cubic in floating point arithmetic is the exact point; so is every point of getLUT(2^n+1). With one bit less hull(t) (every order), get(t) for orders above 3 and both parts of split(t) are exact, and derivative(t) is if 2*order*B*2^(e+(order-1)*n) is at most 2^53. Halving again and again, as the intersection search does, is exact for as many steps: control points and parameters of the part are those of exact arithmetic. For font coordinates (integers up to 32768): get is exact at multiples of 1/4096 on cubics, of 2^-19 on quadratics and of 2^-38 on lines, and with one more bit it is not; cubics can be halved 12 times and quadratics 18 times.", "quantifier": "all such coordinates, all such parameters, all sequences of halvings of the given length", "why_tests_cant": "A test can check the 4097 parameters of one curve, not all the 2^128 cubics; and it does not show that the number of bits is the limit.", "anchors": ["PathLib/Bezier.py:101-159", "PathLib/Bezier.py:174-203", "PathLib/Bezier.py:363-389", "PathLib/Bezier.py:424-454", "PathLib/Bezier.py:645-666"]}
{"id": "C121", "title": "Simple curves and their parts", "statement": "Every part of a quadratic for which simple() is True is simple; such a quadratic passes no point twice, has at most one extremum in [0, 1], and reduce() cuts it there and nowhere else, so that the result has one or two curves and intersects(None) returns an empty list for every threshold. For every quadratic reduce() returns at most 300 curves and for every cubic at most 700: at most 100 between neighbouring extrema, of which there are at most two and six. For cubics simple() says less: (0,0), (11,1), (-2,1), (9,0) is simple, crosses itself at the parameters 1/4 and 3/4, and its first half is not simple; (0,0), (10,1), (0,1), (10,0) is simple and reduce() finds no parts for it because of the cusp.", "quantifier": "all quadratics with simple() True, all parts, all thresholds and recursion limits; all curves for the numbers of parts", "why_tests_cant": "That no simple quadratic and no part of one is an exception is a statement about all control points and all pairs of parameters.", "anchors": ["PathLib/Bezier.py:558-567", "PathLib/Bezier.py:569-615", "PathLib/Bezier.py:687-708", "PathLib/Bezier.py:340-358"]}
{"id": "C122", "title": "Numbers in path data are printed so that they read back", "statement": "The text of a float, laid out as Python does with or without an exponent, is read by the grammar of numbers in SVG path data as exactly the decimal that Python chose, and has no character with a meaning in path data or XML; the same holds for the text of an int. If Python chooses, as documented, a shortest decimal that rounds to the float, then every float reads back as itself after rounding; a float with at most 15 decimal digits, in particular every multiple of 1/1024 up to 32768, reads back as itself also without rounding. Therefore the path data of every connected contour of lines, quadratics and cubics with float coordinates, of every glyph that a pen can draw, and of every path element written by drawContours draws exactly the curves it was made from. Such a choice of decimals exists for every precision; two decimals with at most 15 digits that round to the same float are equal, with 16 digits they need not be. The text follows the grammar of numbers in path data, and the text of a float has a point or an exponent, that of an integer neither.", "quantifier": "all floats and ints, all decimals, all connected contours, glyph sets, plotters and strokes", "why_tests_cant": "That no float is printed ambiguously is a statement about all floats of all magnitudes; a test sees a few coordinates.", "anchors": ["PathLib/Bezier.py:949-950", "PathLib/ContourPlotter.py:63-64", "PathLib/Bezier.py:952-1003"]}
{"id": "C123", "title": "From a font to SVG text, with rounding and printing", "statement": "In floating point, too, the contours that a SegmentPen collects from a glyph are connected and closed, consist of lines, quadratics and cubics and have float coordinates, for every glyph set whose points are floats and every transformation of components; qCurveTo appends the pieces of a spline whose implied points are the computed middles. The outline made from them has one contour object per contour, in order, which starts and ends at the same point, and whose path data, printed by Python and read into floats again, draws exactly the collected curves except lines of length zero. The same holds for the path element that drawContours writes, read by an XML reader and then by a reader of path data.", "quantifier": "all glyph sets with float points, all component transformations and depths of components, all roundings to a number of bits, all choices of shortest decimals, all strokes and colors", "why_tests_cant": "A gap of one ulp between two pieces, or a coordinate that is printed with one digit too few, shows only for some coordinates; the claim excludes it for all.", "anchors": ["PathLib/SegmentPen.py:33-113", "PathLib/Transform.py:275-328", "PathLib/Bezier.py:949-1003", "PathLib/ContourPlotter.py:63-64", "PathLib/ContourPlotter.py:75-135"]}
{"id": "C124", "title": "No underflow and no overflow for moderate coordinates", "statement": "With control points whose coordinates are floats that are 0 or between 1e-14 and 1e30 in absolute value, and parameters that are 0 or between 1e-24 and 1, evaluating, splitting (at one or two parameters) and differentiating a curve of order at most 3, its normals, simple, its extrema and its bounds give exactly the same in IEEE double precision as with an exponent of unlimited range, whatever an overflow would return; so do midpoints and the transformation of a point by a matrix of such numbers. So does drawing a glyph of a font with such numbers, if components are nested less than ten deep; with the numbers of a TrueType font, less than sixty. So do the intersection of two lines, infinite or not, the slope and kind of a line and the test whether a point is on it; on the grid of a font intersections are therefore the exact ones rounded once. So do any number of searches for the closest point on one contour, whatever they leave in the table of the contour, so the result is as close as shown for unlimited exponents. So does intersecting lists of quadratic and cubic curves whose coordinates are multiples of 2^-60 up to 32767, if at most 37 calls are nested, which is enough for every threshold from 1/10000 on; so what is shown about the reported pairs for unlimited exponents holds there too. So do randomHSLColor, with any integer as current hue and with such a float, and the part of length that is computed in floats. The contours of a TrueType glyph with components nested at most two deep are exactly those of exact arithmetic. Therefore the error bounds shown for unlimited exponents hold for Python's floats: get is off by at most B/10^15, and bbox by at most 1e-10 on the grid of a font. Far outside this range it is different: get loses a point at t = 2^-600, normal raises ZeroDivisionError on a curve of size 2^-600 that has a normal, and midpoint overflows at 2^1023. Double precision is meant as IEEE 754 defines it, which is shown of the model: the result of an operation is the nearest of the numbers m 2^e with |m| < 2^53 and -1074 <= e <= 971, of two nearest ones the even one, and overflow begins at 2^1024 - 2^970.", "quantifier": "all curves of order at most 3 with such coordinates, all such parameters, all such matrices, all fonts with such numbers, all such lines and points, all contours and searches with such numbers, all lists of such curves, all values in place of infinity", "why_tests_cant": "Underflow of an intermediate product depends on the smallest difference of two coordinates that can be formed; tests do not search for it, and it can happen in a product that is not part of the result.", "anchors": ["PathLib/Bezier.py:101-159", "PathLib/Bezier.py:174-203", "PathLib/Bezier.py:215-284", "PathLib/Bezier.py:340-376", "PathLib/Bezier.py:430-454", "PathLib/Bezier.py:552-567", "PathLib/BezierUtilities.py:148-222", "PathLib/Transform.py:20-30", "PathLib/Transform.py:275-328", "PathLib/PathUtilities.py:274-280", "PathLib/SegmentPen.py:24-113", "PathLib/Bezier.py:852-948", "PathLib/BezierUtilities.py:125-146", "PathLib/PathUtilities.py:217-257", "PathLib/PathUtilities.py:282-323", "PathLib/Bezier.py:645-685", "PathLib/Color.py:211-218", "PathLib/Bezier.py:407-422"]}
