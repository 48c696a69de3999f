{
 "C01": {"note": "Exact arithmetic over any ordered field."},
 "C03": {"note": "Real arithmetic with the code's exact round(.,15) of sin/cos; float evaluation of sin/cos itself not modelled."},
 "C09": {"status": "proved", "note": "Tight and least in the design space +-32768; C09_sides gives the sides for all points, C09_leaks says when the sentinel leaks."},
 "C10": {"status": "proved", "note": "All laws proved for rectangles of at least one point; C10_union_empty_empty_counterexample shows that the neutral-element law fails for empty with empty."},
 "C101": {"status": "proved", "note": "C101_history: any history of calls and changes on the heap stands for the same events in the model with lists as values; C101_methods, C101_current, C101_table, C101_two_curves: each method; C101_stale, C101_attributes, C101_unread: what goes stale and what does not, with C101_stale_counterexample; C101_contour, C101_pathFromSegments: contours. BContour's later edits and its own table are not on the heap (C52-C54 have them with lists as values)."},
 "C102": {"status": "proved", "note": "Exact arithmetic. The counterexamples (roots() without a line, bounds outside the design space, the empty outline) are theorems."},
 "C103": {"status": "proved", "note": "Overflow and underflow are not modelled. The constructor of the contour is the exact one; the search reads only the control points and the table of samples."},
 "C104": {"status": "proved", "note": "Exact arithmetic. That length() is unchanged and direction is exchanged is part of C51 and C41. The flag linear is left out: it is computed from sine and cosine rounded to 15 digits."},
 "C105": {"status": "proved", "note": "C105_execs is the statement for all sequences of calls; C105_drawContours composes it with C61. The text of _strokeAttributes() comes from the base class, which is not in the repository; Spec.StrokeText says what is assumed of it. Elements written by the base class (circles, labels, arrows) are not covered."},
 "C106": {"status": "proved", "note": "Counterexamples: linear attribute, roots of cubics, negative factor."},
 "C107": {"status": "proved", "note": "Exact arithmetic. In the design space, where the sentinels of the running minima and maxima do not show."},
 "C108": {"status": "proved", "note": "Exact arithmetic. The rectangles are compared in the design space."},
 "C109": {"status": "proved", "note": "Rotation about the origin with exact cosine and sine; contour bounds are recomputed, not rotated."},
 "C110": {"status": "proved", "note": "Over the reals; rounding of fit() is C97."},
 "C113": {"status": "proved", "note": "reduce and intersects: quadratics, and cubics for half turns; for other cubics whether a part is simple may change (C113_simple_counterexample)."},
 "C114": {"status": "proved", "note": "For intersects() the claim is for runs that return; if reduce() raises for one of the curves, intersects() raises in both orders, but if it raises for both then each order reports the exception of its own first curve."},
 "C115": {"status": "proved", "note": "Finite arithmetic is exact in this model: overflow to infinity and rounding are not modelled here, and zero has no sign. hull() and get() disagree for infinite control points, so C31 and C32 do not extend to them; C08 does not extend to points with NaN."},
 "C116": {"status": "proved", "note": "Exact real arithmetic; the last two theorems are about floats with 16-bit integer coordinates (model of C112)."},
 "C117": {"status": "proved", "note": "Values are bounded for quadratics; for cubics (Cardano's formula) only the absence of exceptions and agreement with the exact model without rounding are shown. Overflow and underflow are not modelled."},
 "C118": {"status": "proved", "note": "Exact arithmetic. Distances and lengths are those of Spec, independent of the model."},
 "C119": {"status": "proved", "note": "A part is a list of control points of the same length whose get(s) is get(u + s*(v-u)) of the curve; C119_split says that split returns parts. Roots and intersections are compared between the ends of the part only: roots() also returns values up to 1e-6 outside of [0, 1], and the tolerance scales with the parameter. The bounds need the design space because of the +-32768 sentinels. Exact arithmetic."},
 "C120": {"status": "proved", "note": "float is binary floating point with 53 bits and round to nearest even, without overflow and underflow. The bound for hull and split is one bit stronger than for get because the differences of coordinates can have one bit more. C120_sharp shows that the bounds of get for font coordinates cannot be improved; the bounds of hull, split and derivative are not claimed to be sharp."},
 "C122": {"status": "proved", "note": "The choice of digits by Python's repr is assumed as documented (Spec.Decimal.Shortest); overflow, underflow, nan and inf are not modelled. C122_exists shows that the assumption can be met."},
 "C123": {"status": "proved", "note": "Floats without overflow and underflow; repr as documented (Spec.Decimal.Shortest). The bounds of the contour objects are computed exactly in this theorem; the path data does not depend on them."},
 "C124": {"status": "proved", "note": "Safe carries equality, the multiple of a power of two and the bound through every operation; C124_underflow_get, C124_underflow_normal and C124_overflow show what happens outside the range."},
 "C13": {"status": "proved", "note": "Enclosure always; C13_fromContour and C13_fromContours give the result for every input, also after leading empty segments or contours (C13_leading_empty_segment)."},
 "C15": {"note": "Design-space hypothesis only on the first point of each segment; C15_outside_design_space_counterexample shows it is needed."},
 "C16": {"status": "proved", "note": "Exact characterisation, in the design space. The answer for the start point is a defect (C16_start_point_counterexample), and outside the design space the test is wrong (C16_outside_design_space_counterexample)."},
 "C20": {"status": "proved", "note": "In exact arithmetic. In floating point None is no test for singularity: C96."},
 "C25": {"status": "proved", "note": "In exact arithmetic. What is left of it in floating point is C97."},
 "C36": {"note": "Orders 2 and 3, plus dcPoints for every order; C36_line: IndexError for lines; C36_order4_counterexample: wrong for order 4."},
 "C37": {"note": "Order 1, 2, 3 (control points in the design space for tightness); C37_order4_counterexample shows enclosure fails for order 4."},
 "C38": {"note": "Every call history over ten methods, including calls that raise; C38_extrema characterises the drift of extrema and C38_extrema_counterexample exhibits it."},
 "C41": {"status": "proved", "note": "Truthfulness, flat lines and the reversal law proved; curves with all ordinates equal are up in both directions (C41_horizontal)."},
 "C42": {"status": "proved", "note": "What the code was meant to do (keep the curve) is false of it (C42_counterexample). Proved is exactly what it does: C42_without_first (dropping the duplicated first point gives degree elevation), C42_same_iff, C42_never."},
 "C43": {"note": "Exact for quadratics; for cubics under the stated conditioning; C43_discriminant_counterexample shows a wrong root for a discriminant in (0,1e-6]."},
 "C45": {"note": "For pairs with overlapping boxes, hence all of curveIntersects, intersects and selfIntersects; C45_unchecked shows why the top-level pairiteration call needs the hypothesis. Exact arithmetic."},
 "C46": {"note": "For every completed call; C47 shows which calls complete. For whole curves the reduction must not be empty; C46_no_reduction and C46_self_no_reduction say what happens then."},
 "C47": {"note": "Termination with an explicit depth in the design space; C47_nonpositive and C47_outside_counterexample show both hypotheses are needed."},
 "C48": {"note": "In exact arithmetic on fresh caches. The loop is modelled by well-founded recursion, so termination is part of the definition."},
 "C49": {"status": "proved", "note": "Exact arithmetic. Orders 2 and 3; for a line the methods raise IndexError (C49_line). The reading of `not o` in scale is that a missing intersection is None."},
 "C51": {"status": "proved", "note": "All clauses proved for order 2 and 3; for lines the call fails and leaks precision (C51_line_counterexample, a defect)."},
 "C52": {"status": "proved", "note": "Proved for every edit history, with the exact conditions under which an edit raises; C52_delete_only_counterexample: deleting the only curve raises IndexError after the deletion has happened, and start/end are left stale (a defect)."},
 "C53": {"status": "proved", "note": "That the bounds follow item assignment is false of the code (C53_stale_counterexample) and not claimed; edits provably never change them (C53_edits_keep_bounds)."},
 "C54": {"status": "proved", "note": "That getLUT always returns the right table is false of the code (C54_stale_steps_counterexample, C54_stale_edit_counterexample). Proved is exactly which table it returns after any history (C54_returned, C54_few_steps) and when that is the right one (C54_iff, C54_one_iff)."},
 "C55": {"status": "proved", "note": "That a closest point is found for every number of steps is false of the code (C55_many_steps_counterexample); C55_found and C55_middle_steps cover the other numbers of steps. The result need not be the closest point of the contour (C55_not_closest_counterexample); how far off it can be is C81. In exact real arithmetic."},
 "C56": {"note": "Independent SVG interpreter. Python's str of a number is a parameter, assumed to read back on the coordinates that occur. C56_high_order_counterexample: curves of order 4 and above are omitted."},
 "C57": {"note": "Every history of pen calls, including calls that raise; C57_path characterises what a closed path adds. The fontTools special point None is in C86."},
 "C59": {"note": "Glyphs are lists of pen calls; recursion depth explicit."},
 "C60": {"status": "proved", "note": "Every well-nested history of calls that completes, and exactly which drawing calls complete; calls that raise leak attributes (C60_raise_counterexample), as do filled circles and arrows (C60_discs_counterexample, C60_arrow_counterexample)."},
 "C61": {"status": "proved", "note": "That poly mode always draws the contours is false of the code (C61_poly_counterexample); C61_poly_iff and C61_poly_path_iff say exactly when it does. Python's str of a number is a parameter assumed to read back on the coordinates that occur."},
 "C62": {"status": "proved", "note": "What the code was meant to do (a filled path) is false of it: C62_counterexample shows that every call with fill=True raises TypeError and changes nothing."},
 "C63": {"note": "isalpha/lower are parameters (any behaviour; ASCII rules assumed only in C63_keyword). Values checked against an independently written CSS table."},
 "C64": {"note": "Range, period and saturation over every ordered field with floor; distinct colours over the rationals. colorsys.hls_to_rgb modelled from the standard library."},
 "C66": {"note": "Real arithmetic with round(.,15) of sin/cos."},
 "C67": {"status": "proved", "note": "Exact arithmetic except the 15-digit rounding of sine and cosine, which is modelled: it shows as a stretching from the start point by a factor within 2e-15 of 1. Tightness needs the aligned curve inside the design space."},
 "C68": {"note": "Every order; the appended paths are compared with the levels through the SVG interpreter."},
 "C69": {"note": "Roots within 1e-6 of [0,1]; C69_quadratic bounds the distance to the line by the rounding of sin/cos."},
 "C70": {"status": "proved", "note": "Arguments that Python takes for false are ignored, which is a defect (C70_zero_counterexample)."},
 "C71": {"note": "Exact arithmetic: there the argument of acos is always in [-1, 1]. In floats rounding may push it outside, and acos then raises ValueError."},
 "C72": {"status": "proved", "note": "Exact arithmetic. States what scale does to the end directions, including that a numeric distance never keeps them (a defect)."},
 "C73": {"status": "proved", "note": "Exact arithmetic in place of the decimal context. The table error is checked digit by digit in the kernel for every power up to 47."},
 "C74": {"status": "proved", "note": "Over the reals; sine and cosine rounded to 15 places as in the code."},
 "C75": {"status": "proved", "note": "Over any linearly ordered field."},
 "C76": {"status": "proved", "note": "The pen, the contours, the outline and the path data composed. Coordinates are assumed to be printed in a form that reads back."},
 "C77": {"status": "proved", "note": "In poly mode drawCurve needs that the command of the curve was not the last one used (see C61)."},
 "C78": {"status": "proved", "note": "Outlines whose control points, before and after, lie in the design space of +-32768 units (outside it the sentinels of the bounds leak, see C09)."},
 "C79": {"status": "proved", "note": "Stated with the Bezier curve of the returned control points; C79_too_few_times gives the TypeError case for every square basis matrix. Exact arithmetic; n is a natural number."},
 "C80": {"status": "proved", "note": "For every order. A line attains the bound."},
 "C81": {"status": "proved", "note": "Exact arithmetic. C81_later_curves_counterexample shows the effect of the index used on later curves (i % (steps-1) although the first entry of a later curve is left out of the table)."},
 "C82": {"status": "proved", "note": "Rounded arithmetic without overflow and underflow; t itself is taken as given."},
 "C83": {"status": "proved", "note": "Rounded arithmetic without overflow and underflow. C83_end_counterexample: split(1) of (1,0),(1,0),(2^-60,0) ends at (0,0)."},
 "C84": {"status": "proved", "note": "Rounded arithmetic without overflow and underflow."},
 "C85": {"status": "proved", "note": "Rounded arithmetic without overflow and underflow."},
 "C86": {"status": "proved", "note": "The expected closed spline is Spec.closedSpline; C86_closed_counterexample shows what is stored instead. fontTools' calls are taken from its documentation of the special None point."},
 "C87": {"status": "proved", "note": "Margins and font sizes as passed to the base class."},
 "C88": {"status": "proved", "note": ""},
 "C89": {"status": "proved", "note": "Rounded arithmetic without overflow, underflow and signed zeros; acos and the angle of a direction are exact. C89_counterexample: simple() raises ValueError for a straight curve."},
 "C90": {"status": "proved", "note": "As C89; the model's loop has a number of allowed passes, C90_fuel and C90_terminates show that 251 are enough. C90_straight_counterexample and C90_joints_counterexample show what floating point breaks."},
 "C91": {"status": "proved", "note": "For any roundings of float and of the two decimal contexts, and with the numbers of Python's defaults. Overflow and underflow are not modelled."},
 "C92": {"status": "proved", "note": "The kinds of lines for all coordinates and all roundings; the rest for integer coordinates of 16 bits, which is what fonts have. Off this grid the answers can differ: C92_counterexample."},
 "C93": {"status": "proved", "note": "Cubic curves: for integer coordinates of 16 bits, which is what fonts have. Off this grid their box can miss most of the curve: C93_counterexample (a defect: droots divides by a third difference that is only a rounding error)."},
 "C95": {"status": "proved", "note": "Float arithmetic is round-to-nearest-even with 53 bits, unbounded exponent; no value here leaves the normal range. C95_exact is the general statement (any scale precision f, row sum r and depth d that fit into 53 bits); C95_trueType and C95_moved are its cases, C95_three shows that three nested scales do not fit."},
 "C96": {"status": "proved", "note": "Defects: in floating point None does not tell singular from regular matrices (C96_singular_counterexample, C96_regular_counterexample)."},
 "C97": {"status": "proved", "note": "math.pow and math.hypot are taken to be correctly rounded; no underflow. Defects: C97_repeated_counterexample, C97_many_counterexample."},
 "C98": {"status": "proved", "note": "colorsys.hls_to_rgb is modelled from the Python standard library; overflow and underflow are not modelled"},
 "C99": {"status": "proved", "note": "Coordinates up to 32767 so that the starting values of BoundsRectangle (32768) play no part. What is claimed of a reported pair is about the ends of the two parts, not their middles: C99_far_counterexample shows that nothing can be said about the middles."}
}
