{
 "claims": [
  {
   "property": "C01",
   "status": "proved",
   "theorems": [
    "PathLib.C01_concat_applies_in_order",
    "PathLib.C01_concat_affine",
    "PathLib.C01_single_affine",
    "PathLib.C01_empty"
   ],
   "note": "Exact arithmetic over any ordered field."
  },
  {
   "property": "C02",
   "status": "proved",
   "theorems": [
    "PathLib.C02_translate",
    "PathLib.C02_translate_from_to",
    "PathLib.C02_translate_inverse"
   ],
   "note": ""
  },
  {
   "property": "C03",
   "status": "proved",
   "theorems": [
    "PathLib.C03_rotation_fixes_centre",
    "PathLib.C03_rotation_near_isometry",
    "PathLib.C03_rotation_accuracy",
    "PathLib.C03_quarter_turns_exact",
    "PathLib.C03_default_rotation",
    "PathLib.C03_rotation_inverse"
   ],
   "note": "Real arithmetic with the code's exact round(.,15) of sin/cos; float evaluation of sin/cos itself not modelled."
  },
  {
   "property": "C04",
   "status": "proved",
   "theorems": [
    "PathLib.C04_mirrorAround_apply",
    "PathLib.C04_mirrorAround_involution",
    "PathLib.C04_mirrorAround_isometry",
    "PathLib.C04_mirror_apply"
   ],
   "note": ""
  },
  {
   "property": "C05",
   "status": "proved",
   "theorems": [
    "PathLib.C05_perspective_fixes_centre",
    "PathLib.C05_applyToPoint_error_iff"
   ],
   "note": ""
  },
  {
   "property": "C06",
   "status": "proved",
   "theorems": [
    "PathLib.C06_segment",
    "PathLib.C06_contour",
    "PathLib.C06_contours",
    "PathLib.C06_affine",
    "PathLib.C06_segment_fails"
   ],
   "note": ""
  },
  {
   "property": "C07",
   "status": "proved",
   "theorems": [
    "PathLib.C07_affine_invariance"
   ],
   "note": ""
  },
  {
   "property": "C08",
   "status": "proved",
   "theorems": [
    "PathLib.C08_encloses_points",
    "PathLib.C08_enclosesPoint_iff",
    "PathLib.C08_order_independent",
    "PathLib.C08_proper"
   ],
   "note": ""
  },
  {
   "property": "C09",
   "status": "proved",
   "theorems": [
    "PathLib.C09_tight",
    "PathLib.C09_tight_design_space",
    "PathLib.C09_sides",
    "PathLib.C09_leaks",
    "PathLib.C09_least",
    "PathLib.C09_sentinel_leaks_counterexample"
   ],
   "note": "Tight and least in the design space +-32768; C09_sides gives the sides for all points, C09_leaks says when the sentinel leaks."
  },
  {
   "property": "C10",
   "status": "proved",
   "theorems": [
    "PathLib.C10_union_encloses",
    "PathLib.C10_union_points",
    "PathLib.C10_union_least",
    "PathLib.C10_union_comm",
    "PathLib.C10_union_assoc",
    "PathLib.C10_union_self",
    "PathLib.C10_union_empty",
    "PathLib.C10_union_empty_empty_counterexample"
   ],
   "note": "All laws proved for rectangles of at least one point; C10_union_empty_empty_counterexample shows that the neutral-element law fails for empty with empty."
  },
  {
   "property": "C11",
   "status": "proved",
   "theorems": [
    "PathLib.C11_intersection_points",
    "PathLib.C11_intersection_none_iff",
    "PathLib.C11_intersection_comm"
   ],
   "note": ""
  },
  {
   "property": "C12",
   "status": "proved",
   "theorems": [
    "PathLib.C12_encloses_iff_subset",
    "PathLib.C12_relationTo"
   ],
   "note": ""
  },
  {
   "property": "C13",
   "status": "proved",
   "theorems": [
    "PathLib.C13_fromContour_encloses",
    "PathLib.C13_fromContour_eq",
    "PathLib.C13_fromContours_encloses",
    "PathLib.C13_fromContours_eq",
    "PathLib.C13_fromContour",
    "PathLib.C13_fromContours",
    "PathLib.C13_leading_empty_segment",
    "PathLib.C13_leading_empty_segment_counterexample"
   ],
   "note": "Enclosure always; C13_fromContour and C13_fromContours give the result for every input, also after leading empty segments or contours (C13_leading_empty_segment)."
  },
  {
   "property": "C14",
   "status": "proved",
   "theorems": [
    "PathLib.C14_sizes",
    "PathLib.C14_center",
    "PathLib.C14_fromBottom_fromLeft",
    "PathLib.C14_contour",
    "PathLib.C14_crosses",
    "PathLib.C14_diagonal"
   ],
   "note": ""
  },
  {
   "property": "C15",
   "status": "proved",
   "theorems": [
    "PathLib.C15_intersectionPoint_iff",
    "PathLib.C15_none_iff",
    "PathLib.C15_parallel",
    "PathLib.C15_complete",
    "PathLib.C15_outside_design_space_counterexample"
   ],
   "note": "Design-space hypothesis only on the first point of each segment; C15_outside_design_space_counterexample shows it is needed."
  },
  {
   "property": "C16",
   "status": "proved",
   "theorems": [
    "PathLib.C16_pointOnLine",
    "PathLib.C16_sound",
    "PathLib.C16_total",
    "PathLib.C16_start_point_counterexample",
    "PathLib.C16_outside_design_space_counterexample"
   ],
   "note": "Exact characterisation, in the design space. The answer for the start point is a defect (C16_start_point_counterexample), and outside the design space the test is wrong (C16_outside_design_space_counterexample)."
  },
  {
   "property": "C17",
   "status": "proved",
   "theorems": [
    "PathLib.C17_slope",
    "PathLib.C17_empty",
    "PathLib.C17_reverse",
    "PathLib.C17_trichotomy",
    "PathLib.C17_curves",
    "PathLib.C17_kinds_slope",
    "PathLib.C17_slopeAngle",
    "PathLib.C17_rawSlopeAngle"
   ],
   "note": ""
  },
  {
   "property": "C18",
   "status": "proved",
   "theorems": [
    "PathLib.C18_length",
    "PathLib.C18_length_metric",
    "PathLib.C18_triangle",
    "PathLib.C18_midpoint"
   ],
   "note": ""
  },
  {
   "property": "C19",
   "status": "proved",
   "theorems": [
    "PathLib.C19_inverse",
    "PathLib.C19_inverse_matrix",
    "PathLib.C19_involution"
   ],
   "note": ""
  },
  {
   "property": "C20",
   "status": "proved",
   "theorems": [
    "PathLib.C20_none_iff_singular",
    "PathLib.C20_non_square",
    "PathLib.C20_empty",
    "PathLib.C20_extra_columns",
    "PathLib.C20_ragged"
   ],
   "note": "In exact arithmetic. In floating point None is no test for singularity: C96."
  },
  {
   "property": "C21",
   "status": "proved",
   "theorems": [
    "PathLib.C21_table",
    "PathLib.C21_value",
    "PathLib.C21_other_k",
    "PathLib.C21_table_fit"
   ],
   "note": ""
  },
  {
   "property": "C22",
   "status": "proved",
   "theorems": [
    "PathLib.C22_multiply",
    "PathLib.C22_transpose",
    "PathLib.C22_assoc",
    "PathLib.C22_identity",
    "PathLib.C22_transpose_mul",
    "PathLib.C22_errors"
   ],
   "note": ""
  },
  {
   "property": "C23",
   "status": "proved",
   "theorems": [
    "PathLib.C23_basis",
    "PathLib.C23_entries",
    "PathLib.C23_det"
   ],
   "note": ""
  },
  {
   "property": "C24",
   "status": "proved",
   "theorems": [
    "PathLib.C24_polygonal_value",
    "PathLib.C24_zero_division",
    "PathLib.C24_polygonal",
    "PathLib.C24_polygonal_weak",
    "PathLib.C24_uniform",
    "PathLib.C24_uniform_small"
   ],
   "note": ""
  },
  {
   "property": "C25",
   "status": "proved",
   "theorems": [
    "PathLib.C25_bestFit",
    "PathLib.C25_fit",
    "PathLib.C25_fit_uniform",
    "PathLib.C25_ends",
    "PathLib.C25_too_few",
    "PathLib.C25_repeated"
   ],
   "note": "In exact arithmetic. What is left of it in floating point is C97."
  },
  {
   "property": "C26",
   "status": "proved",
   "theorems": [
    "PathLib.C26_eq_firstOccurrences",
    "PathLib.C26_mem",
    "PathLib.C26_nodup",
    "PathLib.C26_sublist",
    "PathLib.C26_order",
    "PathLib.C26_of_nodup",
    "PathLib.C26_idempotent"
   ],
   "note": ""
  },
  {
   "property": "C27",
   "status": "proved",
   "theorems": [
    "PathLib.C27_quadratic",
    "PathLib.C27_quadratic_nan",
    "PathLib.C27_quadratic_nan_no_root",
    "PathLib.C27_linear",
    "PathLib.C27_constant",
    "PathLib.C27_other_length"
   ],
   "note": ""
  },
  {
   "property": "C28",
   "status": "proved",
   "theorems": [
    "PathLib.C28_none_iff",
    "PathLib.C28_sound",
    "PathLib.C28_unique",
    "PathLib.C28_complete",
    "PathLib.C28_symm",
    "PathLib.C28_domain"
   ],
   "note": ""
  },
  {
   "property": "C29",
   "status": "proved",
   "theorems": [
    "PathLib.C29_lerp",
    "PathLib.C29_map",
    "PathLib.C29_map_inverse",
    "PathLib.C29_map_range",
    "PathLib.C29_crt_cube",
    "PathLib.C29_crt_unique",
    "PathLib.C29_crt_odd",
    "PathLib.C29_crt_mono"
   ],
   "note": ""
  },
  {
   "property": "C30",
   "status": "proved",
   "theorems": [
    "PathLib.C30_get",
    "PathLib.C30_ends",
    "PathLib.C30_empty"
   ],
   "note": ""
  },
  {
   "property": "C31",
   "status": "proved",
   "theorems": [
    "PathLib.C31_pyramid",
    "PathLib.C31_prefix",
    "PathLib.C31_length",
    "PathLib.C31_last"
   ],
   "note": ""
  },
  {
   "property": "C32",
   "status": "proved",
   "theorems": [
    "PathLib.C32_split",
    "PathLib.C32_line"
   ],
   "note": ""
  },
  {
   "property": "C33",
   "status": "proved",
   "theorems": [
    "PathLib.C33_split",
    "PathLib.C33_from_end",
    "PathLib.C33_zero_is_missing"
   ],
   "note": ""
  },
  {
   "property": "C34",
   "status": "proved",
   "theorems": [
    "PathLib.C34_history",
    "PathLib.C34_progress"
   ],
   "note": ""
  },
  {
   "property": "C35",
   "status": "proved",
   "theorems": [
    "PathLib.C35_in_bounds",
    "PathLib.C35_skeletonBounds",
    "PathLib.C35_box",
    "PathLib.C35_convex_hull"
   ],
   "note": ""
  },
  {
   "property": "C36",
   "status": "proved",
   "theorems": [
    "PathLib.C36_derivative",
    "PathLib.C36_dcPoints",
    "PathLib.C36_normal",
    "PathLib.C36_tangent",
    "PathLib.C36_line",
    "PathLib.C36_order4_counterexample"
   ],
   "note": "Orders 2 and 3, plus dcPoints for every order; C36_line: IndexError for lines; C36_order4_counterexample: wrong for order 4."
  },
  {
   "property": "C37",
   "status": "proved",
   "theorems": [
    "PathLib.C37_encloses",
    "PathLib.C37_bbox_attained_of_curve",
    "PathLib.C37_bbox_attained",
    "PathLib.C37_tight_of_curve",
    "PathLib.C37_tight",
    "PathLib.C37_order4_counterexample"
   ],
   "note": "Order 1, 2, 3 (control points in the design space for tightness); C37_order4_counterexample shows enclosure fails for order 4."
  },
  {
   "property": "C38",
   "status": "proved",
   "theorems": [
    "PathLib.C38_history",
    "PathLib.C38_uncached",
    "PathLib.C38_extrema",
    "PathLib.C38_extrema_counterexample"
   ],
   "note": "Every call history over ten methods, including calls that raise; C38_extrema characterises the drift of extrema and C38_extrema_counterexample exhibits it."
  },
  {
   "property": "C39",
   "status": "proved",
   "theorems": [
    "PathLib.C39_quadratic",
    "PathLib.C39_cubic",
    "PathLib.C39_other",
    "PathLib.C39_union"
   ],
   "note": ""
  },
  {
   "property": "C40",
   "status": "proved",
   "theorems": [
    "PathLib.C40_samples",
    "PathLib.C40_few_steps",
    "PathLib.C40_ends"
   ],
   "note": ""
  },
  {
   "property": "C41",
   "status": "proved",
   "theorems": [
    "PathLib.C41_truthful",
    "PathLib.C41_line",
    "PathLib.C41_curve",
    "PathLib.C41_reverse",
    "PathLib.C41_horizontal",
    "PathLib.C41_horizontal_counterexample"
   ],
   "note": "Truthfulness, flat lines and the reversal law proved; curves with all ordinates equal are up in both directions (C41_horizontal)."
  },
  {
   "property": "C42",
   "status": "proved",
   "theorems": [
    "PathLib.C42_same_iff",
    "PathLib.C42_never",
    "PathLib.C42_without_first",
    "PathLib.C42_counterexample"
   ],
   "note": "What the code was meant to do (keep the curve) is false of it (C42_counterexample). Proved is exactly what it does: C42_without_first (dropping the duplicated first point gives degree elevation), C42_same_iff, C42_never."
  },
  {
   "property": "C43",
   "status": "proved",
   "theorems": [
    "PathLib.C43_quadratic",
    "PathLib.C43_cubic",
    "PathLib.C43_line",
    "PathLib.C43_discriminant_counterexample",
    "PathLib.C43_total",
    "PathLib.C43_high_order"
   ],
   "note": "Exact for quadratics; for cubics under the stated conditioning; C43_discriminant_counterexample shows a wrong root for a discriminant in (0,1e-6]."
  },
  {
   "property": "C44",
   "status": "proved",
   "theorems": [
    "PathLib.C44_lineIntersects",
    "PathLib.C44_on_line"
   ],
   "note": ""
  },
  {
   "property": "C45",
   "status": "proved",
   "theorems": [
    "PathLib.C45_pairiteration",
    "PathLib.C45_curveIntersects",
    "PathLib.C45_unchecked",
    "PathLib.C45_intersects",
    "PathLib.C45_selfIntersects"
   ],
   "note": "For pairs with overlapping boxes, hence all of curveIntersects, intersects and selfIntersects; C45_unchecked shows why the top-level pairiteration call needs the hypothesis. Exact arithmetic."
  },
  {
   "property": "C46",
   "status": "proved",
   "theorems": [
    "PathLib.C46_pairiteration",
    "PathLib.C46_curveIntersects",
    "PathLib.C46_intersects",
    "PathLib.C46_no_reduction",
    "PathLib.C46_selfIntersects",
    "PathLib.C46_self_no_reduction"
   ],
   "note": "For every completed call; C47 shows which calls complete. For whole curves the reduction must not be empty; C46_no_reduction and C46_self_no_reduction say what happens then."
  },
  {
   "property": "C47",
   "status": "proved",
   "theorems": [
    "PathLib.C47_depth_irrelevant",
    "PathLib.C47_terminates",
    "PathLib.C47_terminates_exists",
    "PathLib.C47_default_threshold",
    "PathLib.C47_curveIntersects",
    "PathLib.C47_nonpositive",
    "PathLib.C47_outside_counterexample",
    "PathLib.C47_intersects",
    "PathLib.C47_selfIntersects"
   ],
   "note": "Termination with an explicit depth in the design space; C47_nonpositive and C47_outside_counterexample show both hypotheses are needed."
  },
  {
   "property": "C48",
   "status": "proved",
   "theorems": [
    "PathLib.C48_tiles",
    "PathLib.C48_simple",
    "PathLib.C48_extrema",
    "PathLib.C48_empty",
    "PathLib.C48_raises",
    "PathLib.C48_success",
    "PathLib.C48_covers",
    "PathLib.C48_stops"
   ],
   "note": "In exact arithmetic on fresh caches. The loop is modelled by well-founded recursion, so termination is part of the definition."
  },
  {
   "property": "C49",
   "status": "proved",
   "theorems": [
    "PathLib.C49_point",
    "PathLib.C49_zero_is_missing",
    "PathLib.C49_scale",
    "PathLib.C49_scale_raises",
    "PathLib.C49_clockwise",
    "PathLib.C49_linear",
    "PathLib.C49_line",
    "PathLib.C49_curves",
    "PathLib.C49_joined",
    "PathLib.C49_raises",
    "PathLib.C49_flat"
   ],
   "note": "Exact arithmetic. Orders 2 and 3; for a line the methods raise IndexError (C49_line). The reading of `not o` in scale is that a missing intersection is None."
  },
  {
   "property": "C50",
   "status": "proved",
   "theorems": [
    "PathLib.C50_getABC",
    "PathLib.C50_line"
   ],
   "note": ""
  },
  {
   "property": "C51",
   "status": "proved",
   "theorems": [
    "PathLib.C51_nonneg",
    "PathLib.C51_similarity",
    "PathLib.C51_reverse",
    "PathLib.C51_chord_polygon",
    "PathLib.C51_straight",
    "PathLib.C51_zero_iff",
    "PathLib.C51_precision",
    "PathLib.C51_precision_curve",
    "PathLib.C51_line_counterexample"
   ],
   "note": "All clauses proved for order 2 and 3; for lines the call fails and leaks precision (C51_line_counterexample, a defect)."
  },
  {
   "property": "C52",
   "status": "proved",
   "theorems": [
    "PathLib.C52_new",
    "PathLib.C52_history",
    "PathLib.C52_raises",
    "PathLib.C52_delete_only_counterexample",
    "PathLib.C52_outline",
    "PathLib.C52_unzipPoints",
    "PathLib.C52_segmentFromPoints",
    "PathLib.C52_pathFromSegments"
   ],
   "note": "Proved for every edit history, with the exact conditions under which an edit raises; C52_delete_only_counterexample: deleting the only curve raises IndexError after the deletion has happened, and start/end are left stale (a defect)."
  },
  {
   "property": "C53",
   "status": "proved",
   "theorems": [
    "PathLib.C53_contour",
    "PathLib.C53_outline",
    "PathLib.C53_contour_tight",
    "PathLib.C53_outline_tight",
    "PathLib.C53_edits_keep_bounds",
    "PathLib.C53_after_edits",
    "PathLib.C53_after_deletions",
    "PathLib.C53_stale_counterexample"
   ],
   "note": "That the bounds follow item assignment is false of the code (C53_stale_counterexample) and not claimed; edits provably never change them (C53_edits_keep_bounds)."
  },
  {
   "property": "C54",
   "status": "proved",
   "theorems": [
    "PathLib.C54_fresh",
    "PathLib.C54_history",
    "PathLib.C54_same_steps",
    "PathLib.C54_single_curve",
    "PathLib.C54_stale_steps_counterexample",
    "PathLib.C54_stale_edit_counterexample",
    "PathLib.C54_returned",
    "PathLib.C54_few_steps",
    "PathLib.C54_iff",
    "PathLib.C54_one_iff"
   ],
   "note": "That getLUT always returns the right table is false of the code (C54_stale_steps_counterexample, C54_stale_edit_counterexample). Proved is exactly which table it returns after any history (C54_returned, C54_few_steps) and when that is the right one (C54_iff, C54_one_iff)."
  },
  {
   "property": "C55",
   "status": "proved",
   "theorems": [
    "PathLib.C55_findClosest",
    "PathLib.C55_findClosest_none",
    "PathLib.C55_result",
    "PathLib.C55_not_closest_counterexample",
    "PathLib.C55_found",
    "PathLib.C55_many_steps_counterexample",
    "PathLib.C55_middle_steps"
   ],
   "note": "That a closest point is found for every number of steps is false of the code (C55_many_steps_counterexample); C55_found and C55_middle_steps cover the other numbers of steps. The result need not be the closest point of the contour (C55_not_closest_counterexample); how far off it can be is C81. In exact real arithmetic."
  },
  {
   "property": "C56",
   "status": "proved",
   "theorems": [
    "PathLib.C56_roundtrip",
    "PathLib.C56_after_edits",
    "PathLib.C56_high_order_counterexample"
   ],
   "note": "Independent SVG interpreter. Python's str of a number is a parameter, assumed to read back on the coordinates that occur. C56_high_order_counterexample: curves of order 4 and above are omitted."
  },
  {
   "property": "C57",
   "status": "proved",
   "theorems": [
    "PathLib.SegmentPen.C57_call",
    "PathLib.SegmentPen.C57_init",
    "PathLib.SegmentPen.C57_drawGlyph",
    "PathLib.SegmentPen.C57_history",
    "PathLib.SegmentPen.C57_prefix",
    "PathLib.SegmentPen.C57_path",
    "PathLib.SegmentPen.C57_moveTo_discards",
    "PathLib.SegmentPen.C57_no_contour",
    "PathLib.SegmentPen.C57_fresh",
    "PathLib.SegmentPen.C57_unsupported",
    "PathLib.SegmentPen.C57_open"
   ],
   "note": "Every history of pen calls, including calls that raise; C57_path characterises what a closed path adds. The fontTools special point None is in C86."
  },
  {
   "property": "C58",
   "status": "proved",
   "theorems": [
    "PathLib.SegmentPen.C58_qCurveTo",
    "PathLib.SegmentPen.C58_pieces",
    "PathLib.SegmentPen.C58_tangents",
    "PathLib.SegmentPen.C58_no_points",
    "PathLib.SegmentPen.C58_no_contour"
   ],
   "note": ""
  },
  {
   "property": "C59",
   "status": "proved",
   "theorems": [
    "PathLib.SegmentPen.C59_addComponent",
    "PathLib.SegmentPen.C59_unknown",
    "PathLib.SegmentPen.C59_nested",
    "PathLib.SegmentPen.C59_cyclic",
    "PathLib.SegmentPen.C59_depth_irrelevant"
   ],
   "note": "Glyphs are lists of pen calls; recursion depth explicit."
  },
  {
   "property": "C60",
   "status": "proved",
   "theorems": [
    "PathLib.C60_draw",
    "PathLib.C60_completes",
    "PathLib.C60_balanced",
    "PathLib.C60_balanced_completes",
    "PathLib.C60_raise_counterexample",
    "PathLib.C60_discs_counterexample",
    "PathLib.C60_arrow_counterexample"
   ],
   "note": "Every well-nested history of calls that completes, and exactly which drawing calls complete; calls that raise leak attributes (C60_raise_counterexample), as do filled circles and arrows (C60_discs_counterexample, C60_arrow_counterexample)."
  },
  {
   "property": "C61",
   "status": "proved",
   "theorems": [
    "PathLib.C61_drawContours",
    "PathLib.C61_poly_counterexample",
    "PathLib.C61_drawPaths",
    "PathLib.C61_points",
    "PathLib.C61_poly_iff",
    "PathLib.C61_poly_path_iff"
   ],
   "note": "That poly mode always draws the contours is false of the code (C61_poly_counterexample); C61_poly_iff and C61_poly_path_iff say exactly when it does. Python's str of a number is a parameter assumed to read back on the coordinates that occur."
  },
  {
   "property": "C62",
   "status": "proved",
   "theorems": [
    "PathLib.C62_counterexample"
   ],
   "note": "What the code was meant to do (a filled path) is false of it: C62_counterexample shows that every call with fill=True raises TypeError and changes nothing."
  },
  {
   "property": "C63",
   "status": "proved",
   "theorems": [
    "PathLib.C63_found_iff",
    "PathLib.C63_none_iff",
    "PathLib.C63_error_iff",
    "PathLib.C63_case_insensitive",
    "PathLib.C63_range",
    "PathLib.C63_keyword",
    "PathLib.C63_gray_grey"
   ],
   "note": "isalpha/lower are parameters (any behaviour; ASCII rules assumed only in C63_keyword). Values checked against an independently written CSS table."
  },
  {
   "property": "C64",
   "status": "proved",
   "theorems": [
    "PathLib.C64_hue_range",
    "PathLib.C64_period",
    "PathLib.C64_distinct",
    "PathLib.C64_all_hues",
    "PathLib.C64_components",
    "PathLib.C64_saturated",
    "PathLib.C64_rgb",
    "PathLib.C64_restart",
    "PathLib.C64_color",
    "PathLib.C64_distinct_colors"
   ],
   "note": "Range, period and saturation over every ordered field with floor; distinct colours over the rationals. colorsys.hls_to_rgb modelled from the standard library."
  },
  {
   "property": "C65",
   "status": "proved",
   "theorems": [
    "PathLib.C65_scale",
    "PathLib.C65_shear",
    "PathLib.C65_identity",
    "PathLib.C65_perspective",
    "PathLib.C65_scale_inverse",
    "PathLib.C65_shear_inverse",
    "PathLib.C65_rotation",
    "PathLib.C65_moveAndRotate",
    "PathLib.C65_rotateAndMove"
   ],
   "note": ""
  },
  {
   "property": "C66",
   "status": "proved",
   "theorems": [
    "PathLib.C66_roots_aligned",
    "PathLib.C66_align_distance",
    "PathLib.C66_roots_quadratic",
    "PathLib.C66_roots_cubic",
    "PathLib.C66_roots_horizontal",
    "PathLib.C66_align",
    "PathLib.C66_start_exact",
    "PathLib.C66_end_on_axis",
    "PathLib.C66_align_curve"
   ],
   "note": "Real arithmetic with round(.,15) of sin/cos."
  },
  {
   "property": "C67",
   "status": "proved",
   "theorems": [
    "PathLib.C67_contains",
    "PathLib.C67_tight",
    "PathLib.C67_direction"
   ],
   "note": "Exact arithmetic except the 15-digit rounding of sine and cosine, which is modelled: it shows as a stretching from the start point by a factor within 2e-15 of 1. Tightness needs the aligned curve inside the design space."
  },
  {
   "property": "C68",
   "status": "proved",
   "theorems": [
    "PathLib.C68_skeleton",
    "PathLib.C68_drawHull"
   ],
   "note": "Every order; the appended paths are compared with the levels through the SVG interpreter."
  },
  {
   "property": "C69",
   "status": "proved",
   "theorems": [
    "PathLib.C69_line",
    "PathLib.C69_curve",
    "PathLib.C69_quadratic"
   ],
   "note": "Roots within 1e-6 of [0,1]; C69_quadratic bounds the distance to the line by the rounding of sin/cos."
  },
  {
   "property": "C70",
   "status": "proved",
   "theorems": [
    "PathLib.C70_fill",
    "PathLib.C70_stroke",
    "PathLib.C70_zero_counterexample",
    "PathLib.C70_unbalanced"
   ],
   "note": "Arguments that Python takes for false are ignored, which is a defect (C70_zero_counterexample)."
  },
  {
   "property": "C71",
   "status": "proved",
   "theorems": [
    "PathLib.C71_simple"
   ],
   "note": "Exact arithmetic: there the argument of acos is always in [-1, 1]. In floats rounding may push it outside, and acos then raises ValueError."
  },
  {
   "property": "C72",
   "status": "proved",
   "theorems": [
    "PathLib.C72_number_turns",
    "PathLib.C72_function_quadratic",
    "PathLib.C72_function_cubic"
   ],
   "note": "Exact arithmetic. States what scale does to the end directions, including that a numeric distance never keeps them (a defect)."
  },
  {
   "property": "C73",
   "status": "proved",
   "theorems": [
    "PathLib.C73_approx",
    "PathLib.C73_polynomial_speed",
    "PathLib.C73_quadratic",
    "PathLib.C73_cubic"
   ],
   "note": "Exact arithmetic in place of the decimal context. The table error is checked digit by digit in the kernel for every power up to 47."
  },
  {
   "property": "C74",
   "status": "proved",
   "theorems": [
    "PathLib.C74_rotate"
   ],
   "note": "Over the reals; sine and cosine rounded to 15 places as in the code."
  },
  {
   "property": "C75",
   "status": "proved",
   "theorems": [
    "PathLib.C75_minMax",
    "PathLib.C75_toMicros"
   ],
   "note": "Over any linearly ordered field."
  },
  {
   "property": "C76",
   "status": "proved",
   "theorems": [
    "PathLib.C76_orders",
    "PathLib.C76_outline"
   ],
   "note": "The pen, the contours, the outline and the path data composed. Coordinates are assumed to be printed in a form that reads back."
  },
  {
   "property": "C77",
   "status": "proved",
   "theorems": [
    "PathLib.C77_circles",
    "PathLib.C77_no_points",
    "PathLib.C77_curve",
    "PathLib.C77_arrow"
   ],
   "note": "In poly mode drawCurve needs that the command of the curve was not the last one used (see C61)."
  },
  {
   "property": "C78",
   "status": "proved",
   "theorems": [
    "PathLib.C78_axes",
    "PathLib.C78_exchange",
    "PathLib.C78_affine"
   ],
   "note": "Outlines whose control points, before and after, lie in the design space of +-32768 units (outside it the sentinels of the bounds leak, see C09)."
  },
  {
   "property": "C79",
   "status": "proved",
   "theorems": [
    "PathLib.C79_too_few_times",
    "PathLib.C79_least_squares",
    "PathLib.C79_default"
   ],
   "note": "Stated with the Bezier curve of the returned control points; C79_too_few_times gives the TypeError case for every square basis matrix. Exact arithmetic; n is a natural number."
  },
  {
   "property": "C80",
   "status": "proved",
   "theorems": [
    "PathLib.C80_speed"
   ],
   "note": "For every order. A line attains the bound."
  },
  {
   "property": "C81",
   "status": "proved",
   "theorems": [
    "PathLib.C81_any_contour",
    "PathLib.C81_connected",
    "PathLib.C81_later_curves_counterexample"
   ],
   "note": "Exact arithmetic. C81_later_curves_counterexample shows the effect of the index used on later curves (i % (steps-1) although the first entry of a later curve is left out of the table)."
  },
  {
   "property": "C82",
   "status": "proved",
   "theorems": [
    "PathLib.C82_exact",
    "PathLib.C82_low_order",
    "PathLib.C82_high_order",
    "PathLib.C82_ends",
    "PathLib.C82_float"
   ],
   "note": "Rounded arithmetic without overflow and underflow; t itself is taken as given."
  },
  {
   "property": "C83",
   "status": "proved",
   "theorems": [
    "PathLib.C83_exact",
    "PathLib.C83_hull",
    "PathLib.C83_joined",
    "PathLib.C83_split",
    "PathLib.C83_end_counterexample"
   ],
   "note": "Rounded arithmetic without overflow and underflow. C83_end_counterexample: split(1) of (1,0),(1,0),(2^-60,0) ends at (0,0)."
  },
  {
   "property": "C84",
   "status": "proved",
   "theorems": [
    "PathLib.C84_exact",
    "PathLib.C84_row",
    "PathLib.C84_affine",
    "PathLib.C84_integers"
   ],
   "note": "Rounded arithmetic without overflow and underflow."
  },
  {
   "property": "C85",
   "status": "proved",
   "theorems": [
    "PathLib.C85_exact",
    "PathLib.C85_between",
    "PathLib.C85_center"
   ],
   "note": "Rounded arithmetic without overflow and underflow."
  },
  {
   "property": "C86",
   "status": "proved",
   "theorems": [
    "PathLib.OPen.C86_new",
    "PathLib.OPen.C86_points",
    "PathLib.OPen.C86_first",
    "PathLib.OPen.C86_later",
    "PathLib.OPen.C86_transform",
    "PathLib.OPen.C86_closed_counterexample"
   ],
   "note": "The expected closed spline is Spec.closedSpline; C86_closed_counterexample shows what is stored instead. fontTools' calls are taken from its documentation of the special None point."
  },
  {
   "property": "C87",
   "status": "proved",
   "theorems": [
    "PathLib.C87_layout",
    "PathLib.C87_low"
   ],
   "note": "Margins and font sizes as passed to the base class."
  },
  {
   "property": "C88",
   "status": "proved",
   "theorems": [
    "PathLib.C88_ends",
    "PathLib.C88_get",
    "PathLib.C88_str"
   ],
   "note": ""
  },
  {
   "property": "C89",
   "status": "proved",
   "theorems": [
    "PathLib.C89_exact",
    "PathLib.C89_normal",
    "PathLib.C89_simple",
    "PathLib.C89_raises",
    "PathLib.C89_float",
    "PathLib.C89_counterexample"
   ],
   "note": "Rounded arithmetic without overflow, underflow and signed zeros; acos and the angle of a direction are exact. C89_counterexample: simple() raises ValueError for a straight curve."
  },
  {
   "property": "C90",
   "status": "proved",
   "theorems": [
    "PathLib.C90_exact",
    "PathLib.C90_fuel",
    "PathLib.C90_terminates",
    "PathLib.C90_float",
    "PathLib.C90_straight_counterexample",
    "PathLib.C90_joints_counterexample"
   ],
   "note": "As C89; the model's loop has a number of allowed passes, C90_fuel and C90_terminates show that 251 are enough. C90_straight_counterexample and C90_joints_counterexample show what floating point breaks."
  },
  {
   "property": "C91",
   "status": "proved",
   "theorems": [
    "PathLib.C91_exact",
    "PathLib.C91_error",
    "PathLib.C91_python"
   ],
   "note": "For any roundings of float and of the two decimal contexts, and with the numbers of Python's defaults. Overflow and underflow are not modelled."
  },
  {
   "property": "C92",
   "status": "proved",
   "theorems": [
    "PathLib.C92_exact",
    "PathLib.C92_kinds",
    "PathLib.C92_lli",
    "PathLib.C92_intersectionPoint",
    "PathLib.C92_pointOnLine",
    "PathLib.C92_counterexample"
   ],
   "note": "The kinds of lines for all coordinates and all roundings; the rest for integer coordinates of 16 bits, which is what fonts have. Off this grid the answers can differ: C92_counterexample."
  },
  {
   "property": "C93",
   "status": "proved",
   "theorems": [
    "PathLib.C93_exact",
    "PathLib.C93_grid",
    "PathLib.C93_quadratic",
    "PathLib.C93_counterexample"
   ],
   "note": "Cubic curves: for integer coordinates of 16 bits, which is what fonts have. Off this grid their box can miss most of the curve: C93_counterexample (a defect: droots divides by a third difference that is only a rounding error)."
  },
  {
   "property": "C94",
   "status": "proved",
   "theorems": [
    "PathLib.C94_measures",
    "PathLib.C94_angles",
    "PathLib.C94_bounds",
    "PathLib.C94_enclosesPoint",
    "PathLib.C94_pointOnLine",
    "PathLib.C94_intersectionPoint_tuples",
    "PathLib.C94_intersectionPoint_complex",
    "PathLib.C94_transform",
    "PathLib.C94_circles",
    "PathLib.C94_complexCircles",
    "PathLib.C94_mixed",
    "PathLib.C94_complexCircles_tuple"
   ],
   "note": ""
  },
  {
   "property": "C95",
   "status": "proved",
   "theorems": [
    "PathLib.C95_exact",
    "PathLib.C95_trueType",
    "PathLib.C95_moved",
    "PathLib.C95_three"
   ],
   "note": "Float arithmetic is round-to-nearest-even with 53 bits, unbounded exponent; no value here leaves the normal range. C95_exact is the general statement (any scale precision f, row sum r and depth d that fit into 53 bits); C95_trueType and C95_moved are its cases, C95_three shows that three nested scales do not fit."
  },
  {
   "property": "C96",
   "status": "proved",
   "theorems": [
    "PathLib.C96_exact",
    "PathLib.C96_square",
    "PathLib.C96_lower",
    "PathLib.C96_basis",
    "PathLib.C96_two",
    "PathLib.C96_two_swap",
    "PathLib.C96_integers",
    "PathLib.C96_singular_counterexample",
    "PathLib.C96_regular_counterexample"
   ],
   "note": "Defects: in floating point None does not tell singular from regular matrices (C96_singular_counterexample, C96_regular_counterexample)."
  },
  {
   "property": "C97",
   "status": "proved",
   "theorems": [
    "PathLib.C97_exact_times",
    "PathLib.C97_exact_multiply",
    "PathLib.C97_exact_bestFit",
    "PathLib.C97_exact",
    "PathLib.C97_times",
    "PathLib.C97_times_same",
    "PathLib.C97_two",
    "PathLib.C97_repeated_counterexample",
    "PathLib.C97_many_counterexample"
   ],
   "note": "math.pow and math.hypot are taken to be correctly rounded; no underflow. Defects: C97_repeated_counterexample, C97_many_counterexample."
  },
  {
   "property": "C98",
   "status": "proved",
   "theorems": [
    "PathLib.C98_integer",
    "PathLib.C98_exceptions",
    "PathLib.C98_hue",
    "PathLib.C98_float_hue",
    "PathLib.C98_float",
    "PathLib.C98_hue_360_counterexample"
   ],
   "note": "colorsys.hls_to_rgb is modelled from the Python standard library; overflow and underflow are not modelled"
  },
  {
   "property": "C99",
   "status": "proved",
   "theorems": [
    "PathLib.C99_exact",
    "PathLib.C99_exact_lists",
    "PathLib.C99_box",
    "PathLib.C99_terminates",
    "PathLib.C99_terminates_lists",
    "PathLib.C99_default_threshold",
    "PathLib.C99_close",
    "PathLib.C99_missed_counterexample",
    "PathLib.C99_far_counterexample",
    "PathLib.C99_endless_counterexample"
   ],
   "note": "Coordinates up to 32767 so that the starting values of BoundsRectangle (32768) play no part. What is claimed of a reported pair is about the ends of the two parts, not their middles: C99_far_counterexample shows that nothing can be said about the middles."
  },
  {
   "property": "C100",
   "status": "proved",
   "theorems": [
    "PathLib.Heap.C100_applyToSegment",
    "PathLib.Heap.C100_applyToContour",
    "PathLib.Heap.C100_applyToContours",
    "PathLib.Heap.C100_independent",
    "PathLib.Heap.C100_one_matrix",
    "PathLib.Heap.C100_more_matrices",
    "PathLib.Heap.C100_one_matrix_counterexample",
    "PathLib.Heap.C100_flatten",
    "PathLib.Heap.C100_flatten_value",
    "PathLib.Heap.C100_call",
    "PathLib.Heap.C100_history",
    "PathLib.Heap.C100_live",
    "PathLib.Heap.C100_stored",
    "PathLib.Heap.C100_contours_counterexample"
   ],
   "note": ""
  },
  {
   "property": "C101",
   "status": "proved",
   "theorems": [
    "PathLib.Heap.C101_new",
    "PathLib.Heap.C101_methods",
    "PathLib.Heap.C101_history",
    "PathLib.Heap.C101_current",
    "PathLib.Heap.C101_two_curves",
    "PathLib.Heap.C101_table",
    "PathLib.Heap.C101_contour",
    "PathLib.Heap.C101_pathFromSegments",
    "PathLib.C101_attributes",
    "PathLib.C101_stale",
    "PathLib.C101_unread",
    "PathLib.C101_stale_counterexample"
   ],
   "note": "C101_history: any history of calls and changes on the heap stands for the same events in the model with lists as values; C101_methods, C101_current, C101_table, C101_two_curves: each method; C101_stale, C101_attributes, C101_unread: what goes stale and what does not, with C101_stale_counterexample; C101_contour, C101_pathFromSegments: contours. BContour's later edits and its own table are not on the heap (C52-C54 have them with lists as values)."
  },
  {
   "property": "C102",
   "status": "proved",
   "theorems": [
    "PathLib.C102_translate",
    "PathLib.C102_points",
    "PathLib.C102_new",
    "PathLib.C102_shape",
    "PathLib.C102_split",
    "PathLib.C102_reduce",
    "PathLib.C102_offset",
    "PathLib.C102_scale",
    "PathLib.C102_tight",
    "PathLib.C102_lines",
    "PathLib.C102_roots_counterexample",
    "PathLib.C102_bounds",
    "PathLib.C102_bounds_counterexample",
    "PathLib.C102_intersects",
    "PathLib.C102_contour",
    "PathLib.C102_outline",
    "PathLib.C102_empty_outline_counterexample",
    "PathLib.C102_edits",
    "PathLib.C102_closest"
   ],
   "note": "Exact arithmetic. The counterexamples (roots() without a line, bounds outside the design space, the empty outline) are theorems."
  },
  {
   "property": "C103",
   "status": "proved",
   "theorems": [
    "PathLib.C103_exact",
    "PathLib.C103_result",
    "PathLib.C103_any_contour",
    "PathLib.C103_connected"
   ],
   "note": "Overflow and underflow are not modelled. The constructor of the contour is the exact one; the search reads only the control points and the table of samples."
  },
  {
   "property": "C104",
   "status": "proved",
   "theorems": [
    "PathLib.C104_get",
    "PathLib.C104_table",
    "PathLib.C104_derivative",
    "PathLib.C104_split",
    "PathLib.C104_extrema",
    "PathLib.C104_bounds",
    "PathLib.C104_overlaps",
    "PathLib.C104_simple",
    "PathLib.C104_simple_counterexample",
    "PathLib.C104_clockwise",
    "PathLib.C104_contour"
   ],
   "note": "Exact arithmetic. That length() is unchanged and direction is exchanged is part of C51 and C41. The flag linear is left out: it is computed from sine and cosine rounded to 15 digits."
  },
  {
   "property": "C105",
   "status": "proved",
   "theorems": [
    "PathLib.C105_same",
    "PathLib.C105_read",
    "PathLib.C105_execs",
    "PathLib.C105_drawContours"
   ],
   "note": "C105_execs is the statement for all sequences of calls; C105_drawContours composes it with C61. The text of _strokeAttributes() comes from the base class, which is not in the repository; Spec.StrokeText says what is assumed of it. Elements written by the base class (circles, labels, arrows) are not covered."
  },
  {
   "property": "C106",
   "status": "proved",
   "theorems": [
    "PathLib.C106_transform",
    "PathLib.C106_points",
    "PathLib.C106_projection",
    "PathLib.C106_direction_counterexample",
    "PathLib.C106_new",
    "PathLib.C106_linear_counterexample",
    "PathLib.C106_shape",
    "PathLib.C106_split",
    "PathLib.C106_reduce",
    "PathLib.C106_scale",
    "PathLib.C106_offset_point",
    "PathLib.C106_offset",
    "PathLib.C106_roots",
    "PathLib.C106_roots_counterexample",
    "PathLib.C106_bounds",
    "PathLib.C106_intersects",
    "PathLib.C106_contour",
    "PathLib.C106_outline",
    "PathLib.C106_edits"
   ],
   "note": "Counterexamples: linear attribute, roots of cubics, negative factor."
  },
  {
   "property": "C107",
   "status": "proved",
   "theorems": [
    "PathLib.C107_contour_within",
    "PathLib.C107_contour",
    "PathLib.C107_outline",
    "PathLib.C107_outline_order",
    "PathLib.C107_split_bounds",
    "PathLib.C107_split_contour",
    "PathLib.C107_reduce_contour",
    "PathLib.C107_nested",
    "PathLib.C107_table"
   ],
   "note": "Exact arithmetic. In the design space, where the sentinels of the running minima and maxima do not show."
  },
  {
   "property": "C108",
   "status": "proved",
   "theorems": [
    "PathLib.C108_get",
    "PathLib.C108_table",
    "PathLib.C108_hull",
    "PathLib.C108_split",
    "PathLib.C108_derivative",
    "PathLib.C108_length",
    "PathLib.C108_bounds",
    "PathLib.C108_contour",
    "PathLib.C108_outline"
   ],
   "note": "Exact arithmetic. The rectangles are compared in the design space."
  },
  {
   "property": "C109",
   "status": "proved",
   "theorems": [
    "PathLib.C109_transform",
    "PathLib.C109_points",
    "PathLib.C109_new",
    "PathLib.C109_direction_counterexample",
    "PathLib.C109_shape",
    "PathLib.C109_parts",
    "PathLib.C109_offset_point",
    "PathLib.C109_offset_line",
    "PathLib.C109_contour",
    "PathLib.C109_bounds_counterexample",
    "PathLib.C109_closest"
   ],
   "note": "Rotation about the origin with exact cosine and sine; contour bounds are recomputed, not rotated."
  },
  {
   "property": "C110",
   "status": "proved",
   "theorems": [
    "PathLib.C110_only",
    "PathLib.C110_affine",
    "PathLib.C110_similar",
    "PathLib.C110_reversed",
    "PathLib.C110_samples",
    "PathLib.C110_affine_counterexample"
   ],
   "note": "Over the reals; rounding of fit() is C97."
  },
  {
   "property": "C111",
   "status": "proved",
   "theorems": [
    "PathLib.C111_exact",
    "PathLib.C111_align",
    "PathLib.C111_linear",
    "PathLib.C111_clockwise",
    "PathLib.C111_straight",
    "PathLib.C111_straight_iff",
    "PathLib.C111_straight_counterexample",
    "PathLib.C111_clockwise_grid"
   ],
   "note": ""
  },
  {
   "property": "C112",
   "status": "proved",
   "theorems": [
    "PathLib.C112_angle",
    "PathLib.C112_clockwise",
    "PathLib.C112_agree",
    "PathLib.C112_simple",
    "PathLib.C112_simple_counterexample",
    "PathLib.C112_clockwise_counterexample"
   ],
   "note": ""
  },
  {
   "property": "C113",
   "status": "proved",
   "theorems": [
    "PathLib.C113_transform",
    "PathLib.C113_points",
    "PathLib.C113_new",
    "PathLib.C113_clockwise",
    "PathLib.C113_clockwise_counterexample",
    "PathLib.C113_shape",
    "PathLib.C113_simple",
    "PathLib.C113_simple_counterexample",
    "PathLib.C113_parts",
    "PathLib.C113_offset_point",
    "PathLib.C113_offset_line",
    "PathLib.C113_contour",
    "PathLib.C113_closest",
    "PathLib.C113_flipped",
    "PathLib.C113_direction",
    "PathLib.C113_direction_counterexample",
    "PathLib.C113_extrema",
    "PathLib.C113_bounds",
    "PathLib.C113_rectangles",
    "PathLib.C113_meet",
    "PathLib.C113_outline"
   ],
   "note": "reduce and intersects: quadratics, and cubics for half turns; for other cubics whether a part is simple may change (C113_simple_counterexample)."
  },
  {
   "property": "C114",
   "status": "proved",
   "theorems": [
    "PathLib.C114_overlaps",
    "PathLib.C114_pairiteration",
    "PathLib.C114_curveIntersects",
    "PathLib.C114_intersects"
   ],
   "note": "For intersects() the claim is for runs that return; if reduce() raises for one of the curves, intersects() raises in both orders, but if it raises for both then each order reports the exception of its own first curve."
  },
  {
   "property": "C115",
   "status": "proved",
   "theorems": [
    "PathLib.C115_rectangle",
    "PathLib.C115_ignored",
    "PathLib.C115_enclosesPoint",
    "PathLib.C115_measures",
    "PathLib.C115_union",
    "PathLib.C115_bounds",
    "PathLib.C115_bounds_nan",
    "PathLib.C115_get_nan",
    "PathLib.C115_hull_nan",
    "PathLib.C115_hull_infinite",
    "PathLib.C115_get_infinite",
    "PathLib.C115_finite_rectangle",
    "PathLib.C115_finite_get",
    "PathLib.C115_finite_bounds",
    "PathLib.C115_finite_direction",
    "PathLib.C115_division",
    "PathLib.C115_finite_contour",
    "PathLib.C115_contour",
    "PathLib.C115_finite_transform",
    "PathLib.C115_finite_run",
    "PathLib.C115_straight",
    "PathLib.C115_straight_infinite",
    "PathLib.C115_straight_diagonal",
    "PathLib.C115_transform",
    "PathLib.C115_direction",
    "PathLib.C115_new",
    "PathLib.C115_recursion",
    "PathLib.C115_clockwise"
   ],
   "note": "Finite arithmetic is exact in this model: overflow to infinity and rounding are not modelled here, and zero has no sign. hull() and get() disagree for infinite control points, so C31 and C32 do not extend to them; C08 does not extend to points with NaN."
  },
  {
   "property": "C116",
   "status": "proved",
   "theorems": [
    "PathLib.C116_start",
    "PathLib.C116_stops",
    "PathLib.C116_end",
    "PathLib.C116_align",
    "PathLib.C116_closed",
    "PathLib.C116_point_line",
    "PathLib.C116_point_line_counterexample",
    "PathLib.C116_point",
    "PathLib.C116_float",
    "PathLib.C116_float_counterexample"
   ],
   "note": "Exact real arithmetic; the last two theorems are about floats with 16-bit integer coordinates (model of C112)."
  },
  {
   "property": "C117",
   "status": "proved",
   "theorems": [
    "PathLib.C117_exact",
    "PathLib.C117_quadratic",
    "PathLib.C117_scanline",
    "PathLib.C117_total"
   ],
   "note": "Values are bounded for quadratics; for cubics (Cardano's formula) only the absence of exceptions and agreement with the exact model without rounding are shown. Overflow and underflow are not modelled."
  },
  {
   "property": "C118",
   "status": "proved",
   "theorems": [
    "PathLib.C118_length",
    "PathLib.C118_chord",
    "PathLib.C118_polygon",
    "PathLib.C118_sharp",
    "PathLib.C118_tolerance"
   ],
   "note": "Exact arithmetic. Distances and lengths are those of Spec, independent of the model."
  },
  {
   "property": "C119",
   "status": "proved",
   "theorems": [
    "PathLib.C119_split",
    "PathLib.C119_derivative",
    "PathLib.C119_extrema",
    "PathLib.C119_roots",
    "PathLib.C119_lineIntersects",
    "PathLib.C119_samples",
    "PathLib.C119_bounds",
    "PathLib.C119_length",
    "PathLib.C119_direction"
   ],
   "note": "A part is a list of control points of the same length whose get(s) is get(u + s*(v-u)) of the curve; C119_split says that split returns parts. Roots and intersections are compared between the ends of the part only: roots() also returns values up to 1e-6 outside of [0, 1], and the tolerance scales with the parameter. The bounds need the design space because of the +-32768 sentinels. Exact arithmetic."
  },
  {
   "property": "C120",
   "status": "proved",
   "theorems": [
    "PathLib.C120_get",
    "PathLib.C120_derivative",
    "PathLib.C120_hull",
    "PathLib.C120_split",
    "PathLib.C120_table",
    "PathLib.C120_halving",
    "PathLib.C120_font",
    "PathLib.C120_sharp"
   ],
   "note": "float is binary floating point with 53 bits and round to nearest even, without overflow and underflow. The bound for hull and split is one bit stronger than for get because the differences of coordinates can have one bit more. C120_sharp shows that the bounds of get for font coordinates cannot be improved; the bounds of hull, split and derivative are not claimed to be sharp."
  },
  {
   "property": "C121",
   "status": "proved",
   "theorems": [
    "PathLib.C121_part",
    "PathLib.C121_injective",
    "PathLib.C121_reduce",
    "PathLib.C121_few",
    "PathLib.C121_count",
    "PathLib.C121_cubic_loop",
    "PathLib.C121_cubic_cusp"
   ],
   "note": ""
  },
  {
   "property": "C122",
   "status": "proved",
   "theorems": [
    "PathLib.C122_text",
    "PathLib.C122_int",
    "PathLib.C122_grammar",
    "PathLib.C122_unique",
    "PathLib.C122_exact",
    "PathLib.C122_font",
    "PathLib.C122_printable",
    "PathLib.C122_contour",
    "PathLib.C122_glyph",
    "PathLib.C122_plot",
    "PathLib.C122_exists"
   ],
   "note": "The choice of digits by Python's repr is assumed as documented (Spec.Decimal.Shortest); overflow, underflow, nan and inf are not modelled. C122_exists shows that the assumption can be met."
  },
  {
   "property": "C123",
   "status": "proved",
   "theorems": [
    "PathLib.C123_qCurveTo",
    "PathLib.C123_drawGlyph",
    "PathLib.C123_outline",
    "PathLib.C123_plot"
   ],
   "note": "Floats without overflow and underflow; repr as documented (Spec.Decimal.Shortest). The bounds of the contour objects are computed exactly in this theorem; the path data does not depend on them."
  },
  {
   "property": "C124",
   "status": "proved",
   "theorems": [
    "PathLib.C124_curve",
    "PathLib.C124_normal",
    "PathLib.C124_bounds",
    "PathLib.C124_transform",
    "PathLib.C124_midpoint",
    "PathLib.C124_grid",
    "PathLib.C124_get_error",
    "PathLib.C124_bbox_error",
    "PathLib.C124_underflow_get",
    "PathLib.C124_underflow_normal",
    "PathLib.C124_overflow",
    "PathLib.C124_closest",
    "PathLib.C124_closest_error",
    "PathLib.C124_color",
    "PathLib.C124_length",
    "PathLib.C124_glyph",
    "PathLib.C124_trueType",
    "PathLib.C124_trueType_exact",
    "PathLib.C124_intersects",
    "PathLib.C124_intersects_terminates",
    "PathLib.C124_intersects_close",
    "PathLib.C124_lines",
    "PathLib.C124_slope",
    "PathLib.C124_lines_grid",
    "PathLib.C124_ieee",
    "PathLib.C124_ieee_overflow",
    "PathLib.C124_ieee_unlimited"
   ],
   "note": "Safe carries equality, the multiple of a power of two and the bound through every operation; C124_underflow_get, C124_underflow_normal and C124_overflow show what happens outside the range."
  }
 ]
}