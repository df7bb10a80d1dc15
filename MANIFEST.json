{
 "claims": [
  {
   "property": "C01",
   "status": "proved",
   "theorems": [
    "Stroke.C01_componentwise",
    "Stroke.C01_new_iter",
    "Stroke.C01_vector_space"
   ],
   "note": "Componentwise for any scalar type; vector-space laws in exact arithmetic."
  },
  {
   "property": "C02",
   "status": "proved",
   "theorems": [
    "Stroke.C02_float_eq",
    "Stroke.C02_float",
    "Stroke.C02_eq_iff",
    "Stroke.C02_equivalence"
   ],
   "note": "Exact arithmetic: equality is componentwise and an equivalence; floats (C02_float): a NaN component makes the point unequal to everything."
  },
  {
   "property": "C03",
   "status": "proved",
   "theorems": [
    "Stroke.C03_axis"
   ],
   "note": ""
  },
  {
   "property": "C04",
   "status": "proved",
   "theorems": [
    "Stroke.C04_squared_length"
   ],
   "note": ""
  },
  {
   "property": "C05",
   "status": "proved",
   "theorems": [
    "Stroke.C05_eval",
    "Stroke.C05_endpoints",
    "Stroke.C05_axis"
   ],
   "note": ""
  },
  {
   "property": "C06",
   "status": "partial",
   "theorems": [
    "Stroke.C06_false",
    "Stroke.C06_actual",
    "Stroke.C06_partial"
   ],
   "note": "The claim is false of the code: C06_false refutes it for every segment with distinct ends and every t other than 0; C06_actual describes what is computed; C06_partial is the part that holds."
  },
  {
   "property": "C07",
   "status": "partial",
   "theorems": [
    "Stroke.C07_partial",
    "Stroke.C07_false",
    "Stroke.C07_never_below",
    "Stroke.C07_short"
   ],
   "note": "The claim is false of the code for query points projecting at or beyond the end point (C07_false). Correct otherwise (C07_partial); never below the true distance on any input (C07_never_below)."
  },
  {
   "property": "C08",
   "status": "proved",
   "theorems": [
    "Stroke.C08_derivative"
   ],
   "note": ""
  },
  {
   "property": "C09",
   "status": "proved",
   "theorems": [
    "Stroke.C09_bounding_box"
   ],
   "note": ""
  },
  {
   "property": "C10",
   "status": "proved",
   "theorems": [
    "Stroke.C10_eval",
    "Stroke.C10_eval_casteljau",
    "Stroke.C10_axis",
    "Stroke.C10_methods_agree",
    "Stroke.C10_endpoints"
   ],
   "note": ""
  },
  {
   "property": "C11",
   "status": "proved",
   "theorems": [
    "Stroke.C11_split"
   ],
   "note": ""
  },
  {
   "property": "C12",
   "status": "proved",
   "theorems": [
    "Stroke.C12_derivative",
    "Stroke.C12_dd"
   ],
   "note": ""
  },
  {
   "property": "C13",
   "status": "proved",
   "theorems": [
    "Stroke.C13_contains",
    "Stroke.C13_contains_exact"
   ],
   "note": "The box always exists and contains the curve up to EPSILON/8 on each side, exactly when the second difference is 0 or at least EPSILON/2."
  },
  {
   "property": "C14",
   "status": "proved",
   "theorems": [
    "Stroke.C14_tight"
   ],
   "note": "Both bounds are attained on [0,1]; lower <= upper."
  },
  {
   "property": "C15",
   "status": "partial",
   "theorems": [
    "Stroke.C15_actual",
    "Stroke.C15_false",
    "Stroke.C15_partial"
   ],
   "note": "False as stated (C15_false): the loop starts at 1 and skips the first chord. Proved: exact value as polyline over the remaining chords, error bounds, convergence."
  },
  {
   "property": "C16",
   "status": "partial",
   "theorems": [
    "Stroke.C16_partial",
    "Stroke.C16_resolution_attained",
    "Stroke.C16_false"
   ],
   "note": "Lower half false (C16_false: parameters left of 0 are sampled). Proved: result is a distance to the extended curve, at most 2D/64 above the true distance; bound attained."
  },
  {
   "property": "C17",
   "status": "proved",
   "theorems": [
    "Stroke.C17_is_linear_sound"
   ],
   "note": ""
  },
  {
   "property": "C18",
   "status": "partial",
   "theorems": [
    "Stroke.C18_exact",
    "Stroke.C18_false",
    "Stroke.C18_partial"
   ],
   "note": "The claim is false of the code (C18_false); it holds when the control point projects strictly before the end point. C18_exact states exactly what the test decides in exact arithmetic."
  },
  {
   "property": "C19",
   "status": "proved",
   "theorems": [
    "Stroke.C19_exact",
    "Stroke.C19_is_a_point",
    "Stroke.C19_is_a_point_zero"
   ],
   "note": ""
  },
  {
   "property": "C20",
   "status": "proved",
   "theorems": [
    "Stroke.C20_eval",
    "Stroke.C20_eval_casteljau",
    "Stroke.C20_axis",
    "Stroke.C20_methods_agree",
    "Stroke.C20_endpoints"
   ],
   "note": ""
  },
  {
   "property": "C21",
   "status": "proved",
   "theorems": [
    "Stroke.C21_split"
   ],
   "note": ""
  },
  {
   "property": "C22",
   "status": "proved",
   "theorems": [
    "Stroke.C22_derivative"
   ],
   "note": ""
  },
  {
   "property": "C23",
   "status": "partial",
   "theorems": [
    "Stroke.C23_false",
    "Stroke.C23_partial"
   ],
   "note": "The claim is false of the code (C23_false, with the exact discrepancy); it holds at t = 0, t = 1 and where the start coordinate is 0."
  },
  {
   "property": "C24",
   "status": "proved",
   "theorems": [
    "Stroke.C24_contains_exact",
    "Stroke.C24_contains"
   ],
   "note": "The box always exists and contains the curve up to EPSILON/3 on each side, exactly under the stated coefficient condition."
  },
  {
   "property": "C25",
   "status": "proved",
   "theorems": [
    "Stroke.C25_tight"
   ],
   "note": "Both bounds are attained on [0,1]; lower <= upper."
  },
  {
   "property": "C26",
   "status": "partial",
   "theorems": [
    "Stroke.C26_actual",
    "Stroke.C26_false",
    "Stroke.C26_partial"
   ],
   "note": "False as stated (C26_false): the loop starts at 1 and skips the first chord. Proved: exact value as polyline over the remaining chords, error bounds, convergence."
  },
  {
   "property": "C27",
   "status": "partial",
   "theorems": [
    "Stroke.C27_partial",
    "Stroke.C27_false"
   ],
   "note": "Lower half false (C27_false). Proved: result is a distance to the extended curve, at most 3D/64 above the true distance."
  },
  {
   "property": "C28",
   "status": "partial",
   "theorems": [
    "Stroke.C28_is_linear_sound",
    "Stroke.C28_complete_false",
    "Stroke.C28_complete_partial",
    "Stroke.C28_exact"
   ],
   "note": "Soundness proved in full; completeness is false of the code (C28_complete_false) and holds when both control points project strictly before the end point. C28_exact states exactly what the test decides in exact arithmetic."
  },
  {
   "property": "C29",
   "status": "proved",
   "theorems": [
    "Stroke.C29_is_a_point_sharp",
    "Stroke.C29_is_a_point",
    "Stroke.C29_sharp_attained",
    "Stroke.C29_is_a_point_zero",
    "Stroke.C29_exact"
   ],
   "note": "With the sharp constant sqrt 2, and a proof that it is attained."
  },
  {
   "property": "C30",
   "status": "proved",
   "theorems": [
    "Stroke.C30_eval",
    "Stroke.C30_eval_empty",
    "Stroke.C30_spline_trait"
   ],
   "note": ""
  },
  {
   "property": "C31",
   "status": "proved",
   "theorems": [
    "Stroke.C31_endpoints"
   ],
   "note": ""
  },
  {
   "property": "C32",
   "status": "proved",
   "theorems": [
    "Stroke.C32_line",
    "Stroke.C32_quadratic_eval",
    "Stroke.C32_cubic_eval",
    "Stroke.C32_quadratic_split",
    "Stroke.C32_cubic_split",
    "Stroke.C32_derivative"
   ],
   "note": ""
  },
  {
   "property": "C33",
   "status": "proved",
   "theorems": [
    "Stroke.C33_split"
   ],
   "note": ""
  },
  {
   "property": "C34",
   "status": "proved",
   "theorems": [
    "Stroke.C34_derivative"
   ],
   "note": ""
  },
  {
   "property": "C35",
   "status": "partial",
   "theorems": [
    "Stroke.C35_false",
    "Stroke.C35_partial"
   ],
   "note": "The claim is false of the code for N = 1 (C35_false, panics); proved for N >= 2."
  },
  {
   "property": "C36",
   "status": "proved",
   "theorems": [
    "Stroke.C36_bezier",
    "Stroke.C36_specialised",
    "Stroke.C36_bounds"
   ],
   "note": ""
  },
  {
   "property": "C37",
   "status": "proved",
   "theorems": [
    "Stroke.C37_bezier",
    "Stroke.C37_specialised"
   ],
   "note": ""
  },
  {
   "property": "C38",
   "status": "proved",
   "theorems": [
    "Stroke.C38_bezier",
    "Stroke.C38_specialised"
   ],
   "note": ""
  },
  {
   "property": "C39",
   "status": "partial",
   "theorems": [
    "Stroke.C39_actual",
    "Stroke.C39_false",
    "Stroke.C39_partial",
    "Stroke.C39_empty"
   ],
   "note": "False as stated (C39_false): the loop starts at 1 and skips the first chord. Proved: exact value as polyline over the remaining chords, error bounds, convergence."
  },
  {
   "property": "C40",
   "status": "partial",
   "theorems": [
    "Stroke.C40_partial",
    "Stroke.C40_false"
   ],
   "note": "Lower half false (C40_false). Proved: result is a distance to the extended curve, at most (N-1)D/64 above the true distance, for every N >= 1."
  },
  {
   "property": "C41",
   "status": "proved",
   "theorems": [
    "Stroke.C41_round_trip"
   ],
   "note": ""
  },
  {
   "property": "C42",
   "status": "proved",
   "theorems": [
    "Stroke.C42_line",
    "Stroke.C42_quadratic",
    "Stroke.C42_cubic",
    "Stroke.C42_endpoints",
    "Stroke.C42_split",
    "Stroke.C42_split_linear_false"
   ],
   "note": "Dispatch is faithful. Linear segments inherit the split defect of C06 (C42_split_linear_false)."
  },
  {
   "property": "C43",
   "status": "proved",
   "theorems": [
    "Stroke.C43_accepts",
    "Stroke.C43_float",
    "Stroke.C43_any"
   ],
   "note": "Exact arithmetic for every K, C, D, knot vector (C43); floats with finite knots (C43_float). NaN knots are accepted, see C63. C43_any: the same in any arithmetic, where non-decreasing means that no knot compares less than the one before."
  },
  {
   "property": "C44",
   "status": "proved",
   "theorems": [
    "Stroke.C44_errors",
    "Stroke.C44_stores",
    "Stroke.C44_any",
    "Stroke.C44_stores_any"
   ],
   "note": "C44_errors, C44_stores: exact arithmetic. C44_any, C44_stores_any: any arithmetic, so also floats with NaN or infinite knots; the constructor never panics."
  },
  {
   "property": "C45",
   "status": "partial",
   "theorems": [
    "Stroke.C45_partial",
    "Stroke.C45_one_sided",
    "Stroke.C45_false"
   ],
   "note": "False of the code for knot vectors clamped on one side only (C45_false, C45_one_sided states what is returned); C45_partial proves it for splines clamped on both sides or on neither."
  },
  {
   "property": "C46",
   "status": "proved",
   "theorems": [
    "Stroke.C46_outside",
    "Stroke.C46_float"
   ],
   "note": "Exact arithmetic (C46) and floats with finite knots for every t, NaN and infinities included (C46_float)."
  },
  {
   "property": "C47",
   "status": "partial",
   "theorems": [
    "Stroke.C47_partial",
    "Stroke.C47_clamped",
    "Stroke.C47_unclamped_partial",
    "Stroke.C47_false_unclamped",
    "Stroke.C47_false_start",
    "Stroke.C47_false_end",
    "Stroke.C47_front_exact",
    "Stroke.C47_back_exact",
    "Stroke.C47_unclamped_exact",
    "Stroke.C47_no_error",
    "Stroke.C47_unclamped_left",
    "Stroke.C47_unclamped_sizes",
    "Stroke.C47_float_clamped",
    "Stroke.C47_float_front",
    "Stroke.C47_float_back",
    "Stroke.C47_float_unclamped",
    "Stroke.C47_float_both"
   ],
   "note": "False of the code for unclamped splines of degree >= 2 and at the far end of one-sided clamped ones: eval panics (index out of bounds). C47_clamped: fully clamped splines always succeed on the domain. C47_front_exact, C47_back_exact, C47_unclamped_exact: exact characterisation of success and panic for the other clampings; C47_unclamped_sizes: for which sizes an unclamped spline evaluates on its whole domain. C47_float_both, C47_float_front, C47_float_back, C47_float_unclamped: the same characterisation in floating point for finite knots, whatever the control points (C47_float_clamped: equal end knots)."
  },
  {
   "property": "C48",
   "status": "partial",
   "theorems": [
    "Stroke.C48_partial",
    "Stroke.C48_false",
    "Stroke.C48_false_unclamped",
    "Stroke.C48_near_knots",
    "Stroke.C48_at_knots",
    "Stroke.C48_unclamped_constant",
    "Stroke.C48_unclamped_right",
    "Stroke.C48_unclamped_far",
    "Stroke.C48_unclamped_found"
   ],
   "note": "False of the code: the control point with index k of the span is dropped (C48_false), and unclamped splines use a wrong span (C48_false_unclamped). C48_partial states the exact value: the B-spline minus its k-th term. C48_at_knots: exact B-spline at knots. C48_near_knots: error bound for parameters within the machine epsilon above a knot. Exact value for unclamped splines: C48_unclamped_found (the right span is found: as for clamped ones), C48_unclamped_right (the search overshoots: the value of a spline of lower degree over the knots without those passed over), C48_unclamped_far (it overshoots by the degree or more: a control point)."
  },
  {
   "property": "C49",
   "status": "partial",
   "theorems": [
    "Stroke.C49_end",
    "Stroke.C49_start_partial",
    "Stroke.C49_false",
    "Stroke.C49_start_exact",
    "Stroke.C49_false_multiplicity",
    "Stroke.C49_float_end",
    "Stroke.C49_float_start"
   ],
   "note": "End point proved (C49_end). The start point is false for degree 0 (C49_false: the origin) and for a first knot of multiplicity above D+1 (C49_false_multiplicity); C49_start_exact determines it in every case: control point k-D with k the last index of the first knot's value, so the first one exactly for multiplicity D+1 (C49_start_partial). Both ends in floating point, without rounding error: C49_float_end, C49_float_start."
  },
  {
   "property": "C50",
   "status": "partial",
   "theorems": [
    "Stroke.C50_partial",
    "Stroke.C50_false",
    "Stroke.C50_unclamped_mean"
   ],
   "note": "False of the code because a control point is dropped (C50_false): C50_partial proves the value is a sub-convex combination with the exact weights. C50_unclamped_mean: where the search of unclamped splines overshoots, the weights of C48_unclamped_right are not negative and have the sum 1."
  },
  {
   "property": "C51",
   "status": "proved",
   "theorems": [
    "Stroke.C51_local",
    "Stroke.C51_false_unclamped"
   ],
   "note": "Splines clamped on at least one side; C51_false_unclamped shows the restriction to clamped splines is needed."
  },
  {
   "property": "C52",
   "status": "partial",
   "theorems": [
    "Stroke.C52_partial",
    "Stroke.C52_false",
    "Stroke.C52_false_eval"
   ],
   "note": "False of the code: the returned spline keeps all K knots, so its own constructor would reject it (C52_false), and it fails to evaluate (C52_false_eval). C52_partial: the control points are right for the knots without the first and last."
  },
  {
   "property": "C53",
   "status": "partial",
   "theorems": [
    "Stroke.C53_actual",
    "Stroke.C53_partial",
    "Stroke.C53_false"
   ],
   "note": "False of the code (C53_false). C53_actual states the exact value; C53_partial: for a domain of length 1 it is the polyline length plus the norm of the last control point."
  },
  {
   "property": "C54",
   "status": "partial",
   "theorems": [
    "Stroke.C54_partial",
    "Stroke.C54_false"
   ],
   "note": "Proved for finite knots whose differences do not overflow (C54_partial, every float format and every t). False in general: C54_false gives finite binary64 knots and t with Err(EvaluationAlphaIsNaN)."
  },
  {
   "property": "C55",
   "status": "proved",
   "theorems": [
    "Stroke.C55_roots_square",
    "Stroke.C55_quadratic_real_roots"
   ],
   "note": "All coefficient cases, for roots_square and QuadraticBezier::real_roots."
  },
  {
   "property": "C56",
   "status": "partial",
   "theorems": [
    "Stroke.C56_false",
    "Stroke.C56_one_root_partial",
    "Stroke.C56_three_roots_partial",
    "Stroke.C56_degenerate",
    "Stroke.C56_cubic_real_roots"
   ],
   "note": "False as stated (C56_false: x^3-x, single-precision pi). Proved: exact first root, residual/distance bounds for the others, completeness."
  },
  {
   "property": "C57",
   "status": "partial",
   "theorems": [
    "Stroke.C57_quadratic_partial",
    "Stroke.C57_quadratic_complete",
    "Stroke.C57_quadratic_false",
    "Stroke.C57_cubic_partial",
    "Stroke.C57_cubic_false",
    "Stroke.C57_cubic_complete",
    "Stroke.C57_cubic_complete_false"
   ],
   "note": "False as stated (C57_quadratic_false, C57_cubic_false). Proved: parameters in (0,1), exactness conditions and residual bounds, completeness for quadratics, completeness for cubics up to the resolution of the code and away from the ends (C57_cubic_complete); a solution near 0 can be lost altogether (C57_cubic_complete_false)."
  },
  {
   "property": "C58",
   "status": "proved",
   "theorems": [
    "Stroke.C58_no_panic"
   ],
   "note": "bounding_box, axis and dd never panic on a valid axis (exact arithmetic, i.e. no NaN). C109 gives the floating-point counterpart for bounding_box without restrictions: it panics exactly for NaN end points."
  },
  {
   "property": "C59",
   "status": "proved",
   "theorems": [
    "Stroke.C59_accessors"
   ],
   "note": ""
  },
  {
   "property": "C60",
   "status": "proved",
   "theorems": [
    "Stroke.C60_cubic",
    "Stroke.C60_quadratic",
    "Stroke.C60_overflow",
    "Stroke.C60_overflow_binary64",
    "Stroke.C60_bezier"
   ],
   "note": "For every float format; for QuadraticBezier no overflow of 2*ctrl is assumed (the claim says without overflow); C60_overflow shows the assumption is needed."
  },
  {
   "property": "C61",
   "status": "partial",
   "theorems": [
    "Stroke.C61_start",
    "Stroke.C61_partial",
    "Stroke.C61_error",
    "Stroke.C61_false"
   ],
   "note": "Holds when coordinate differences are representable (C61_partial); general error bound C61_error; false in general (C61_false, binary64)."
  },
  {
   "property": "C62",
   "status": "proved",
   "theorems": [
    "Stroke.C62_bezier_error"
   ],
   "note": "Explicit bound for every N and every float format (C62_bezier_error), absent overflow."
  },
  {
   "property": "C63",
   "status": "partial",
   "theorems": [
    "Stroke.C63_nan_knots",
    "Stroke.C63_nan_parameter",
    "Stroke.C63_box_quadratic_partial",
    "Stroke.C63_box_cubic_partial",
    "Stroke.C63_false_quadratic",
    "Stroke.C63_false_line",
    "Stroke.C63_nan_hides_decrease"
   ],
   "note": "Proved: NaN parameters give KnotDomainViolation (C63_nan_parameter); NaN in the start or end point makes bounding_box of quadratics and cubics panic (C63_box_*_partial). False: NaN in the middle control point is ignored (C63_false_quadratic), line segments never panic (C63_false_line), NaN knots are accepted (C63_nan_knots) and hide a decrease (C63_nan_hides_decrease: 1, NaN, 0, 0), finite knots can give EvaluationAlphaIsNaN (C54_false)."
  },
  {
   "property": "C64",
   "status": "proved",
   "theorems": [
    "Stroke.C64_quadratic",
    "Stroke.C64_cubic",
    "Stroke.C64_line",
    "Stroke.C64_quadratic_total",
    "Stroke.C64_cubic_total"
   ],
   "note": "Every float format; totality under an explicit distance from overflow (Room). C109 removes this restriction for the IEEE formats."
  },
  {
   "property": "C65",
   "status": "proved",
   "theorems": [
    "Stroke.C65_line",
    "Stroke.C65_quadratic",
    "Stroke.C65_cubic",
    "Stroke.C65_bezier",
    "Stroke.C65_segment",
    "Stroke.C65_chain"
   ],
   "note": "Any scalar type, any arithmetic, all five curve types, and chains of recursive splits."
  },
  {
   "property": "C66",
   "status": "proved",
   "theorems": [
    "Stroke.C66_tiles_quadratic",
    "Stroke.C66_small_quadratic",
    "Stroke.C66_flatten_quadratic",
    "Stroke.C66_tiles_cubic",
    "Stroke.C66_small_cubic",
    "Stroke.C66_flatten_cubic",
    "Stroke.C66_depth_exists",
    "Stroke.C66_needs_is_a_point"
   ],
   "note": "Tiling, termination depth, connectedness and tolerance for quadratic and cubic curves; C66_needs_is_a_point shows that is_linear alone does not terminate."
  },
  {
   "property": "C67",
   "status": "proved",
   "theorems": [
    "Stroke.C67_quadratic_eval",
    "Stroke.C67_cubic_eval",
    "Stroke.C67_line_eval",
    "Stroke.C67_quadratic_casteljau",
    "Stroke.C67_cubic_casteljau",
    "Stroke.C67_quadratic_agree",
    "Stroke.C67_cubic_agree"
   ],
   "note": "Explicit bounds for all five functions and their agreement; hypotheses met by binary64 and binary32."
  },
  {
   "property": "C68",
   "status": "proved",
   "theorems": [
    "Stroke.C68_bezier",
    "Stroke.C68_specialised"
   ],
   "note": "Every degree and dimension, by Descartes' rule of signs; the example shows that the bound is attained."
  },
  {
   "property": "C69",
   "status": "proved",
   "theorems": [
    "Stroke.C69_bezier",
    "Stroke.C69_axis",
    "Stroke.C69_specialised"
   ],
   "note": ""
  },
  {
   "property": "C70",
   "status": "proved",
   "theorems": [
    "Stroke.C70_control_box_quadratic",
    "Stroke.C70_control_box_cubic",
    "Stroke.C70_split_quadratic",
    "Stroke.C70_split_cubic",
    "Stroke.C70_translate_quadratic",
    "Stroke.C70_translate_cubic"
   ],
   "note": "Control box, split parts both ways, exact translation equivariance, for quadratic and cubic curves."
  },
  {
   "property": "C71",
   "status": "partial",
   "theorems": [
    "Stroke.C71_refine",
    "Stroke.C71_control_polygon",
    "Stroke.C71_control_polygon_specialised",
    "Stroke.C71_arc_length",
    "Stroke.C71_at_least_chord",
    "Stroke.C71_similarity",
    "Stroke.C71_reverse_partial",
    "Stroke.C71_reverse_false"
   ],
   "note": "Refinement, control polygon bound (also for the true arc length), similarity all proved. Reversal invariance is false because the first chord is skipped (C71_reverse_false); C71_reverse_partial gives the exact difference."
  },
  {
   "property": "C72",
   "status": "proved",
   "theorems": [
    "Stroke.C72_bezier",
    "Stroke.C72_specialised",
    "Stroke.C72_bspline"
   ],
   "note": "All Bezier types on [0,1]; B-splines for every knot vector."
  },
  {
   "property": "C73",
   "status": "proved",
   "theorems": [
    "Stroke.C73_bezier",
    "Stroke.C73_specialised"
   ],
   "note": "Generic and specialised curves; exact for line segments."
  },
  {
   "property": "C74",
   "status": "proved",
   "theorems": [
    "Stroke.C74_line",
    "Stroke.C74_quadratic",
    "Stroke.C74_cubic",
    "Stroke.C74_bezier",
    "Stroke.C74_squared_length"
   ],
   "note": ""
  },
  {
   "property": "C75",
   "status": "partial",
   "theorems": [
    "Stroke.C75_line",
    "Stroke.C75_partial",
    "Stroke.C75_false"
   ],
   "note": "proved for line segments (C75_line) and for NaN in the query point or the first control point of any curve (C75_partial); false for the other control points: the curve's distance_to_point silently returns the distance to its start point (C75_false)."
  },
  {
   "property": "C76",
   "status": "partial",
   "theorems": [
    "Stroke.C76_curves",
    "Stroke.C76_line_partial",
    "Stroke.C76_line_rigid",
    "Stroke.C76_line_false"
   ],
   "note": "proved for all curves (C76_curves), and for line segments under rigid motions (C76_line_rigid) and under similarities that do not move the length across the cut-off sqrt(EPSILON) (C76_line_partial); false for other segments because of the absolute cut-off (C76_line_false)."
  },
  {
   "property": "C77",
   "status": "partial",
   "theorems": [
    "Stroke.C77_tolerance",
    "Stroke.C77_rigid",
    "Stroke.C77_reversal_partial",
    "Stroke.C77_reversal_false"
   ],
   "note": "tolerance and rigid motions proved (C77_tolerance, C77_rigid); reversal holds for is_a_point of cubics (C77_reversal_partial) and is false for is_linear and for is_a_point of quadratics (C77_reversal_false)."
  },
  {
   "property": "C78",
   "status": "proved",
   "theorems": [
    "Stroke.C78_bezier",
    "Stroke.C78_specialised"
   ],
   "note": ""
  },
  {
   "property": "C79",
   "status": "partial",
   "theorems": [
    "Stroke.C79_partial",
    "Stroke.C79_shift",
    "Stroke.C79_false"
   ],
   "note": "C79_partial: holds when the distinct knots and the parameter stay at least the machine epsilon apart; C79_shift: for every shift without condition; C79_false: scaling by 2^-53 changes the value because the code compares knot differences with an absolute epsilon."
  },
  {
   "property": "C80",
   "status": "partial",
   "theorems": [
    "Stroke.C80_any_arithmetic",
    "Stroke.C80_derivative",
    "Stroke.C80_linear_partial",
    "Stroke.C80_false"
   ],
   "note": "C80_linear_partial: linear maps, exact arithmetic; C80_any_arithmetic and C80_derivative: every map that respects the operations, in any arithmetic; C80_false: translations move the curve by another vector, because the dropped basis function breaks the partition of unity."
  },
  {
   "property": "C81",
   "status": "partial",
   "theorems": [
    "Stroke.C81_joints",
    "Stroke.C81_partial",
    "Stroke.C81_false"
   ],
   "note": "C81_partial: each span is a polynomial of degree at most D in exact arithmetic. C81_false: for every degree the spline with knots 0..0 1..1 tends to the origin as t tends to 1 while eval(1) is the last control point. C81_joints: at every interior knot of multiplicity at most the degree the curve is continuous exactly if the control point of the ending span is the origin."
  },
  {
   "property": "C82",
   "status": "partial",
   "theorems": [
    "Stroke.C82_partial",
    "Stroke.C82_false"
   ],
   "note": "C82_partial: same end points, and the exact difference t^D p_D in between; C82_false: the difference is non-zero whenever the last control point is not the origin."
  },
  {
   "property": "C83",
   "status": "proved",
   "theorems": [
    "Stroke.C83_bspline_error",
    "Stroke.C83_one_end"
   ],
   "note": "C83_bspline_error: clamped splines. C83_one_end: the same bound for splines clamped, up to the machine epsilon, at one end at least. Relative to the exact value of the algorithm, i.e. the B-spline without the dropped term (see C48)."
  },
  {
   "property": "C84",
   "status": "partial",
   "theorems": [
    "Stroke.C84_quadratic",
    "Stroke.C84_cubic_partial",
    "Stroke.C84_cubic_false",
    "Stroke.C84_cubic_conditioned_partial",
    "Stroke.C84_cubic_binary64_partial"
   ],
   "note": "Proved for quadratic curves with explicit constants (C84_quadratic).  False for cubic curves: C84_cubic_false is a binary64 curve with coordinates at most 3 whose box misses the curve by more than 1/512, because real_roots loses a root of the derivative to cancellation.  C84_cubic_partial: the box of a cubic is finite, contains both end points and its ends are close to points of the curve.  C84_cubic_conditioned_partial: on an axis where the leading coefficient of the derivative is at least kappa the box contains the curve up to 400 u M + 6200 u M^2 / kappa + 3 epsilon; C84_cubic_binary64_partial puts numbers in (10^-10 M when the third difference is at least M/100)."
  },
  {
   "property": "C85",
   "status": "proved",
   "theorems": [
    "Stroke.C85_exact",
    "Stroke.C85_binary64"
   ],
   "note": "Exact arithmetic for all real t (C85_exact), and every binary64 parameter of the computed eval (C85_binary64)."
  },
  {
   "property": "C86",
   "status": "proved",
   "theorems": [
    "Stroke.C86_quadratic",
    "Stroke.C86_cubic",
    "Stroke.C86_bezier",
    "Stroke.C86_cubic_descend",
    "Stroke.C86_quadratic_descend",
    "Stroke.C86_bezier_descend"
   ],
   "note": "One split: C86_quadratic, C86_cubic, C86_bezier.  Any number of splits at arbitrary floats: C86_quadratic_descend, C86_cubic_descend, C86_bezier_descend (total error assumed at most 1, which excludes growth of the coordinates)."
  },
  {
   "property": "C87",
   "status": "proved",
   "theorems": [
    "Stroke.C87_solve",
    "Stroke.C87_axis",
    "Stroke.C87_total",
    "Stroke.C87_bezier",
    "Stroke.C87_bounding_box"
   ],
   "note": "C87_total, C87_axis, C87_solve, C87_bezier, C87_bounding_box: generic over the scalar type without any laws."
  },
  {
   "property": "C88",
   "status": "proved",
   "theorems": [
    "Stroke.C88_squared_length",
    "Stroke.C88_point_distance",
    "Stroke.C88_quadratic",
    "Stroke.C88_cubic",
    "Stroke.C88_bezier",
    "Stroke.C88_cubic_binary64"
   ],
   "note": "C88_squared_length, C88_point_distance, C88_quadratic, C88_cubic, C88_bezier, C88_cubic_binary64. Overflow is excluded by explicit size hypotheses; the binary64 corollary discharges them."
  },
  {
   "property": "C89",
   "status": "proved",
   "theorems": [
    "Stroke.C89_line_sound",
    "Stroke.C89_quadratic_is_linear",
    "Stroke.C89_cubic_is_linear",
    "Stroke.C89_quadratic_is_a_point",
    "Stroke.C89_cubic_is_a_point",
    "Stroke.C89_line_accurate",
    "Stroke.C89_line_binary64",
    "Stroke.C89_quadratic_is_linear_complete",
    "Stroke.C89_cubic_is_linear_complete"
   ],
   "note": "Soundness: C89_line_sound, C89_quadratic_is_linear, C89_cubic_is_linear, C89_quadratic_is_a_point, C89_cubic_is_a_point (the last two require tol*tol not to overflow). Accuracy: C89_line_accurate (any format), C89_line_binary64 (numbers). Completeness of is_linear: C89_quadratic_is_linear_complete, C89_cubic_is_linear_complete. For points projecting beyond the end the code clamps to the start (see C06), so no accuracy claim holds there."
  },
  {
   "property": "C90",
   "status": "partial",
   "theorems": [
    "Stroke.C90_real_roots",
    "Stroke.C90_solve_t_partial",
    "Stroke.C90_binary64_partial",
    "Stroke.C90_false"
   ],
   "note": "False as stated: C90_false gives an f64 curve with coordinates at most 2 on which the single returned parameter misses the value by more than 1/17 (the second difference of the coordinates is 2^-51, and the quadratic formula divides rounding errors by it). Proved: C90_real_roots (residual of every root in (0,1] computed by real_roots, any format), C90_solve_t_partial (error of every returned parameter in terms of the computed second difference), C90_binary64_partial (second difference at least M/100: error at most 1e-11 M)."
  },
  {
   "property": "C91",
   "status": "proved",
   "theorems": [
    "Stroke.C91_end_tangents",
    "Stroke.C91_end_tangents_specialised",
    "Stroke.C91_split",
    "Stroke.C91_split_specialised",
    "Stroke.C91_line_split",
    "Stroke.C91_integral",
    "Stroke.C91_integral_specialised",
    "Stroke.C91_higher",
    "Stroke.C91_higher_end",
    "Stroke.C91_higher_specialised"
   ],
   "note": "End tangents: C91_end_tangents(_specialised); pieces of a split: C91_split(_specialised), and C91_line_split for the segments, whose split is wrong; integrals: C91_integral(_specialised); repeated differentiation: C91_higher(_specialised), C91_higher_end."
  },
  {
   "property": "C92",
   "status": "proved",
   "theorems": [
    "Stroke.C92_line",
    "Stroke.C92_quadratic",
    "Stroke.C92_cubic",
    "Stroke.C92_bezier",
    "Stroke.C92_dd",
    "Stroke.C92_binary64",
    "Stroke.C92_bspline",
    "Stroke.C92_bspline_repeated",
    "Stroke.C92_cubic_dd"
   ],
   "note": "Stated against `deriv` of the exact curve. Bezier is limited to N <= 1025 (and D <= 1024 for B-splines) so that the factor is exactly representable in every modelled format. CubicBezier::dd is wrong in exact arithmetic (C23); C92_cubic_dd bounds the rounding error relative to the formula it computes. C92_bspline and C92_bspline_repeated: control points of BSpline::derivative."
  },
  {
   "property": "C93",
   "status": "proved",
   "theorems": [
    "Stroke.C93_bezier",
    "Stroke.C93_sharp",
    "Stroke.C93_specialised",
    "Stroke.C93_segment",
    "Stroke.C93_degree_matters",
    "Stroke.C93_float",
    "Stroke.C93_iter_mut"
   ],
   "note": "C93_bezier with C93_sharp; C93_specialised, C93_segment, C93_degree_matters for ==; C93_float in every float format (the model has one zero, and == does not distinguish the two zeros either); C93_iter_mut."
  },
  {
   "property": "C94",
   "status": "proved",
   "theorems": [
    "Stroke.C94_bezier",
    "Stroke.C94_bezier_distance",
    "Stroke.C94_specialised",
    "Stroke.C94_influence",
    "Stroke.C94_largest"
   ],
   "note": "Exact displacement (C94_bezier, C94_specialised), distance and strictness (C94_bezier_distance), place of largest influence (C94_influence, C94_largest)."
  },
  {
   "property": "C95",
   "status": "partial",
   "theorems": [
    "Stroke.C95_partial",
    "Stroke.C95_specialised_partial",
    "Stroke.C95_false",
    "Stroke.C95_limit",
    "Stroke.C95_limit_specialised"
   ],
   "note": "The limit half is proved (C95_limit, C95_limit_specialised). The sampled half is false of the code, because arclen skips the first chord of each part (C95_false); C95_partial and C95_specialised_partial give the exact relation, with that chord."
  },
  {
   "property": "C96",
   "status": "proved",
   "theorems": [
    "Stroke.C96_line",
    "Stroke.C96_quadratic",
    "Stroke.C96_cubic",
    "Stroke.C96_segment",
    "Stroke.C96_bezier",
    "Stroke.C96_bspline",
    "Stroke.C96_arclen",
    "Stroke.C96_distance",
    "Stroke.C96_flatness",
    "Stroke.C96_reindex",
    "Stroke.C96_coordinate",
    "Stroke.C96_independent",
    "Stroke.C96_mirror",
    "Stroke.C96_ieee",
    "Stroke.C96_binary64"
   ],
   "note": "C96_line, C96_quadratic, C96_cubic, C96_segment, C96_bezier, C96_bspline: commutation in any arithmetic. C96_reindex, C96_coordinate, C96_independent: coordinates. C96_mirror, C96_ieee, C96_arclen, C96_distance, C96_flatness, C96_binary64: mirror images in IEEE formats; the model identifies +0 and -0, so results agree up to the sign of a zero."
  },
  {
   "property": "C97",
   "status": "proved",
   "theorems": [
    "Stroke.C97_line_monotone",
    "Stroke.C97_line_between",
    "Stroke.C97_constant",
    "Stroke.C97_constant_false",
    "Stroke.C97_monotone_false"
   ],
   "note": "C97_line_monotone, C97_line_between: line segments. C97_constant: degenerate curves. C97_constant_false, C97_monotone_false: the f64 counterexamples for the other methods."
  },
  {
   "property": "C98",
   "status": "proved",
   "theorems": [
    "Stroke.C98_quadratic",
    "Stroke.C98_cubic",
    "Stroke.C98_bezier",
    "Stroke.C98_cubic_binary64",
    "Stroke.C98_params",
    "Stroke.C98_true_length",
    "Stroke.C98_bspline",
    "Stroke.C98_bspline_clamped",
    "Stroke.C98_bspline_binary64"
   ],
   "note": "C98_quadratic, C98_cubic, C98_bezier: every format. C98_cubic_binary64: in numbers for f64. C98_true_length: against the true arc length. C98_params: the sample parameters. C98_bspline, C98_bspline_clamped, C98_bspline_binary64: B-splines, relative to the computed sample points."
  },
  {
   "property": "C99",
   "status": "partial",
   "theorems": [
    "Stroke.C99_isometry_partial",
    "Stroke.C99_similarity_partial",
    "Stroke.C99_translation_false",
    "Stroke.C99_total",
    "Stroke.C99_no_steps"
   ],
   "note": "Not true of the code for translations: C99_translation_false (moving all control points by 2 changes arclen from 20 to 22, since the sample past the end of the domain counts as the origin). Proved: C99_isometry_partial (any arithmetic, maps that keep the operations and squared lengths), C99_similarity_partial (exact arithmetic, linear similarities about the origin), C99_total and C99_no_steps (floats)."
  },
  {
   "property": "C100",
   "status": "proved",
   "theorems": [
    "Stroke.C100_line",
    "Stroke.C100_quadratic",
    "Stroke.C100_cubic",
    "Stroke.C100_bezier",
    "Stroke.C100_subdivision",
    "Stroke.C100_binary64"
   ],
   "note": "In the generic float model; HasDyadics is proved for every IEEE format (ieee_dyadics), in particular binary64 and binary32. LineSegment::split is left out: it cuts at the wrong place (C06)."
  },
  {
   "property": "C101",
   "status": "proved",
   "theorems": [
    "Stroke.C101_bezier",
    "Stroke.C101_simple",
    "Stroke.C101_quadratic",
    "Stroke.C101_cubic",
    "Stroke.C101_binary64"
   ],
   "note": "The constant is explicit and attained by straight segments (first chord missing, C15/C26/C39). C101_bezier has a finer bound for nearly straight control polygons."
  },
  {
   "property": "C102",
   "status": "proved",
   "theorems": [
    "Stroke.C102_bezier",
    "Stroke.C102_undo",
    "Stroke.C102_derivative",
    "Stroke.C102_quadratic",
    "Stroke.C102_cubic"
   ],
   "note": "LineSegment::split is left out: it cuts at the wrong place (C06)."
  },
  {
   "property": "C103",
   "status": "proved",
   "theorems": [
    "Stroke.C103_distance",
    "Stroke.C103_disjoint",
    "Stroke.C103_point",
    "Stroke.C103_overlap",
    "Stroke.C103_diagonal",
    "Stroke.C103_total",
    "Stroke.C103_float_quadratic",
    "Stroke.C103_float_cubic"
   ],
   "note": "Exact arithmetic for all three types; C103_float_quadratic and, for cubics that are not nearly quadratic on the axis, C103_float_cubic for floating point. For other cubics in floating point the boxes themselves can be wrong (C84_cubic_false)."
  },
  {
   "property": "C104",
   "status": "proved",
   "theorems": [
    "Stroke.C104_picture",
    "Stroke.C104_path"
   ],
   "note": "Containment in the box and the polygon up to 1e-9 (rounding); containment in the chart without slack."
  },
  {
   "property": "C105",
   "status": "partial",
   "theorems": [
    "Stroke.C105_solve_t_partial",
    "Stroke.C105_binary64_partial",
    "Stroke.C105_false"
   ],
   "note": "The error is proved to be at most 70 times the CUBE ROOT of the precision (B^3|k3|/900 in binary64); the order of the rounding unit is false of the code (C105_false: 5e-7 for coefficients of size 1), because Cardano's formula subtracts the square root of the discriminant from a number of the same size. cos, acos and powf are assumed accurate (Spec/Library.lean), satisfied by correctly rounded functions."
  },
  {
   "property": "C106",
   "status": "proved",
   "theorems": [
    "Stroke.C106_points",
    "Stroke.C106_curves",
    "Stroke.C106_measures",
    "Stroke.C106_axes",
    "Stroke.C106_boxes",
    "Stroke.C106_equality",
    "Stroke.C106_bspline",
    "Stroke.C106_iterator"
   ],
   "note": "For all componentwise point types in any arithmetic; a struct with fields x and y and PointN itself are shown to meet the contract. C106_iterator shows that the undocumented requirement on the iterator is needed."
  },
  {
   "property": "C107",
   "status": "partial",
   "theorems": [
    "Stroke.C107_forget_curves",
    "Stroke.C107_forget_measures",
    "Stroke.C107_forget_axes",
    "Stroke.C107_forget_bspline",
    "Stroke.C107_curves",
    "Stroke.C107_measures",
    "Stroke.C107_axes",
    "Stroke.C107_comparisons",
    "Stroke.C107_bspline",
    "Stroke.C107_derivative_partial",
    "Stroke.C107_derivative_false"
   ],
   "note": "Holds of every method except BSpline::derivative, which divides by a difference of knots without a check: with knots 0.0 followed by -0.0 (accepted by new) the infinite control point has the other sign (C107_derivative_false). For derivative it is proved when no knot is -0 (C107_derivative_partial). The C107_forget_* theorems show that the arithmetic with one zero, in which the other floating-point properties are proved, gives the same results as IEEE arithmetic. Assumes that the system's powf(0, 1/3) is 0."
  },
  {
   "property": "C108",
   "status": "proved",
   "theorems": [
    "Stroke.C108_quadratic_box",
    "Stroke.C108_cubic_box",
    "Stroke.C108_ieee",
    "Stroke.C108_line",
    "Stroke.C108_quadratic",
    "Stroke.C108_cubic",
    "Stroke.C108_quadratic_descend",
    "Stroke.C108_cubic_descend",
    "Stroke.C108_end_false",
    "Stroke.C108_eval_false"
   ],
   "note": "C108_ieee shows that the IEEE formats satisfy the hypothesis ShortSteps. C108_end_false and C108_eval_false show that the restriction to t < 1 and to the de Casteljau forms is needed."
  },
  {
   "property": "C109",
   "status": "proved",
   "theorems": [
    "Stroke.C109_quadratic",
    "Stroke.C109_cubic",
    "Stroke.C109_quadratic_axis",
    "Stroke.C109_cubic_axis",
    "Stroke.C109_ieee"
   ],
   "note": "C109_ieee states it for f64 and f32 without hypotheses on the curve. C109_*_axis describe the box on axes with NaN or infinite coordinates."
  },
  {
   "property": "C110",
   "status": "proved",
   "theorems": [
    "Stroke.C110_stops_quadratic",
    "Stroke.C110_flatten_quadratic",
    "Stroke.C110_stops_cubic",
    "Stroke.C110_flatten_cubic",
    "Stroke.C110_depth_quadratic",
    "Stroke.C110_depth_cubic",
    "Stroke.C110_runs_forever"
   ],
   "note": "C110_stops_*: termination with an explicit depth, and independence of any larger depth limit. C110_depth_*: such a depth exists. C110_flatten_*: the polyline. C110_runs_forever: in binary32 smaller tolerances recurse for ever, so the condition on the tolerance cannot be dropped."
  },
  {
   "property": "C111",
   "status": "proved",
   "theorems": [
    "Stroke.C111_every_spline",
    "Stroke.C111_last_knot_false",
    "Stroke.C111_quadratic",
    "Stroke.C111_cubic",
    "Stroke.C111_bezier",
    "Stroke.C111_bspline",
    "Stroke.C111_quadratic_axis",
    "Stroke.C111_cubic_axis",
    "Stroke.C111_dominated_finite",
    "Stroke.C111_lerp_false"
   ],
   "note": "C111_quadratic, C111_cubic, C111_quadratic_axis, C111_cubic_axis, C111_bezier, C111_bspline: the order is kept. C111_every_spline: for splines of every kind, clamped or not, except at the last knot of a spline clamped at the front only; C111_last_knot_false: there it fails (a spline with all coordinates v evaluates to -v, last_knot_negated). C111_dominated_finite: for finite coordinates the relation is the order of real numbers. C111_lerp_false: the forms a + (b - a) * t do not keep it (binary64 witness)."
  },
  {
   "property": "C112",
   "status": "proved",
   "theorems": [
    "Stroke.C112_chord",
    "Stroke.C112_bezier",
    "Stroke.C112_steps",
    "Stroke.C112_quadratic_exact",
    "Stroke.C112_quadratic",
    "Stroke.C112_cubic",
    "Stroke.C112_float_quadratic",
    "Stroke.C112_float_cubic"
   ],
   "note": "C112_chord: deviation of every point from its chord. C112_bezier, C112_quadratic, C112_cubic: equal steps; C112_steps: number of steps for a tolerance. C112_quadratic_exact: exact deviation. C112_float_quadratic, C112_float_cubic: computed points."
  },
  {
   "property": "C113",
   "status": "proved",
   "theorems": [
    "Stroke.C113_bezier",
    "Stroke.C113_specialised"
   ],
   "note": "C113_bezier, C113_specialised."
  },
  {
   "property": "C114",
   "status": "proved",
   "theorems": [
    "Stroke.C114_eval",
    "Stroke.C114_split",
    "Stroke.C114_float",
    "Stroke.C114_half",
    "Stroke.C114_derivative",
    "Stroke.C114_specialised_false",
    "Stroke.C114_small_false"
   ],
   "note": "C114_eval, C114_split: any arithmetic with commutative addition. C114_float, C114_half: binary formats, where 1-t is shown exact for t in [1/2,1]. C114_derivative: derivative. C114_specialised_false, C114_small_false: binary64 curves for which it fails."
  },
  {
   "property": "C115",
   "status": "proved",
   "theorems": [
    "Stroke.C115_outcome",
    "Stroke.C115_local",
    "Stroke.C115_float",
    "Stroke.C115_one_end",
    "Stroke.C115_unclamped"
   ],
   "note": "C115_outcome: outcome independent of control points and their type. C115_local: window determined by knots and t. C115_float: where the window is for clamped splines in floating point; C115_one_end: for splines clamped, up to the machine epsilon, at one end at least. C115_unclamped: for unclamped splines the first K/2 - D control points are never used."
  },
  {
   "property": "C116",
   "status": "proved",
   "theorems": [
    "Stroke.C116_strict",
    "Stroke.C116_unique",
    "Stroke.C116_cubic_unique",
    "Stroke.C116_quadratic",
    "Stroke.C116_quadratic_small_false",
    "Stroke.C116_cubic",
    "Stroke.C116_cubic_flat"
   ],
   "note": "C116_strict, C116_unique: generic curves of any size. C116_cubic_unique: the cubic type. C116_quadratic, C116_cubic_flat: exactly one parameter is returned, it is right and the only one. C116_cubic: cubic timing curves. C116_quadratic_small_false: the condition on the second difference cannot be dropped."
  },
  {
   "property": "C117",
   "status": "proved",
   "theorems": [
    "Stroke.C117_advance",
    "Stroke.C117_no_loop",
    "Stroke.C117_no_cusp",
    "Stroke.C117_cubic",
    "Stroke.C117_quadratic",
    "Stroke.C117_cubic_loop"
   ],
   "note": "C117_advance, C117_no_loop, C117_no_cusp: generic curves. C117_cubic: the cubic type. C117_quadratic: parabolas never cross themselves. C117_cubic_loop: a cubic that does."
  },
  {
   "property": "C118",
   "status": "proved",
   "theorems": [
    "Stroke.C118_bezier",
    "Stroke.C118_quadratic",
    "Stroke.C118_cubic",
    "Stroke.C118_agree_quadratic",
    "Stroke.C118_agree_cubic"
   ],
   "note": "C118_bezier, C118_quadratic, C118_cubic: steps and order. C118_agree_quadratic, C118_agree_cubic: generic against specialised types."
  },
  {
   "property": "C119",
   "status": "proved",
   "theorems": [
    "Stroke.C119_linear_quadratic",
    "Stroke.C119_linear_cubic",
    "Stroke.C119_point",
    "Stroke.C119_flatten_quadratic",
    "Stroke.C119_flatten_cubic",
    "Stroke.C119_length_quadratic",
    "Stroke.C119_length_cubic"
   ],
   "note": "C119_linear_quadratic/cubic: baseline points are within tol of the curve (intermediate value theorem on the foot of the perpendicular). C119_point: is_a_point. C119_flatten_quadratic/cubic: whole flattened polylines. C119_length_quadratic/cubic: lengths."
  },
  {
   "property": "C120",
   "status": "proved",
   "theorems": [
    "Stroke.C120_complete_quadratics",
    "Stroke.C120_sound_quadratics",
    "Stroke.C120_decide_quadratics",
    "Stroke.C120_complete_mixed",
    "Stroke.C120_sound_mixed",
    "Stroke.C120_decide_mixed",
    "Stroke.C120_complete_cubics",
    "Stroke.C120_sound_cubics",
    "Stroke.C120_decide_cubics",
    "Stroke.C120_line_false"
   ],
   "note": "C120_complete_quadratics/mixed/cubics: nothing is lost. C120_sound_quadratics/mixed/cubics: what is reported is close. C120_decide_quadratics/mixed/cubics: the two readings of an empty report. C120_line_false: a lost crossing of two segments. C103 is the one-step version; the boxes may be short by a third of EPSILON (C13, C24), hence the margin."
  },
  {
   "property": "C121",
   "status": "proved",
   "theorems": [
    "Stroke.C121_bspline_pieces",
    "Stroke.C121_bspline_outside",
    "Stroke.C121_bspline_end",
    "Stroke.C121_bspline",
    "Stroke.C121_bspline_convex",
    "Stroke.C121_bspline_arclen",
    "Stroke.C121_bspline_derivative",
    "Stroke.C121_bspline_units",
    "Stroke.C121_bspline_affine",
    "Stroke.C121_bspline_arclen_similarity",
    "Stroke.C121_bspline_start",
    "Stroke.C121_bspline_bezier",
    "Stroke.C121_bspline_continuous",
    "Stroke.C121_split",
    "Stroke.C121_distance",
    "Stroke.C121_is_linear_quadratic",
    "Stroke.C121_is_linear_cubic",
    "Stroke.C121_dd",
    "Stroke.C121_arclen_quadratic",
    "Stroke.C121_arclen_cubic",
    "Stroke.C121_arclen_bezier",
    "Stroke.C121_arclen_reverse",
    "Stroke.C121_arclen_split",
    "Stroke.C121_curve_distance",
    "Stroke.C121_curve_distance_quadratic",
    "Stroke.C121_curve_distance_cubic",
    "Stroke.C121_reversal",
    "Stroke.C121_is_a_point",
    "Stroke.C121_similarity",
    "Stroke.C121_sampling",
    "Stroke.C121_roots_square",
    "Stroke.C121_roots_cubic",
    "Stroke.C121_solve_quadratic",
    "Stroke.C121_solve_cubic",
    "Stroke.C121_box_quadratic",
    "Stroke.C121_box_cubic"
   ],
   "note": "About repaired versions of the functions (Verif/Repaired/Model.lean), not about the code: each differs from the model of the code in the lines its comment names. At the last knot the repaired B-spline returns the last control point, as the code does."
  },
  {
   "property": "C122",
   "status": "proved",
   "theorems": [
    "Stroke.C122_refine",
    "Stroke.C122_bounds",
    "Stroke.C122_halving",
    "Stroke.C122_quadratic",
    "Stroke.C122_cubic",
    "Stroke.C122_quadratic_halving",
    "Stroke.C122_cubic_halving"
   ],
   "note": ""
  },
  {
   "property": "C123",
   "status": "proved",
   "theorems": [
    "Stroke.C123_bounds",
    "Stroke.C123_two_curves",
    "Stroke.C123_halving",
    "Stroke.C123_quadratic",
    "Stroke.C123_cubic",
    "Stroke.C123_distance_exists",
    "Stroke.C123_nearest_exists",
    "Stroke.C123_pair_exists"
   ],
   "note": ""
  },
  {
   "property": "C124",
   "status": "proved",
   "theorems": [
    "Stroke.C124_line",
    "Stroke.C124_quadratic",
    "Stroke.C124_cubic",
    "Stroke.C124_bezier",
    "Stroke.C124_convert",
    "Stroke.C124_convert_param",
    "Stroke.C124_cast_cubic",
    "Stroke.C124_f32_f64",
    "Stroke.C124_widen",
    "Stroke.C124_narrow_loses"
   ],
   "note": ""
  },
  {
   "property": "C125",
   "status": "proved",
   "theorems": [
    "Stroke.C125_bspline_eval",
    "Stroke.C125_bspline_new",
    "Stroke.C125_bspline_derivative",
    "Stroke.C125_bezier",
    "Stroke.C125_bspline"
   ],
   "note": ""
  },
  {
   "property": "C126",
   "status": "partial",
   "theorems": [
    "Stroke.C126_inside_partial",
    "Stroke.C126_close",
    "Stroke.C126_spline_partial",
    "Stroke.C126_false"
   ],
   "note": "Not true of the code: C126_false (f64, knots 0.3 0.3 0.9 0.9, any number of steps: the last sample is 0.9000000000000001, where eval is an error and arclen takes the origin). Proved: C126_inside_partial and C126_spline_partial (if hi - lo is a number of the format, as for integer knots), C126_close (every domain: never before the start, monotone, and within an explicit rounding error of the exact samples)."
  },
  {
   "property": "C127",
   "status": "proved",
   "theorems": [
    "Stroke.C127_smooth",
    "Stroke.C127_gap",
    "Stroke.C127_kink",
    "Stroke.C127_cubic"
   ],
   "note": "Exact arithmetic."
  },
  {
   "property": "C128",
   "status": "proved",
   "theorems": [
    "Stroke.C128_exists",
    "Stroke.C128_order",
    "Stroke.C128_between",
    "Stroke.C128_chord",
    "Stroke.C128_speed",
    "Stroke.C128_specialised"
   ],
   "note": "Exact arithmetic. The lengths are limits of arclen(n); how many steps are needed is C101."
  },
  {
   "property": "C129",
   "status": "proved",
   "theorems": [
    "Stroke.C129_bracket",
    "Stroke.C129_bezier",
    "Stroke.C129_cubic",
    "Stroke.C129_binary64"
   ],
   "note": "C129_bracket in any arithmetic; C129_bezier for every degree; C129_cubic and C129_binary64 for cubic curves."
  },
  {
   "property": "C130",
   "status": "partial",
   "theorems": [
    "Stroke.C130_complete_quadratics",
    "Stroke.C130_sound_quadratics",
    "Stroke.C130_complete_mixed",
    "Stroke.C130_sound_mixed",
    "Stroke.C130_complete_cubics",
    "Stroke.C130_sound_cubics",
    "Stroke.C130_cubics_false",
    "Stroke.C130_binary64_quadratics",
    "Stroke.C130_binary64_cubics"
   ],
   "note": "Proved for two quadratic curves (C130_complete_quadratics, C130_sound_quadratics, in numbers C130_binary64_quadratics). With bounding_box it is false of cubic curves: C130_cubics_false gives two cubic curves with a common point for which every margin up to 1/1024 reports nothing at any depth. With the box of the control points, computed by the caller, it holds for cubic and mixed pairs (C130_complete_cubics, C130_sound_cubics, C130_complete_mixed, C130_sound_mixed, C130_binary64_cubics)."
  },
  {
   "property": "C131",
   "status": "proved",
   "theorems": [
    "Stroke.C131_pieces",
    "Stroke.C131_unique"
   ],
   "note": "C131_pieces (existence, weights), C131_unique. The dropped control point k is the bug named under C48; C121_bspline_pieces: with the repairs the control points of the piece are convex combinations of all DEGREE + 1 control points of the span, without the restriction near knots and for unclamped knots too."
  },
  {
   "property": "C132",
   "status": "partial",
   "theorems": [
    "Stroke.C132_panics_iff",
    "Stroke.C132_partial",
    "Stroke.C132_back",
    "Stroke.C132_front",
    "Stroke.C132_unclamped",
    "Stroke.C132_front_fine",
    "Stroke.C132_front_linear",
    "Stroke.C132_false",
    "Stroke.C132_float_back",
    "Stroke.C132_float_both",
    "Stroke.C132_float_front",
    "Stroke.C132_float_unclamped"
   ],
   "note": "C132_panics_iff: in every arithmetic arclen panics exactly when one of its evaluations does. C132_partial: clamped at both ends it returns a value for every number of steps. C132_back, C132_float_back: clamped at the end only it panics for every number of steps (exact and floats). C132_front, C132_front_fine, C132_front_linear: clamped at the front only, exactly which numbers of steps panic; all fine enough ones do, for degree 1 none does. C132_unclamped: the same for unclamped splines. C132_false: the claim is false of the code. C132_float_both, C132_float_front, C132_float_unclamped: the same characterisations in floating point, for the floats at which the code evaluates."
  },
  {
   "property": "C133",
   "status": "proved",
   "theorems": [
    "Stroke.C133_arclen",
    "Stroke.C133_arclen_specialised",
    "Stroke.C133_arc_length",
    "Stroke.C133_bounding_box",
    "Stroke.C133_is_a_point"
   ],
   "note": "C133_arclen also bounds the change by the length of the polygon through the displacement vectors. Exact arithmetic."
  },
  {
   "property": "C134",
   "status": "partial",
   "theorems": [
    "Stroke.C134_partial",
    "Stroke.C134_short",
    "Stroke.C134_false",
    "Stroke.C134_repaired"
   ],
   "note": "C134_partial: both query points project before the end. C134_short: segments shorter than the square root of EPSILON. C134_false: at the end of every longer segment the result jumps from 0 to the length, for query points as close together as one likes. C134_repaired: with the missing clamp added (C121) the claim holds for all inputs."
  },
  {
   "property": "C135",
   "status": "proved",
   "theorems": [
    "Stroke.C135_polygon",
    "Stroke.C135_hausdorff",
    "Stroke.C135_halving",
    "Stroke.C135_quadratic",
    "Stroke.C135_cubic"
   ],
   "note": "C135_polygon: pointwise bound; C135_hausdorff: both directions; C135_halving: subdivision; C135_quadratic: equality; C135_cubic: the three legs. Exact arithmetic."
  },
  {
   "property": "C136",
   "status": "proved",
   "theorems": [
    "Stroke.C136_float_bspline",
    "Stroke.C136_float_bspline_any_kind",
    "Stroke.C136_float_distance",
    "Stroke.C136_binary64_distance",
    "Stroke.C136_binary64_is_linear",
    "Stroke.C136_binary64_bspline",
    "Stroke.C136_split",
    "Stroke.C136_distance",
    "Stroke.C136_is_linear",
    "Stroke.C136_is_linear_cubic",
    "Stroke.C136_is_a_point",
    "Stroke.C136_dd",
    "Stroke.C136_arclen",
    "Stroke.C136_bspline",
    "Stroke.C136_bspline_any_kind",
    "Stroke.C136_derivative"
   ],
   "note": "C136_split (C06), C136_distance (C07), C136_is_linear and C136_is_linear_cubic (C18, C28), C136_is_a_point (C77), C136_dd (C23), C136_arclen (C15, C26, C39), C136_bspline and C136_bspline_any_kind (C47, C48), C136_derivative (C52). All of them are about the code as it is, none about the repaired model. In floating point: C136_float_distance and C136_binary64_distance, C136_binary64_is_linear, C136_float_bspline, C136_float_bspline_any_kind and C136_binary64_bspline; the others in exact arithmetic. Not covered: the curve distances (C16, C27, C40; two-sided bounds by splitting are C123) and solve_t_for_axis (bisection is C129)."
  },
  {
   "property": "C137",
   "status": "proved",
   "theorems": [
    "Stroke.C137_bounds",
    "Stroke.C137_quadratic",
    "Stroke.C137_cubic",
    "Stroke.C137_halving",
    "Stroke.C137_quadratic_halving",
    "Stroke.C137_cubic_halving",
    "Stroke.C137_binary64",
    "Stroke.C137_binary64_halving"
   ],
   "note": "C137_bounds and C137_halving for the generic curve, C137_quadratic, C137_quadratic_halving, C137_cubic, C137_cubic_halving for the specialised types, C137_binary64 and C137_binary64_halving with numbers."
  },
  {
   "property": "C138",
   "status": "proved",
   "theorems": [
    "Stroke.C138_bounds",
    "Stroke.C138_two_curves",
    "Stroke.C138_halving",
    "Stroke.C138_quadratic",
    "Stroke.C138_quadratic_halving",
    "Stroke.C138_cubic",
    "Stroke.C138_cubic_halving",
    "Stroke.C138_binary64",
    "Stroke.C138_binary64_halving"
   ],
   "note": "C138_bounds, C138_two_curves and C138_halving for generic curves, C138_quadratic, C138_quadratic_halving, C138_cubic, C138_cubic_halving for the specialised types, C138_binary64 and C138_binary64_halving with numbers."
  },
  {
   "property": "C139",
   "status": "proved",
   "theorems": [
    "Stroke.C139_line",
    "Stroke.C139_quadratic",
    "Stroke.C139_cubic",
    "Stroke.C139_bezier",
    "Stroke.C139_quadratic_lengths",
    "Stroke.C139_cubic_lengths",
    "Stroke.C139_bezier_lengths",
    "Stroke.C139_bezier_derivative",
    "Stroke.C139_cubic_binary64",
    "Stroke.C139_segment_distance_not"
   ],
   "note": "Exact scaling by powers of two away from underflow and overflow. C139_segment_distance_not: the distance to a segment does not scale."
  },
  {
   "property": "C140",
   "status": "proved",
   "theorems": [
    "Stroke.C140_points",
    "Stroke.C140_knots",
    "Stroke.C140_arclen",
    "Stroke.C140_binary64"
   ],
   "note": "C140_points, C140_arclen and C140_knots for all binary formats; C140_binary64, binary64_knot_room give numbers. Without the condition on the tolerance (b) fails, as for exact arithmetic (C79_false)."
  },
  {
   "property": "C141",
   "status": "proved",
   "theorems": [
    "Stroke.C141_segment",
    "Stroke.C141_roots",
    "Stroke.C141_quadratic_predicates",
    "Stroke.C141_cubic_predicates",
    "Stroke.C141_line_box",
    "Stroke.C141_quadratic_box",
    "Stroke.C141_cubic_box",
    "Stroke.C141_quadratic_solve",
    "Stroke.C141_cubic_solve",
    "Stroke.C141_cubic_binary64",
    "Stroke.C141_box_not"
   ],
   "note": "C141_segment, C141_line_box, C141_quadratic_*, C141_cubic_*, C141_roots for all binary formats; C141_cubic_binary64 gives numbers. C141_box_not and C139_segment_distance_not show that the condition on the grid is needed."
  },
  {
   "property": "C142",
   "status": "proved",
   "theorems": [
    "Stroke.C142_binary64",
    "Stroke.C142_halving",
    "Stroke.C142_arclen",
    "Stroke.C142_quadratic",
    "Stroke.C142_cubic"
   ],
   "note": "Explicit constants for the generic, quadratic and cubic types; the equal-step polyline is handled by cutting the curve at 1/n, 1/(n-1), ... with split and bounding polygon minus chord of each piece."
  },
  {
   "property": "C143",
   "status": "partial",
   "theorems": [
    "Stroke.C143_repaired",
    "Stroke.C143_detour",
    "Stroke.C143_partial",
    "Stroke.C143_false"
   ],
   "note": "False of the code: eval jumps at every inner knot unless a control point is the origin (C143_false). Proved: smooth between knots (C143_partial); the detour of C136 returns points of one curve with the stated smoothness (C143_detour); with the lines of C121 changed eval itself has the stated smoothness (C143_repaired)."
  },
  {
   "property": "C144",
   "status": "partial",
   "theorems": [
    "Stroke.C144_repaired",
    "Stroke.C144_repaired_strict",
    "Stroke.C144_detour",
    "Stroke.C144_partial",
    "Stroke.C144_false"
   ],
   "note": "False of the code: C144_false. C144_partial is about eval, C144_detour about a sequence of calls of this version; C144_repaired and C144_repaired_strict are about the repaired copy."
  },
  {
   "property": "C145",
   "status": "partial",
   "theorems": [
    "Stroke.C145_repaired",
    "Stroke.C145_repaired_polyline",
    "Stroke.C145_repaired_arclen",
    "Stroke.C145_repaired_line",
    "Stroke.C145_detour",
    "Stroke.C145_partial",
    "Stroke.C145_false"
   ],
   "note": "False of the code: C145_false. C145_partial is about eval, C145_detour about a sequence of calls of this version; the C145_repaired theorems are about the repaired copy."
  },
  {
   "property": "C146",
   "status": "partial",
   "theorems": [
    "Stroke.C146_repaired",
    "Stroke.C146_detour",
    "Stroke.C146_partial",
    "Stroke.C146_false"
   ],
   "note": "False of the code: C146_false. C146_partial is about eval, C146_detour about a sequence of calls of this version; C146_repaired is about the repaired copy."
  },
  {
   "property": "C147",
   "status": "partial",
   "theorems": [
    "Stroke.C147_repaired",
    "Stroke.C147_detour",
    "Stroke.C147_partial",
    "Stroke.C147_false"
   ],
   "note": "False of the code: C147_false. C147_partial is about eval, C147_detour about a sequence of calls of this version; C147_repaired is about the repaired copy."
  },
  {
   "property": "C148",
   "status": "partial",
   "theorems": [
    "Stroke.C148_repaired_span",
    "Stroke.C148_repaired",
    "Stroke.C148_repaired_injective",
    "Stroke.C148_partial",
    "Stroke.C148_partial_all",
    "Stroke.C148_false"
   ],
   "note": "False of the code: C148_false. C148_partial and C148_partial_all (an equivalence) are about eval; C148_repaired, C148_repaired_span and C148_repaired_injective are about the repaired copy."
  },
  {
   "property": "C149",
   "status": "partial",
   "theorems": [
    "Stroke.C149_repaired",
    "Stroke.C149_repaired_polygon",
    "Stroke.C149_detour",
    "Stroke.C149_partial",
    "Stroke.C149_false"
   ],
   "note": "False of the code: C149_false. C149_partial is about eval, C149_detour about a sequence of calls of this version; C149_repaired and C149_repaired_polygon are about the repaired copy."
  },
  {
   "property": "C150",
   "status": "partial",
   "theorems": [
    "Stroke.C150_repaired_chord",
    "Stroke.C150_repaired",
    "Stroke.C150_detour",
    "Stroke.C150_partial",
    "Stroke.C150_false"
   ],
   "note": "False of the code: C150_false. C150_partial is about eval, C150_detour about a sequence of calls of this version; C150_repaired_chord and C150_repaired are about the repaired copy."
  },
  {
   "property": "C151",
   "status": "partial",
   "theorems": [
    "Stroke.C151_repaired",
    "Stroke.C151_repaired_hausdorff",
    "Stroke.C151_detour",
    "Stroke.C151_partial",
    "Stroke.C151_repaired_sharp",
    "Stroke.C151_false"
   ],
   "note": "False of the code: C151_false. C151_partial is about eval, C151_detour about a sequence of calls of this version; the C151_repaired theorems are about the repaired copy."
  },
  {
   "property": "C152",
   "status": "partial",
   "theorems": [
    "Stroke.C152_second_differences",
    "Stroke.C152_refine",
    "Stroke.C152_repaired",
    "Stroke.C152_repaired_converges",
    "Stroke.C152_detour",
    "Stroke.C152_partial",
    "Stroke.C152_false"
   ],
   "note": "false of eval (C152_false: 1/8 away from every refined polygon); proved for the repaired program, for the detour of C136 and for the polygon with the origin in place of the last control point of the span"
  },
  {
   "property": "C153",
   "status": "partial",
   "theorems": [
    "Stroke.C153_repaired",
    "Stroke.C153_repaired_end",
    "Stroke.C153_repaired_rise_fall",
    "Stroke.C153_repaired_moves",
    "Stroke.C153_detour",
    "Stroke.C153_partial",
    "Stroke.C153_rise_fall",
    "Stroke.C153_false"
   ],
   "note": "false of eval: the control point has no effect in the first of its spans (C153_false; C153_partial gives the exact effect). The single peak holds of eval too (C153_rise_fall). Everything proved for the repaired program and for the detour of C136"
  },
  {
   "property": "C154",
   "status": "partial",
   "theorems": [
    "Stroke.C154_repaired",
    "Stroke.C154_partial",
    "Stroke.C154_detour",
    "Stroke.C154_repaired_chain",
    "Stroke.C154_chain",
    "Stroke.C154_false"
   ],
   "note": "false of eval: every curve of the chain lacks the term of its last control point (C154_false for every chain; C154_partial and C154_chain give the exact value). Proved for the repaired program (C154_repaired, C154_repaired_chain) and for the detour of C136 (C154_detour)"
  },
  {
   "property": "C155",
   "status": "partial",
   "theorems": [
    "Stroke.C155_lipschitz",
    "Stroke.C155_smooth",
    "Stroke.C155_repaired_smooth",
    "Stroke.C155_detour_smooth",
    "Stroke.C155_bezier",
    "Stroke.C155_graph",
    "Stroke.C155_approximation",
    "Stroke.C155_quadratic",
    "Stroke.C155_cubic",
    "Stroke.C155_repaired",
    "Stroke.C155_repaired_approximation",
    "Stroke.C155_partial",
    "Stroke.C155_detour",
    "Stroke.C155_false"
   ],
   "note": "proved for all Bezier types. False of BSpline::eval on every span whose control point is not at 0 (C155_false; C155_partial gives the exact coordinate); proved for the repaired program and for the detour of C136. solve_t_for_axis needs the end points and the values at least EPSILON apart, as in C116"
  },
  {
   "property": "C156",
   "status": "partial",
   "theorems": [
    "Stroke.C156_accepts",
    "Stroke.C156_domain",
    "Stroke.C156_repaired",
    "Stroke.C156_repaired_ends",
    "Stroke.C156_repaired_arclen",
    "Stroke.C156_partial",
    "Stroke.C156_detour",
    "Stroke.C156_false"
   ],
   "note": "acceptance and domain proved of the code (C156_accepts, C156_domain). False of eval: it leaves out the last control point of the span in one direction and the first one in the other (C156_false; C156_partial gives the exact difference). Points and length proved for the repaired program, points also for the detour of C136"
  },
  {
   "property": "C157",
   "status": "partial",
   "theorems": [
    "Stroke.C157_bezier",
    "Stroke.C157_quadratic",
    "Stroke.C157_cubic",
    "Stroke.C157_weights",
    "Stroke.C157_repaired",
    "Stroke.C157_detour",
    "Stroke.C157_partial",
    "Stroke.C157_false"
   ],
   "note": "proved of the code for Bezier, quadratic and cubic (C157_bezier, C157_quadratic, C157_cubic) and the weights (C157_weights). False of BSpline::eval: for a single segment all of whose control points but the last are the origin the integral is 0 (C157_false; C157_partial gives the integral on each span). Proved for the repaired program and for the detour of C136"
  },
  {
   "property": "C158",
   "status": "proved",
   "theorems": [
    "Stroke.C158_line",
    "Stroke.C158_quadratic",
    "Stroke.C158_cubic",
    "Stroke.C158_bezier",
    "Stroke.C158_split",
    "Stroke.C158_bezier_split",
    "Stroke.C158_reverse",
    "Stroke.C158_bezier_reverse",
    "Stroke.C158_archimedes",
    "Stroke.C158_closed",
    "Stroke.C158_translate",
    "Stroke.C158_bezier_closed"
   ],
   "note": "C158_line, C158_quadratic, C158_cubic and C158_bezier give the formulas, C158_split and C158_bezier_split the additivity, C158_reverse and C158_bezier_reverse the sign, C158_archimedes the parabola, C158_translate the effect of a translation. The additivity for line segments holds although split(t) does not cut at eval(t) (C06): the cut lies on the same line. C158_closed, C158_bezier_closed: closed paths"
  }
 ]
}