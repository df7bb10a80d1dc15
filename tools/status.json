{
 "C01": [
  "proved",
  "Componentwise for any scalar type; vector-space laws in exact arithmetic."
 ],
 "C02": [
  "proved",
  "Exact arithmetic: equality is componentwise and an equivalence; floats (C02_float): a NaN component makes the point unequal to everything."
 ],
 "C03": [
  "proved",
  ""
 ],
 "C04": [
  "proved",
  ""
 ],
 "C05": [
  "proved",
  ""
 ],
 "C06": [
  "partial",
  "The claim is false of the code: C06_false refutes it for every segment with distinct ends and every t other than 0; C06_actual describes what is computed; C06_partial is the part that holds."
 ],
 "C07": [
  "partial",
  "The claim is false of the code for query points projecting at or beyond the end point (C07_false). Correct otherwise (C07_partial); never below the true distance on any input (C07_never_below)."
 ],
 "C08": [
  "proved",
  ""
 ],
 "C09": [
  "proved",
  ""
 ],
 "C10": [
  "proved",
  ""
 ],
 "C100": [
  "proved",
  "In the generic float model; HasDyadics is proved for every IEEE format (ieee_dyadics), in particular binary64 and binary32. LineSegment::split is left out: it cuts at the wrong place (C06)."
 ],
 "C101": [
  "proved",
  "The constant is explicit and attained by straight segments (first chord missing, C15/C26/C39). C101_bezier has a finer bound for nearly straight control polygons."
 ],
 "C102": [
  "proved",
  "LineSegment::split is left out: it cuts at the wrong place (C06)."
 ],
 "C103": [
  "proved",
  "Exact arithmetic for all three types; C103_float_quadratic and, for cubics that are not nearly quadratic on the axis, C103_float_cubic for floating point. For other cubics in floating point the boxes themselves can be wrong (C84_cubic_false)."
 ],
 "C104": [
  "proved",
  "Containment in the box and the polygon up to 1e-9 (rounding); containment in the chart without slack."
 ],
 "C105": [
  "partial",
  "The error is proved to be at most 70 times the CUBE ROOT of the precision (B^3|k3|/900 in binary64); the order of the rounding unit is false of the code (C105_false: 5e-7 for coefficients of size 1), because Cardano's formula subtracts the square root of the discriminant from a number of the same size. cos, acos and powf are assumed accurate (Spec/Library.lean), satisfied by correctly rounded functions."
 ],
 "C106": [
  "proved",
  "For all componentwise point types in any arithmetic; a struct with fields x and y and PointN itself are shown to meet the contract. C106_iterator shows that the undocumented requirement on the iterator is needed."
 ],
 "C107": [
  "partial",
  "Holds of every method except BSpline::derivative, which divides by a difference of knots without a check: with knots 0.0 followed by -0.0 (accepted by new) the infinite control point has the other sign (C107_derivative_false). For derivative it is proved when no knot is -0 (C107_derivative_partial). The C107_forget_* theorems show that the arithmetic with one zero, in which the other floating-point properties are proved, gives the same results as IEEE arithmetic. Assumes that the system's powf(0, 1/3) is 0."
 ],
 "C108": [
  "proved",
  "C108_ieee shows that the IEEE formats satisfy the hypothesis ShortSteps. C108_end_false and C108_eval_false show that the restriction to t < 1 and to the de Casteljau forms is needed."
 ],
 "C109": [
  "proved",
  "C109_ieee states it for f64 and f32 without hypotheses on the curve. C109_*_axis describe the box on axes with NaN or infinite coordinates."
 ],
 "C11": [
  "proved",
  ""
 ],
 "C110": [
  "proved",
  "C110_stops_*: termination with an explicit depth, and independence of any larger depth limit. C110_depth_*: such a depth exists. C110_flatten_*: the polyline. C110_runs_forever: in binary32 smaller tolerances recurse for ever, so the condition on the tolerance cannot be dropped."
 ],
 "C111": [
  "proved",
  "C111_quadratic, C111_cubic, C111_quadratic_axis, C111_cubic_axis, C111_bezier, C111_bspline: the order is kept. C111_every_spline: for splines of every kind, clamped or not, except at the last knot of a spline clamped at the front only; C111_last_knot_false: there it fails (a spline with all coordinates v evaluates to -v, last_knot_negated). C111_dominated_finite: for finite coordinates the relation is the order of real numbers. C111_lerp_false: the forms a + (b - a) * t do not keep it (binary64 witness)."
 ],
 "C112": [
  "proved",
  "C112_chord: deviation of every point from its chord. C112_bezier, C112_quadratic, C112_cubic: equal steps; C112_steps: number of steps for a tolerance. C112_quadratic_exact: exact deviation. C112_float_quadratic, C112_float_cubic: computed points."
 ],
 "C113": [
  "proved",
  "C113_bezier, C113_specialised."
 ],
 "C114": [
  "proved",
  "C114_eval, C114_split: any arithmetic with commutative addition. C114_float, C114_half: binary formats, where 1-t is shown exact for t in [1/2,1]. C114_derivative: derivative. C114_specialised_false, C114_small_false: binary64 curves for which it fails."
 ],
 "C115": [
  "proved",
  "C115_outcome: outcome independent of control points and their type. C115_local: window determined by knots and t. C115_float: where the window is for clamped splines in floating point; C115_one_end: for splines clamped, up to the machine epsilon, at one end at least. C115_unclamped: for unclamped splines the first K/2 - D control points are never used."
 ],
 "C116": [
  "proved",
  "C116_strict, C116_unique: generic curves of any size. C116_cubic_unique: the cubic type. C116_quadratic, C116_cubic_flat: exactly one parameter is returned, it is right and the only one. C116_cubic: cubic timing curves. C116_quadratic_small_false: the condition on the second difference cannot be dropped."
 ],
 "C117": [
  "proved",
  "C117_advance, C117_no_loop, C117_no_cusp: generic curves. C117_cubic: the cubic type. C117_quadratic: parabolas never cross themselves. C117_cubic_loop: a cubic that does."
 ],
 "C118": [
  "proved",
  "C118_bezier, C118_quadratic, C118_cubic: steps and order. C118_agree_quadratic, C118_agree_cubic: generic against specialised types."
 ],
 "C119": [
  "proved",
  "C119_linear_quadratic/cubic: baseline points are within tol of the curve (intermediate value theorem on the foot of the perpendicular). C119_point: is_a_point. C119_flatten_quadratic/cubic: whole flattened polylines. C119_length_quadratic/cubic: lengths."
 ],
 "C12": [
  "proved",
  ""
 ],
 "C120": [
  "proved",
  "C120_complete_quadratics/mixed/cubics: nothing is lost. C120_sound_quadratics/mixed/cubics: what is reported is close. C120_decide_quadratics/mixed/cubics: the two readings of an empty report. C120_line_false: a lost crossing of two segments. C103 is the one-step version; the boxes may be short by a third of EPSILON (C13, C24), hence the margin."
 ],
 "C121": [
  "proved",
  "About repaired versions of the functions (Verif/Repaired/Model.lean), not about the code: each differs from the model of the code in the lines its comment names. At the last knot the repaired B-spline returns the last control point, as the code does."
 ],
 "C122": [
  "proved",
  ""
 ],
 "C123": [
  "proved",
  ""
 ],
 "C124": [
  "proved",
  ""
 ],
 "C125": [
  "proved",
  ""
 ],
 "C126": [
  "partial",
  "Not true of the code: C126_false (f64, knots 0.3 0.3 0.9 0.9, any number of steps: the last sample is 0.9000000000000001, where eval is an error and arclen takes the origin). Proved: C126_inside_partial and C126_spline_partial (if hi - lo is a number of the format, as for integer knots), C126_close (every domain: never before the start, monotone, and within an explicit rounding error of the exact samples)."
 ],
 "C127": [
  "proved",
  "Exact arithmetic."
 ],
 "C128": [
  "proved",
  "Exact arithmetic. The lengths are limits of arclen(n); how many steps are needed is C101."
 ],
 "C129": [
  "proved",
  "C129_bracket in any arithmetic; C129_bezier for every degree; C129_cubic and C129_binary64 for cubic curves."
 ],
 "C13": [
  "proved",
  "The box always exists and contains the curve up to EPSILON/8 on each side, exactly when the second difference is 0 or at least EPSILON/2."
 ],
 "C130": [
  "partial",
  "Proved for two quadratic curves (C130_complete_quadratics, C130_sound_quadratics, in numbers C130_binary64_quadratics). With bounding_box it is false of cubic curves: C130_cubics_false gives two cubic curves with a common point for which every margin up to 1/1024 reports nothing at any depth. With the box of the control points, computed by the caller, it holds for cubic and mixed pairs (C130_complete_cubics, C130_sound_cubics, C130_complete_mixed, C130_sound_mixed, C130_binary64_cubics)."
 ],
 "C131": [
  "proved",
  "C131_pieces (existence, weights), C131_unique. The dropped control point k is the bug named under C48; C121_bspline_pieces: with the repairs the control points of the piece are convex combinations of all DEGREE + 1 control points of the span, without the restriction near knots and for unclamped knots too."
 ],
 "C132": [
  "partial",
  "C132_panics_iff: in every arithmetic arclen panics exactly when one of its evaluations does. C132_partial: clamped at both ends it returns a value for every number of steps. C132_back, C132_float_back: clamped at the end only it panics for every number of steps (exact and floats). C132_front, C132_front_fine, C132_front_linear: clamped at the front only, exactly which numbers of steps panic; all fine enough ones do, for degree 1 none does. C132_unclamped: the same for unclamped splines. C132_false: the claim is false of the code. C132_float_both, C132_float_front, C132_float_unclamped: the same characterisations in floating point, for the floats at which the code evaluates."
 ],
 "C133": [
  "proved",
  "C133_arclen also bounds the change by the length of the polygon through the displacement vectors. Exact arithmetic."
 ],
 "C134": [
  "partial",
  "C134_partial: both query points project before the end. C134_short: segments shorter than the square root of EPSILON. C134_false: at the end of every longer segment the result jumps from 0 to the length, for query points as close together as one likes. C134_repaired: with the missing clamp added (C121) the claim holds for all inputs."
 ],
 "C135": [
  "proved",
  "C135_polygon: pointwise bound; C135_hausdorff: both directions; C135_halving: subdivision; C135_quadratic: equality; C135_cubic: the three legs. Exact arithmetic."
 ],
 "C136": [
  "proved",
  "C136_split (C06), C136_distance (C07), C136_is_linear and C136_is_linear_cubic (C18, C28), C136_is_a_point (C77), C136_dd (C23), C136_arclen (C15, C26, C39), C136_bspline and C136_bspline_any_kind (C47, C48), C136_derivative (C52). All of them are about the code as it is, none about the repaired model. In floating point: C136_float_distance and C136_binary64_distance, C136_binary64_is_linear, C136_float_bspline, C136_float_bspline_any_kind and C136_binary64_bspline; the others in exact arithmetic. Not covered: the curve distances (C16, C27, C40; two-sided bounds by splitting are C123) and solve_t_for_axis (bisection is C129)."
 ],
 "C137": [
  "proved",
  "C137_bounds and C137_halving for the generic curve, C137_quadratic, C137_quadratic_halving, C137_cubic, C137_cubic_halving for the specialised types, C137_binary64 and C137_binary64_halving with numbers."
 ],
 "C138": [
  "proved",
  "C138_bounds, C138_two_curves and C138_halving for generic curves, C138_quadratic, C138_quadratic_halving, C138_cubic, C138_cubic_halving for the specialised types, C138_binary64 and C138_binary64_halving with numbers."
 ],
 "C139": [
  "proved",
  "Exact scaling by powers of two away from underflow and overflow. C139_segment_distance_not: the distance to a segment does not scale."
 ],
 "C14": [
  "proved",
  "Both bounds are attained on [0,1]; lower <= upper."
 ],
 "C140": [
  "proved",
  "C140_points, C140_arclen and C140_knots for all binary formats; C140_binary64, binary64_knot_room give numbers. Without the condition on the tolerance (b) fails, as for exact arithmetic (C79_false)."
 ],
 "C141": [
  "proved",
  "C141_segment, C141_line_box, C141_quadratic_*, C141_cubic_*, C141_roots for all binary formats; C141_cubic_binary64 gives numbers. C141_box_not and C139_segment_distance_not show that the condition on the grid is needed."
 ],
 "C142": [
  "proved",
  "Explicit constants for the generic, quadratic and cubic types; the equal-step polyline is handled by cutting the curve at 1/n, 1/(n-1), ... with split and bounding polygon minus chord of each piece."
 ],
 "C143": [
  "partial",
  "False of the code: eval jumps at every inner knot unless a control point is the origin (C143_false). Proved: smooth between knots (C143_partial); the detour of C136 returns points of one curve with the stated smoothness (C143_detour); with the lines of C121 changed eval itself has the stated smoothness (C143_repaired)."
 ],
 "C144": [
  "partial",
  "False of the code: C144_false. C144_partial is about eval, C144_detour about a sequence of calls of this version; C144_repaired and C144_repaired_strict are about the repaired copy."
 ],
 "C145": [
  "partial",
  "False of the code: C145_false. C145_partial is about eval, C145_detour about a sequence of calls of this version; the C145_repaired theorems are about the repaired copy."
 ],
 "C146": [
  "partial",
  "False of the code: C146_false. C146_partial is about eval, C146_detour about a sequence of calls of this version; C146_repaired is about the repaired copy."
 ],
 "C147": [
  "partial",
  "False of the code: C147_false. C147_partial is about eval, C147_detour about a sequence of calls of this version; C147_repaired is about the repaired copy."
 ],
 "C148": [
  "partial",
  "False of the code: C148_false. C148_partial and C148_partial_all (an equivalence) are about eval; C148_repaired, C148_repaired_span and C148_repaired_injective are about the repaired copy."
 ],
 "C149": [
  "partial",
  "False of the code: C149_false. C149_partial is about eval, C149_detour about a sequence of calls of this version; C149_repaired and C149_repaired_polygon are about the repaired copy."
 ],
 "C15": [
  "partial",
  "False as stated (C15_false): the loop starts at 1 and skips the first chord. Proved: exact value as polyline over the remaining chords, error bounds, convergence."
 ],
 "C150": [
  "partial",
  "False of the code: C150_false. C150_partial is about eval, C150_detour about a sequence of calls of this version; C150_repaired_chord and C150_repaired are about the repaired copy."
 ],
 "C151": [
  "partial",
  "False of the code: C151_false. C151_partial is about eval, C151_detour about a sequence of calls of this version; the C151_repaired theorems are about the repaired copy."
 ],
 "C152": [
  "partial",
  "false of eval (C152_false: 1/8 away from every refined polygon); proved for the repaired program, for the detour of C136 and for the polygon with the origin in place of the last control point of the span"
 ],
 "C153": [
  "partial",
  "false of eval: the control point has no effect in the first of its spans (C153_false; C153_partial gives the exact effect). The single peak holds of eval too (C153_rise_fall). Everything proved for the repaired program and for the detour of C136"
 ],
 "C154": [
  "partial",
  "false of eval: every curve of the chain lacks the term of its last control point (C154_false for every chain; C154_partial and C154_chain give the exact value). Proved for the repaired program (C154_repaired, C154_repaired_chain) and for the detour of C136 (C154_detour)"
 ],
 "C155": [
  "partial",
  "proved for all Bezier types. False of BSpline::eval on every span whose control point is not at 0 (C155_false; C155_partial gives the exact coordinate); proved for the repaired program and for the detour of C136. solve_t_for_axis needs the end points and the values at least EPSILON apart, as in C116"
 ],
 "C156": [
  "partial",
  "acceptance and domain proved of the code (C156_accepts, C156_domain). False of eval: it leaves out the last control point of the span in one direction and the first one in the other (C156_false; C156_partial gives the exact difference). Points and length proved for the repaired program, points also for the detour of C136"
 ],
 "C157": [
  "partial",
  "proved of the code for Bezier, quadratic and cubic (C157_bezier, C157_quadratic, C157_cubic) and the weights (C157_weights). False of BSpline::eval: for a single segment all of whose control points but the last are the origin the integral is 0 (C157_false; C157_partial gives the integral on each span). Proved for the repaired program and for the detour of C136"
 ],
 "C158": [
  "proved",
  "C158_line, C158_quadratic, C158_cubic and C158_bezier give the formulas, C158_split and C158_bezier_split the additivity, C158_reverse and C158_bezier_reverse the sign, C158_archimedes the parabola, C158_translate the effect of a translation. The additivity for line segments holds although split(t) does not cut at eval(t) (C06): the cut lies on the same line. C158_closed, C158_bezier_closed: closed paths"
 ],
 "C16": [
  "partial",
  "Lower half false (C16_false: parameters left of 0 are sampled). Proved: result is a distance to the extended curve, at most 2D/64 above the true distance; bound attained."
 ],
 "C17": [
  "proved",
  ""
 ],
 "C18": [
  "partial",
  "The claim is false of the code (C18_false); it holds when the control point projects strictly before the end point. C18_exact states exactly what the test decides in exact arithmetic."
 ],
 "C19": [
  "proved",
  ""
 ],
 "C20": [
  "proved",
  ""
 ],
 "C21": [
  "proved",
  ""
 ],
 "C22": [
  "proved",
  ""
 ],
 "C23": [
  "partial",
  "The claim is false of the code (C23_false, with the exact discrepancy); it holds at t = 0, t = 1 and where the start coordinate is 0."
 ],
 "C24": [
  "proved",
  "The box always exists and contains the curve up to EPSILON/3 on each side, exactly under the stated coefficient condition."
 ],
 "C25": [
  "proved",
  "Both bounds are attained on [0,1]; lower <= upper."
 ],
 "C26": [
  "partial",
  "False as stated (C26_false): the loop starts at 1 and skips the first chord. Proved: exact value as polyline over the remaining chords, error bounds, convergence."
 ],
 "C27": [
  "partial",
  "Lower half false (C27_false). Proved: result is a distance to the extended curve, at most 3D/64 above the true distance."
 ],
 "C28": [
  "partial",
  "Soundness proved in full; completeness is false of the code (C28_complete_false) and holds when both control points project strictly before the end point. C28_exact states exactly what the test decides in exact arithmetic."
 ],
 "C29": [
  "proved",
  "With the sharp constant sqrt 2, and a proof that it is attained."
 ],
 "C30": [
  "proved",
  ""
 ],
 "C31": [
  "proved",
  ""
 ],
 "C32": [
  "proved",
  ""
 ],
 "C33": [
  "proved",
  ""
 ],
 "C34": [
  "proved",
  ""
 ],
 "C35": [
  "partial",
  "The claim is false of the code for N = 1 (C35_false, panics); proved for N >= 2."
 ],
 "C36": [
  "proved",
  ""
 ],
 "C37": [
  "proved",
  ""
 ],
 "C38": [
  "proved",
  ""
 ],
 "C39": [
  "partial",
  "False as stated (C39_false): the loop starts at 1 and skips the first chord. Proved: exact value as polyline over the remaining chords, error bounds, convergence."
 ],
 "C40": [
  "partial",
  "Lower half false (C40_false). Proved: result is a distance to the extended curve, at most (N-1)D/64 above the true distance, for every N >= 1."
 ],
 "C41": [
  "proved",
  ""
 ],
 "C42": [
  "proved",
  "Dispatch is faithful. Linear segments inherit the split defect of C06 (C42_split_linear_false)."
 ],
 "C43": [
  "proved",
  "Exact arithmetic for every K, C, D, knot vector (C43); floats with finite knots (C43_float). NaN knots are accepted, see C63. C43_any: the same in any arithmetic, where non-decreasing means that no knot compares less than the one before."
 ],
 "C44": [
  "proved",
  "C44_errors, C44_stores: exact arithmetic. C44_any, C44_stores_any: any arithmetic, so also floats with NaN or infinite knots; the constructor never panics."
 ],
 "C45": [
  "partial",
  "False of the code for knot vectors clamped on one side only (C45_false, C45_one_sided states what is returned); C45_partial proves it for splines clamped on both sides or on neither."
 ],
 "C46": [
  "proved",
  "Exact arithmetic (C46) and floats with finite knots for every t, NaN and infinities included (C46_float)."
 ],
 "C47": [
  "partial",
  "False of the code for unclamped splines of degree >= 2 and at the far end of one-sided clamped ones: eval panics (index out of bounds). C47_clamped: fully clamped splines always succeed on the domain. C47_front_exact, C47_back_exact, C47_unclamped_exact: exact characterisation of success and panic for the other clampings; C47_unclamped_sizes: for which sizes an unclamped spline evaluates on its whole domain. C47_float_both, C47_float_front, C47_float_back, C47_float_unclamped: the same characterisation in floating point for finite knots, whatever the control points (C47_float_clamped: equal end knots)."
 ],
 "C48": [
  "partial",
  "False of the code: the control point with index k of the span is dropped (C48_false), and unclamped splines use a wrong span (C48_false_unclamped). C48_partial states the exact value: the B-spline minus its k-th term. C48_at_knots: exact B-spline at knots. C48_near_knots: error bound for parameters within the machine epsilon above a knot. Exact value for unclamped splines: C48_unclamped_found (the right span is found: as for clamped ones), C48_unclamped_right (the search overshoots: the value of a spline of lower degree over the knots without those passed over), C48_unclamped_far (it overshoots by the degree or more: a control point)."
 ],
 "C49": [
  "partial",
  "End point proved (C49_end). The start point is false for degree 0 (C49_false: the origin) and for a first knot of multiplicity above D+1 (C49_false_multiplicity); C49_start_exact determines it in every case: control point k-D with k the last index of the first knot's value, so the first one exactly for multiplicity D+1 (C49_start_partial). Both ends in floating point, without rounding error: C49_float_end, C49_float_start."
 ],
 "C50": [
  "partial",
  "False of the code because a control point is dropped (C50_false): C50_partial proves the value is a sub-convex combination with the exact weights. C50_unclamped_mean: where the search of unclamped splines overshoots, the weights of C48_unclamped_right are not negative and have the sum 1."
 ],
 "C51": [
  "proved",
  "Splines clamped on at least one side; C51_false_unclamped shows the restriction to clamped splines is needed."
 ],
 "C52": [
  "partial",
  "False of the code: the returned spline keeps all K knots, so its own constructor would reject it (C52_false), and it fails to evaluate (C52_false_eval). C52_partial: the control points are right for the knots without the first and last."
 ],
 "C53": [
  "partial",
  "False of the code (C53_false). C53_actual states the exact value; C53_partial: for a domain of length 1 it is the polyline length plus the norm of the last control point."
 ],
 "C54": [
  "partial",
  "Proved for finite knots whose differences do not overflow (C54_partial, every float format and every t). False in general: C54_false gives finite binary64 knots and t with Err(EvaluationAlphaIsNaN)."
 ],
 "C55": [
  "proved",
  "All coefficient cases, for roots_square and QuadraticBezier::real_roots."
 ],
 "C56": [
  "partial",
  "False as stated (C56_false: x^3-x, single-precision pi). Proved: exact first root, residual/distance bounds for the others, completeness."
 ],
 "C57": [
  "partial",
  "False as stated (C57_quadratic_false, C57_cubic_false). Proved: parameters in (0,1), exactness conditions and residual bounds, completeness for quadratics, completeness for cubics up to the resolution of the code and away from the ends (C57_cubic_complete); a solution near 0 can be lost altogether (C57_cubic_complete_false)."
 ],
 "C58": [
  "proved",
  "bounding_box, axis and dd never panic on a valid axis (exact arithmetic, i.e. no NaN). C109 gives the floating-point counterpart for bounding_box without restrictions: it panics exactly for NaN end points."
 ],
 "C59": [
  "proved",
  ""
 ],
 "C60": [
  "proved",
  "For every float format; for QuadraticBezier no overflow of 2*ctrl is assumed (the claim says without overflow); C60_overflow shows the assumption is needed."
 ],
 "C61": [
  "partial",
  "Holds when coordinate differences are representable (C61_partial); general error bound C61_error; false in general (C61_false, binary64)."
 ],
 "C62": [
  "proved",
  "Explicit bound for every N and every float format (C62_bezier_error), absent overflow."
 ],
 "C63": [
  "partial",
  "Proved: NaN parameters give KnotDomainViolation (C63_nan_parameter); NaN in the start or end point makes bounding_box of quadratics and cubics panic (C63_box_*_partial). False: NaN in the middle control point is ignored (C63_false_quadratic), line segments never panic (C63_false_line), NaN knots are accepted (C63_nan_knots) and hide a decrease (C63_nan_hides_decrease: 1, NaN, 0, 0), finite knots can give EvaluationAlphaIsNaN (C54_false)."
 ],
 "C64": [
  "proved",
  "Every float format; totality under an explicit distance from overflow (Room). C109 removes this restriction for the IEEE formats."
 ],
 "C65": [
  "proved",
  "Any scalar type, any arithmetic, all five curve types, and chains of recursive splits."
 ],
 "C66": [
  "proved",
  "Tiling, termination depth, connectedness and tolerance for quadratic and cubic curves; C66_needs_is_a_point shows that is_linear alone does not terminate."
 ],
 "C67": [
  "proved",
  "Explicit bounds for all five functions and their agreement; hypotheses met by binary64 and binary32."
 ],
 "C68": [
  "proved",
  "Every degree and dimension, by Descartes' rule of signs; the example shows that the bound is attained."
 ],
 "C69": [
  "proved",
  ""
 ],
 "C70": [
  "proved",
  "Control box, split parts both ways, exact translation equivariance, for quadratic and cubic curves."
 ],
 "C71": [
  "partial",
  "Refinement, control polygon bound (also for the true arc length), similarity all proved. Reversal invariance is false because the first chord is skipped (C71_reverse_false); C71_reverse_partial gives the exact difference."
 ],
 "C72": [
  "proved",
  "All Bezier types on [0,1]; B-splines for every knot vector."
 ],
 "C73": [
  "proved",
  "Generic and specialised curves; exact for line segments."
 ],
 "C74": [
  "proved",
  ""
 ],
 "C75": [
  "partial",
  "proved for line segments (C75_line) and for NaN in the query point or the first control point of any curve (C75_partial); false for the other control points: the curve's distance_to_point silently returns the distance to its start point (C75_false)."
 ],
 "C76": [
  "partial",
  "proved for all curves (C76_curves), and for line segments under rigid motions (C76_line_rigid) and under similarities that do not move the length across the cut-off sqrt(EPSILON) (C76_line_partial); false for other segments because of the absolute cut-off (C76_line_false)."
 ],
 "C77": [
  "partial",
  "tolerance and rigid motions proved (C77_tolerance, C77_rigid); reversal holds for is_a_point of cubics (C77_reversal_partial) and is false for is_linear and for is_a_point of quadratics (C77_reversal_false)."
 ],
 "C78": [
  "proved",
  ""
 ],
 "C79": [
  "partial",
  "C79_partial: holds when the distinct knots and the parameter stay at least the machine epsilon apart; C79_shift: for every shift without condition; C79_false: scaling by 2^-53 changes the value because the code compares knot differences with an absolute epsilon."
 ],
 "C80": [
  "partial",
  "C80_linear_partial: linear maps, exact arithmetic; C80_any_arithmetic and C80_derivative: every map that respects the operations, in any arithmetic; C80_false: translations move the curve by another vector, because the dropped basis function breaks the partition of unity."
 ],
 "C81": [
  "partial",
  "C81_partial: each span is a polynomial of degree at most D in exact arithmetic. C81_false: for every degree the spline with knots 0..0 1..1 tends to the origin as t tends to 1 while eval(1) is the last control point. C81_joints: at every interior knot of multiplicity at most the degree the curve is continuous exactly if the control point of the ending span is the origin."
 ],
 "C82": [
  "partial",
  "C82_partial: same end points, and the exact difference t^D p_D in between; C82_false: the difference is non-zero whenever the last control point is not the origin."
 ],
 "C83": [
  "proved",
  "C83_bspline_error: clamped splines. C83_one_end: the same bound for splines clamped, up to the machine epsilon, at one end at least. Relative to the exact value of the algorithm, i.e. the B-spline without the dropped term (see C48)."
 ],
 "C84": [
  "partial",
  "Proved for quadratic curves with explicit constants (C84_quadratic).  False for cubic curves: C84_cubic_false is a binary64 curve with coordinates at most 3 whose box misses the curve by more than 1/512, because real_roots loses a root of the derivative to cancellation.  C84_cubic_partial: the box of a cubic is finite, contains both end points and its ends are close to points of the curve.  C84_cubic_conditioned_partial: on an axis where the leading coefficient of the derivative is at least kappa the box contains the curve up to 400 u M + 6200 u M^2 / kappa + 3 epsilon; C84_cubic_binary64_partial puts numbers in (10^-10 M when the third difference is at least M/100)."
 ],
 "C85": [
  "proved",
  "Exact arithmetic for all real t (C85_exact), and every binary64 parameter of the computed eval (C85_binary64)."
 ],
 "C86": [
  "proved",
  "One split: C86_quadratic, C86_cubic, C86_bezier.  Any number of splits at arbitrary floats: C86_quadratic_descend, C86_cubic_descend, C86_bezier_descend (total error assumed at most 1, which excludes growth of the coordinates)."
 ],
 "C87": [
  "proved",
  "C87_total, C87_axis, C87_solve, C87_bezier, C87_bounding_box: generic over the scalar type without any laws."
 ],
 "C88": [
  "proved",
  "C88_squared_length, C88_point_distance, C88_quadratic, C88_cubic, C88_bezier, C88_cubic_binary64. Overflow is excluded by explicit size hypotheses; the binary64 corollary discharges them."
 ],
 "C89": [
  "proved",
  "Soundness: C89_line_sound, C89_quadratic_is_linear, C89_cubic_is_linear, C89_quadratic_is_a_point, C89_cubic_is_a_point (the last two require tol*tol not to overflow). Accuracy: C89_line_accurate (any format), C89_line_binary64 (numbers). Completeness of is_linear: C89_quadratic_is_linear_complete, C89_cubic_is_linear_complete. For points projecting beyond the end the code clamps to the start (see C06), so no accuracy claim holds there."
 ],
 "C90": [
  "partial",
  "False as stated: C90_false gives an f64 curve with coordinates at most 2 on which the single returned parameter misses the value by more than 1/17 (the second difference of the coordinates is 2^-51, and the quadratic formula divides rounding errors by it). Proved: C90_real_roots (residual of every root in (0,1] computed by real_roots, any format), C90_solve_t_partial (error of every returned parameter in terms of the computed second difference), C90_binary64_partial (second difference at least M/100: error at most 1e-11 M)."
 ],
 "C91": [
  "proved",
  "End tangents: C91_end_tangents(_specialised); pieces of a split: C91_split(_specialised), and C91_line_split for the segments, whose split is wrong; integrals: C91_integral(_specialised); repeated differentiation: C91_higher(_specialised), C91_higher_end."
 ],
 "C92": [
  "proved",
  "Stated against `deriv` of the exact curve. Bezier is limited to N <= 1025 (and D <= 1024 for B-splines) so that the factor is exactly representable in every modelled format. CubicBezier::dd is wrong in exact arithmetic (C23); C92_cubic_dd bounds the rounding error relative to the formula it computes. C92_bspline and C92_bspline_repeated: control points of BSpline::derivative."
 ],
 "C93": [
  "proved",
  "C93_bezier with C93_sharp; C93_specialised, C93_segment, C93_degree_matters for ==; C93_float in every float format (the model has one zero, and == does not distinguish the two zeros either); C93_iter_mut."
 ],
 "C94": [
  "proved",
  "Exact displacement (C94_bezier, C94_specialised), distance and strictness (C94_bezier_distance), place of largest influence (C94_influence, C94_largest)."
 ],
 "C95": [
  "partial",
  "The limit half is proved (C95_limit, C95_limit_specialised). The sampled half is false of the code, because arclen skips the first chord of each part (C95_false); C95_partial and C95_specialised_partial give the exact relation, with that chord."
 ],
 "C96": [
  "proved",
  "C96_line, C96_quadratic, C96_cubic, C96_segment, C96_bezier, C96_bspline: commutation in any arithmetic. C96_reindex, C96_coordinate, C96_independent: coordinates. C96_mirror, C96_ieee, C96_arclen, C96_distance, C96_flatness, C96_binary64: mirror images in IEEE formats; the model identifies +0 and -0, so results agree up to the sign of a zero."
 ],
 "C97": [
  "proved",
  "C97_line_monotone, C97_line_between: line segments. C97_constant: degenerate curves. C97_constant_false, C97_monotone_false: the f64 counterexamples for the other methods."
 ],
 "C98": [
  "proved",
  "C98_quadratic, C98_cubic, C98_bezier: every format. C98_cubic_binary64: in numbers for f64. C98_true_length: against the true arc length. C98_params: the sample parameters. C98_bspline, C98_bspline_clamped, C98_bspline_binary64: B-splines, relative to the computed sample points."
 ],
 "C99": [
  "partial",
  "Not true of the code for translations: C99_translation_false (moving all control points by 2 changes arclen from 20 to 22, since the sample past the end of the domain counts as the origin). Proved: C99_isometry_partial (any arithmetic, maps that keep the operations and squared lengths), C99_similarity_partial (exact arithmetic, linear similarities about the origin), C99_total and C99_no_steps (floats)."
 ]
}