{"id": "C01", "title": "PointN arithmetic is componentwise and obeys the vector-space laws", "statement": "For PointN values p, q of any dimension N and any scalar s, component i of p+q, p-q, p*s, p+s (scalar) and p-s (scalar) is p_i+q_i, p_i-q_i, p_i*s, p_i+s, p_i-s, and Default is the point with all components 0. Hence +, -, * satisfy the vector-space laws in exact arithmetic.", "quantifier": "every dimension N, every pair of points, every scalar", "why_tests_cant": "The input space (real coordinates, parameters, dimensions) is infinite; a unit test samples a handful of literals.", "anchors": ["src/point_generic.rs: PointN, Add, Sub, Mul, Default"]}
{"id": "C02", "title": "PointN equality is componentwise equality", "statement": "p == q holds exactly when every component of p equals the corresponding component of q; it is an equivalence relation on points without NaN components, and a point with a NaN component is not equal to anything, itself included.", "quantifier": "every dimension, every pair of points, including NaN components", "why_tests_cant": "The input space (real coordinates, parameters, dimensions) is infinite; a unit test samples a handful of literals.", "anchors": ["src/point_generic.rs: PartialEq for PointN"]}
{"id": "C03", "title": "axis(i) returns component i and panics outside the dimension", "statement": "p.axis(i) returns component i for i < N, and panics (returns nothing) for every i >= N, including i == N.", "quantifier": "every dimension, point and index", "why_tests_cant": "The index ranges over all usize values and dimensions.", "anchors": ["src/point_generic.rs: PointN::axis"]}
{"id": "C04", "title": "squared_length is the squared Euclidean norm", "statement": "squared_length(p) is the sum of the squares of the components; it is never negative and is 0 only for the zero point.", "quantifier": "every dimension and every point", "why_tests_cant": "The input space (real coordinates, parameters, dimensions) is infinite; a unit test samples a handful of literals.", "anchors": ["src/point_generic.rs: PointN::squared_length"]}
{"id": "C05", "title": "LineSegment::eval is linear interpolation", "statement": "eval(t) = (1-t)*start + t*end for every t; in particular eval(0) = start and eval(1) = end, and axis(t,i) equals component i of eval(t).", "quantifier": "every pair of end points, every t, every axis", "why_tests_cant": "The input space (real coordinates, parameters, dimensions) is infinite; a unit test samples a handful of literals.", "anchors": ["src/line.rs: LineSegment::eval, axis"]}
{"id": "C06", "title": "LineSegment::split cuts the segment at t", "statement": "For (l,r) = split(t): l.eval(s) = eval(t*s) and r.eval(s) = eval(t + (1-t)*s) for every s; the two halves join at eval(t) and cover the segment.", "quantifier": "every segment, every split parameter t, every s", "why_tests_cant": "The input space (real coordinates, parameters, dimensions) is infinite; a unit test samples a handful of literals.", "anchors": ["src/line.rs: LineSegment::split"]}
{"id": "C07", "title": "LineSegment::distance_to_point is the distance to the nearest point of the segment", "statement": "distance_to_point(p) equals the minimum over s in [0,1] of |eval(s) - p|.", "quantifier": "every segment, every dimension, every query point", "why_tests_cant": "The clamping of the projection has three regions; tests only hit the one before the end point.", "anchors": ["src/line.rs: LineSegment::distance_to_point"]}
{"id": "C08", "title": "LineSegment::derivative is the derivative of eval", "statement": "derivative() is the derivative of t -> eval(t) at every t.", "quantifier": "every segment, every t, every axis", "why_tests_cant": "The input space (real coordinates, parameters, dimensions) is infinite; a unit test samples a handful of literals.", "anchors": ["src/line.rs: LineSegment::derivative"]}
{"id": "C09", "title": "LineSegment::bounding_box is the exact bounding box", "statement": "On every axis the returned (min,max) contains eval(t) for all t in [0,1], and both bounds are attained.", "quantifier": "every segment, axis and t in [0,1]", "why_tests_cant": "The input space (real coordinates, parameters, dimensions) is infinite; a unit test samples a handful of literals.", "anchors": ["src/line.rs: LineSegment::bounding_box"]}
{"id": "C10", "title": "QuadraticBezier evaluation methods agree with the Bernstein form", "statement": "eval(t), eval_casteljau(t) and axis(t,i) all equal (1-t)^2 start + 2t(1-t) ctrl + t^2 end; eval(0)=start and eval(1)=end.", "quantifier": "every curve, every t (also outside [0,1]), every axis", "why_tests_cant": "The input space (real coordinates, parameters, dimensions) is infinite; a unit test samples a handful of literals.", "anchors": ["src/quadratic_bezier.rs: eval, eval_casteljau, axis"]}
{"id": "C11", "title": "QuadraticBezier::split cuts the curve at t", "statement": "For (l,r)=split(t): l.eval(s)=eval(t s), r.eval(s)=eval(t+(1-t)s) for every s.", "quantifier": "every curve, every t, every s", "why_tests_cant": "A polynomial identity in t and s; the test checks t=0.5 on one curve.", "anchors": ["src/quadratic_bezier.rs: split"]}
{"id": "C12", "title": "QuadraticBezier::derivative and dd are the derivative of eval", "statement": "derivative().eval(t) is the derivative of eval at t, and dd(t,i) is its component i.", "quantifier": "every curve, t and axis", "why_tests_cant": "The input space (real coordinates, parameters, dimensions) is infinite; a unit test samples a handful of literals.", "anchors": ["src/quadratic_bezier.rs: derivative, dd"]}
{"id": "C13", "title": "QuadraticBezier::bounding_box contains the curve", "statement": "For every t in [0,1] and axis i, eval(t)_i lies in bounding_box()[i] up to the machine epsilon used as degeneracy threshold, and exactly when the second difference on that axis is 0 or at least EPSILON.", "quantifier": "every curve, axis, t in [0,1]", "why_tests_cant": "Extremum position ranges over a continuum, including degenerate leading coefficients.", "anchors": ["src/quadratic_bezier.rs: bounding_box; src/line.rs: root"]}
{"id": "C14", "title": "QuadraticBezier::bounding_box is tight", "statement": "Both bounds of every axis are attained by eval(t) for some t in [0,1]; lower <= upper.", "quantifier": "every curve and axis", "why_tests_cant": "The input space (real coordinates, parameters, dimensions) is infinite; a unit test samples a handful of literals.", "anchors": ["src/quadratic_bezier.rs: bounding_box"]}
{"id": "C15", "title": "QuadraticBezier::arclen is the chord-length approximation of the arc length", "statement": "arclen(n) is the length of the polyline eval(0), eval(1/n), ..., eval(1), and converges to the arc length as n grows.", "quantifier": "every curve, every n", "why_tests_cant": "n ranges over all step counts and convergence is a limit statement.", "anchors": ["src/quadratic_bezier.rs: arclen"]}
{"id": "C16", "title": "QuadraticBezier::distance_to_point is a two-sided approximation of the distance to the curve", "statement": "The result is the distance from the query point to some point of the curve on [0,1] (so never below the true distance), and exceeds the true distance by at most the sampling resolution.", "quantifier": "every curve and every query point", "why_tests_cant": "The input space (real coordinates, parameters, dimensions) is infinite; a unit test samples a handful of literals.", "anchors": ["src/quadratic_bezier.rs: distance_to_point"]}
{"id": "C17", "title": "is_linear(tol) is sound for quadratic curves", "statement": "If is_linear(tol) is true, every point eval(t), t in [0,1], is within tol of the baseline segment.", "quantifier": "every curve, tolerance and t in [0,1]", "why_tests_cant": "The input space (real coordinates, parameters, dimensions) is infinite; a unit test samples a handful of literals.", "anchors": ["src/quadratic_bezier.rs: is_linear, are_points_colinear; src/line.rs: distance_to_point"]}
{"id": "C18", "title": "is_linear(tol) is complete for quadratic curves", "statement": "If start and end are distinguishable and the control point is within tol of the baseline segment then is_linear(tol) is true.", "quantifier": "every curve and tolerance", "why_tests_cant": "The failing region (control point projecting to or beyond the end) is not sampled by the tests.", "anchors": ["src/quadratic_bezier.rs: is_linear; src/line.rs: distance_to_point"]}
{"id": "C19", "title": "is_a_point(tol) bounds the extent of a quadratic curve", "statement": "If is_a_point(tol) is true every point eval(t), t in [0,1], is within |tol| of start; is_a_point(0) is true exactly when all control points coincide.", "quantifier": "every curve, tolerance, t", "why_tests_cant": "The input space (real coordinates, parameters, dimensions) is infinite; a unit test samples a handful of literals.", "anchors": ["src/quadratic_bezier.rs: is_a_point"]}
{"id": "C20", "title": "CubicBezier evaluation methods agree with the Bernstein form", "statement": "eval(t), eval_casteljau(t) and axis(t,i) all equal (1-t)^3 start + 3t(1-t)^2 ctrl1 + 3t^2(1-t) ctrl2 + t^3 end; eval(0)=start, eval(1)=end.", "quantifier": "every curve, t, axis", "why_tests_cant": "The input space (real coordinates, parameters, dimensions) is infinite; a unit test samples a handful of literals.", "anchors": ["src/cubic_bezier.rs: eval, eval_casteljau, axis"]}
{"id": "C21", "title": "CubicBezier::split cuts the curve at t", "statement": "For (l,r)=split(t): l.eval(s)=eval(t s), r.eval(s)=eval(t+(1-t)s) for every s.", "quantifier": "every curve, t, s", "why_tests_cant": "A polynomial identity; tests fix t=0.5.", "anchors": ["src/cubic_bezier.rs: split"]}
{"id": "C22", "title": "CubicBezier::derivative is the derivative of eval", "statement": "derivative().eval(t) is the derivative of eval at t.", "quantifier": "every curve, t, axis", "why_tests_cant": "The input space (real coordinates, parameters, dimensions) is infinite; a unit test samples a handful of literals.", "anchors": ["src/cubic_bezier.rs: derivative"]}
{"id": "C23", "title": "CubicBezier::dd equals derivative().eval(t).axis(i)", "statement": "dd(t,i) is component i of the derivative at t, as its documentation says.", "quantifier": "every curve, t, axis", "why_tests_cant": "No test calls dd; the coefficients must agree as polynomials.", "anchors": ["src/cubic_bezier.rs: dd"]}
{"id": "C24", "title": "CubicBezier::bounding_box contains the curve", "statement": "For every t in [0,1] and axis i, eval(t)_i lies in bounding_box()[i] up to a small multiple of machine epsilon, and exactly whenever the leading derivative coefficient on that axis is at least EPSILON in absolute value or the degenerate coefficients are 0.", "quantifier": "every curve, axis, t in [0,1]", "why_tests_cant": "Extrema positions range over a continuum and the code has several degenerate branches.", "anchors": ["src/cubic_bezier.rs: bounding_box; src/quadratic_bezier.rs: real_roots"]}
{"id": "C25", "title": "CubicBezier::bounding_box is tight", "statement": "Both bounds of every axis are attained by the curve for some t in [0,1]; lower <= upper.", "quantifier": "every curve and axis", "why_tests_cant": "The input space (real coordinates, parameters, dimensions) is infinite; a unit test samples a handful of literals.", "anchors": ["src/cubic_bezier.rs: bounding_box"]}
{"id": "C26", "title": "CubicBezier::arclen is the chord-length approximation of the arc length", "statement": "arclen(n) is the length of the polyline eval(0), eval(1/n), ..., eval(1), and converges to the arc length as n grows.", "quantifier": "every curve, every n", "why_tests_cant": "n ranges over all step counts and convergence is a limit statement.", "anchors": ["src/cubic_bezier.rs: arclen"]}
{"id": "C27", "title": "CubicBezier::distance_to_point is a two-sided approximation of the distance to the curve", "statement": "The result is the distance from the query point to some point of the curve on [0,1], and exceeds the true distance by at most the sampling resolution.", "quantifier": "every curve and query point", "why_tests_cant": "The input space (real coordinates, parameters, dimensions) is infinite; a unit test samples a handful of literals.", "anchors": ["src/cubic_bezier.rs: distance_to_point"]}
{"id": "C28", "title": "CubicBezier::is_linear(tol) is sound and complete", "statement": "is_linear(tol) true implies every curve point on [0,1] is within tol of the baseline segment; conversely distinguishable end points and both control points within tol of the baseline segment imply is_linear(tol).", "quantifier": "every curve, tolerance, t", "why_tests_cant": "The input space (real coordinates, parameters, dimensions) is infinite; a unit test samples a handful of literals.", "anchors": ["src/cubic_bezier.rs: is_linear, are_points_colinear"]}
{"id": "C29", "title": "CubicBezier::is_a_point(tol) bounds the extent of the curve", "statement": "If is_a_point(tol) is true every curve point on [0,1] is within 2|tol| of start; is_a_point(0) is true exactly when all control points coincide.", "quantifier": "every curve, tolerance, t", "why_tests_cant": "The input space (real coordinates, parameters, dimensions) is infinite; a unit test samples a handful of literals.", "anchors": ["src/cubic_bezier.rs: is_a_point"]}
{"id": "C30", "title": "Bezier::eval computes the Bernstein form for every degree", "statement": "For N >= 1 control points eval(t) = sum_k C(N-1,k) t^k (1-t)^(N-1-k) P_k for every t, without panicking; for N = 0 it panics.", "quantifier": "every N, every control polygon, every t, every axis", "why_tests_cant": "N is an arbitrary const generic; each test fixes N.", "anchors": ["src/bezier.rs: Bezier::eval"]}
{"id": "C31", "title": "Bezier::eval interpolates the end points", "statement": "eval(0) is the first control point and eval(1) the last, for every N >= 1.", "quantifier": "every N and control polygon", "why_tests_cant": "N arbitrary.", "anchors": ["src/bezier.rs: Bezier::eval"]}
{"id": "C32", "title": "The generic Bezier agrees with the specialised curves", "statement": "Bezier with 2, 3 and 4 control points evaluates, splits and differentiates to the same points as LineSegment (eval), QuadraticBezier and CubicBezier.", "quantifier": "all control points and all t", "why_tests_cant": "The input space (real coordinates, parameters, dimensions) is infinite; a unit test samples a handful of literals.", "anchors": ["src/bezier.rs; src/line.rs; src/quadratic_bezier.rs; src/cubic_bezier.rs"]}
{"id": "C33", "title": "Bezier::split cuts the curve at t for every degree", "statement": "For (l,r)=split(t): l.eval(s)=eval(t s) and r.eval(s)=eval(t+(1-t)s) for every s; split does not panic for N >= 1 (nor for N = 0).", "quantifier": "every N, control polygon, t, s", "why_tests_cant": "N arbitrary; the tests use N=4, t=0.5.", "anchors": ["src/bezier.rs: Bezier::split"]}
{"id": "C34", "title": "Bezier::derivative is the derivative curve for every degree", "statement": "For N >= 2, derivative() has N-1 control points and derivative().eval(t) is the derivative of eval at t.", "quantifier": "every N >= 2, control polygon, t, axis", "why_tests_cant": "N arbitrary; no test calls derivative.", "anchors": ["src/bezier.rs: Bezier::derivative"]}
{"id": "C35", "title": "Bezier::derivative never panics", "statement": "derivative() returns a curve for every N >= 1 accepted by the type (N-1 control points).", "quantifier": "every N >= 1", "why_tests_cant": "The failing value N=1 is a type parameter no test instantiates.", "anchors": ["src/bezier.rs: Bezier::derivative"]}
{"id": "C36", "title": "Curves lie in the convex hull of their control points", "statement": "For t in [0,1], eval(t) of LineSegment, QuadraticBezier, CubicBezier and Bezier is a convex combination of the control points, with weights that depend on t only.", "quantifier": "every N, control polygon, t in [0,1]", "why_tests_cant": "The input space (real coordinates, parameters, dimensions) is infinite; a unit test samples a handful of literals.", "anchors": ["src/bezier.rs; src/cubic_bezier.rs; src/quadratic_bezier.rs; src/line.rs: eval"]}
{"id": "C37", "title": "Evaluation commutes with affine maps", "statement": "Applying an affine map to all control points and evaluating gives the image of the evaluated point (all Bezier types).", "quantifier": "every affine map, curve, t", "why_tests_cant": "The input space (real coordinates, parameters, dimensions) is infinite; a unit test samples a handful of literals.", "anchors": ["src/bezier.rs; src/cubic_bezier.rs; src/quadratic_bezier.rs; src/line.rs: eval"]}
{"id": "C38", "title": "Reversing the control points reverses the curve", "statement": "The curve with reversed control points at t equals the original at 1-t (all Bezier types).", "quantifier": "every N, curve, t", "why_tests_cant": "The input space (real coordinates, parameters, dimensions) is infinite; a unit test samples a handful of literals.", "anchors": ["src/bezier.rs; src/cubic_bezier.rs; src/quadratic_bezier.rs; src/line.rs: eval"]}
{"id": "C39", "title": "Bezier::arclen is the chord-length approximation of the arc length", "statement": "arclen(n) is the length of the polyline eval(0), eval(1/n), ..., eval(1), and converges to the arc length as n grows.", "quantifier": "every N, curve, n", "why_tests_cant": "limit statement over all n and N.", "anchors": ["src/bezier.rs: arclen"]}
{"id": "C40", "title": "Bezier::distance_to_point is a two-sided approximation of the distance to the curve", "statement": "The result is the distance from the query point to some point of the curve on [0,1], and exceeds the true distance by at most the sampling resolution.", "quantifier": "every N, curve, query point", "why_tests_cant": "The input space (real coordinates, parameters, dimensions) is infinite; a unit test samples a handful of literals.", "anchors": ["src/bezier.rs: distance_to_point"]}
{"id": "C41", "title": "Bezier construction and iteration round-trip", "statement": "new(ps).control_points() = ps; by-value iteration yields ps in order; mutating through iter_mut replaces exactly the addressed points.", "quantifier": "every N and control polygon", "why_tests_cant": "N arbitrary.", "anchors": ["src/bezier.rs: new, control_points, IntoIterator"]}
{"id": "C42", "title": "BezierSegment dispatches faithfully", "statement": "eval, start, end, baseline, is_linear and split on a BezierSegment built with From give the result of the wrapped curve; start() = eval(0), end() = eval(1); baseline() joins start() and end(); split returns segments of the same variant.", "quantifier": "every wrapped curve, t, tolerance", "why_tests_cant": "The input space (real coordinates, parameters, dimensions) is infinite; a unit test samples a handful of literals.", "anchors": ["src/bezier_segment.rs"]}
{"id": "C43", "title": "BSpline::new accepts exactly the valid inputs", "statement": "new(knots, points) is Ok exactly when C > D, K = C + D + 1 and the knots are non-decreasing.", "quantifier": "every K, C, D, knot vector and control polygon", "why_tests_cant": "const generics and knot vectors are unbounded.", "anchors": ["src/bspline.rs: BSpline::new"]}
{"id": "C44", "title": "BSpline::new reports the right error, and a curve stores what it was given", "statement": "Too few control points, then too few knots, then too many knots, then decreasing knots are reported in that priority; on Ok, knots() and control_points() iterate over exactly the inputs, in order.", "quantifier": "every K, C, D, inputs", "why_tests_cant": "const generics and knot vectors are unbounded.", "anchors": ["src/bspline.rs: new, knots, control_points"]}
{"id": "C45", "title": "knot_domain is the interval on which the B-spline is defined", "statement": "knot_domain() = (knots[D], knots[C]), the interval on which D+1 basis functions overlap, whatever the clamping.", "quantifier": "every valid spline", "why_tests_cant": "Clamping kind depends on an epsilon comparison of arbitrary knots.", "anchors": ["src/bspline.rs: knot_domain and its four variants"]}
{"id": "C46", "title": "eval outside the knot domain is a KnotDomainViolation", "statement": "For every constructed spline and every t outside knot_domain() (NaN included), eval(t) = Err(KnotDomainViolation); it never returns a point and never panics.", "quantifier": "every valid spline, every t outside the domain", "why_tests_cant": "The input space (real coordinates, parameters, dimensions) is infinite; a unit test samples a handful of literals.", "anchors": ["src/bspline.rs: eval"]}
{"id": "C47", "title": "eval inside the knot domain succeeds", "statement": "For every constructed spline and every t inside knot_domain(), eval(t) returns Ok, without panicking or failing.", "quantifier": "every valid spline (every clamping kind), every t in the domain", "why_tests_cant": "Binary search over arbitrary knot vectors and index arithmetic with const generics.", "anchors": ["src/bspline.rs: eval, de_boor_iterative, knot_span_start_for_t*"]}
{"id": "C48", "title": "eval computes the B-spline", "statement": "For every constructed spline and t in [knots[D], knots[C]), eval(t) = sum_i N_{i,D}(t) P_i with N the Cox-de Boor basis functions.", "quantifier": "every valid spline, every t", "why_tests_cant": "Degree, knots and control points are unbounded; the tests never compare an interior value.", "anchors": ["src/bspline.rs: eval, de_boor_iterative"]}
{"id": "C49", "title": "A clamped B-spline interpolates its first and last control point", "statement": "For a clamped spline eval(kmin) is the first and eval(kmax) the last control point.", "quantifier": "every clamped spline", "why_tests_cant": "degree and knots unbounded.", "anchors": ["src/bspline.rs: eval, de_boor_iterative"]}
{"id": "C50", "title": "B-spline evaluation commutes with translations and stays in the convex hull", "statement": "Translating all control points translates eval(t); a spline whose control points all equal p evaluates to p; eval(t) is a convex combination of the control points.", "quantifier": "every valid spline, t, translation", "why_tests_cant": "The input space (real coordinates, parameters, dimensions) is infinite; a unit test samples a handful of literals.", "anchors": ["src/bspline.rs: eval"]}
{"id": "C51", "title": "B-spline evaluation is local", "statement": "eval(t) with t in [knots[k], knots[k+1]) depends only on the control points k-D..k.", "quantifier": "every clamped spline, t, and changes to other control points", "why_tests_cant": "degree and knots unbounded.", "anchors": ["src/bspline.rs: eval, de_boor_iterative"]}
{"id": "C52", "title": "BSpline::derivative returns a valid derivative spline", "statement": "derivative() returns a spline with C-1 points and degree D-1 that satisfies the constructor's own conditions, and derivative().eval(t) is the derivative of eval.", "quantifier": "every valid spline with D >= 1", "why_tests_cant": "documented 'TODO test & verify'; no test calls it.", "anchors": ["src/bspline.rs: derivative"]}
{"id": "C53", "title": "BSpline::arclen is the chord-length approximation over the knot domain", "statement": "arclen(n) is the length of the polyline through eval at n+1 equally spaced parameters of the knot domain; it is invariant under translation of the control points.", "quantifier": "every valid spline and n", "why_tests_cant": "no test calls it.", "anchors": ["src/bspline.rs: arclen"]}
{"id": "C54", "title": "EvaluationAlphaIsNaN is never returned for finite knots", "statement": "For splines with finite knots and any t, eval never returns EvaluationAlphaIsNaN.", "quantifier": "every spline with finite knots, every t", "why_tests_cant": "The input space (real coordinates, parameters, dimensions) is infinite; a unit test samples a handful of literals.", "anchors": ["src/bspline.rs: de_boor_iterative"]}
{"id": "C55", "title": "Quadratic root finding is sound and complete", "statement": "For |a| >= EPSILON, the roots returned for a t^2 + b t + c are exactly the real roots when the discriminant is positive, none when it is at most -EPSILON, and -b/2a when it is in (-EPSILON, 0]; for |a| < EPSILON the linear root is returned when |b| >= EPSILON. Never more than two roots (no ArrayVec overflow).", "quantifier": "all coefficients", "why_tests_cant": "The input space (real coordinates, parameters, dimensions) is infinite; a unit test samples a handful of literals.", "anchors": ["src/quadratic_bezier.rs: real_roots; src/roots.rs: roots_square; src/line.rs: root"]}
{"id": "C56", "title": "Cubic root finding is sound", "statement": "Every value returned for a t^3 + b t^2 + c t + d with |a| >= EPSILON is a real root of the polynomial.", "quantifier": "all coefficients", "why_tests_cant": "The input space (real coordinates, parameters, dimensions) is infinite; a unit test samples a handful of literals.", "anchors": ["src/cubic_bezier.rs: real_roots; src/roots.rs: roots_cubic"]}
{"id": "C57", "title": "solve_t_for_axis returns parameters that hit the value", "statement": "Every t returned by solve_t_for_axis(value, i) lies in (0,1) and satisfies eval(t)_i = value (quadratic and cubic).", "quantifier": "all curves, values, axes", "why_tests_cant": "The input space (real coordinates, parameters, dimensions) is infinite; a unit test samples a handful of literals.", "anchors": ["src/quadratic_bezier.rs, src/cubic_bezier.rs: solve_t_for_axis"]}
{"id": "C58", "title": "Fixed-degree curve methods never panic on ordinary input", "statement": "bounding_box (sorting with unwrap, fixed-capacity vectors), axis and dd with a valid axis never panic for LineSegment, QuadraticBezier and CubicBezier on non-NaN input.", "quantifier": "all curves", "why_tests_cant": "The input space (real coordinates, parameters, dimensions) is infinite; a unit test samples a handful of literals.", "anchors": ["src/line.rs, src/quadratic_bezier.rs, src/cubic_bezier.rs: bounding_box, axis, dd"]}
{"id": "C59", "title": "baseline and control_points report the defining points", "statement": "baseline() runs from start to end and control_points() lists the defining points in order, and constructors store their arguments.", "quantifier": "all curves", "why_tests_cant": "The input space (real coordinates, parameters, dimensions) is infinite; a unit test samples a handful of literals.", "anchors": ["src/quadratic_bezier.rs, src/cubic_bezier.rs: baseline, control_points, new"]}
{"id": "C60", "title": "End-point interpolation survives rounding", "statement": "Under any correctly rounded arithmetic without overflow, eval(0) and eval(1) of QuadraticBezier, CubicBezier and Bezier return exactly start and end.", "quantifier": "every rounding function, every curve with representable finite coordinates", "why_tests_cant": "floats: 2^64 values per coordinate.", "anchors": ["src/quadratic_bezier.rs, src/cubic_bezier.rs, src/bezier.rs: eval"]}
{"id": "C61", "title": "LineSegment::eval(1) and eval_casteljau(1) return the end point under rounding", "statement": "Under correctly rounded arithmetic LineSegment::eval(1) and eval_casteljau(1) return exactly the end point.", "quantifier": "every curve with representable finite coordinates", "why_tests_cant": "The failure needs operands of very different magnitude.", "anchors": ["src/line.rs: eval; src/quadratic_bezier.rs, src/cubic_bezier.rs: eval_casteljau"]}
{"id": "C62", "title": "De Casteljau evaluation is numerically stable", "statement": "In floating point with unit roundoff u and underflow threshold eta, Bezier::eval(t) for t in [0,1] differs from the exact value, in every coordinate, by at most G^(N-1)(M+(N-1)c) - M, where M bounds the coordinates, G = (1+u)^2(1+u+eta) and c = 3(1+u)eta; provided G^(N-1)(M+(N-1)c) does not overflow.", "quantifier": "every N, control polygon, t in [0,1], every rounding with relative error u", "why_tests_cant": "error analysis over all inputs.", "anchors": ["src/bezier.rs: eval"]}
{"id": "C63", "title": "NaN and infinities are handled as documented", "statement": "NaN parameters yield KnotDomainViolation; NaN in a curve makes bounding_box panic rather than return a wrong box; infinite knots are the only way to EvaluationAlphaIsNaN.", "quantifier": "all special values", "why_tests_cant": "The input space (real coordinates, parameters, dimensions) is infinite; a unit test samples a handful of literals.", "anchors": ["src/bspline.rs: eval; src/quadratic_bezier.rs, src/cubic_bezier.rs: bounding_box"]}
{"id": "C64", "title": "Bounding boxes in floating point contain the end points", "statement": "In floating point, whatever the rounding: if bounding_box() of a line segment, quadratic or cubic returns, then on every axis it is an interval between numbers that contains the start and end coordinates exactly; for finite coordinates away from overflow it does return.", "quantifier": "every float format and rounding, every dimension, every curve including special values", "why_tests_cant": "floats: 2^64 values per coordinate, including rounding of interior extrema past the ends.", "anchors": ["src/line.rs, src/quadratic_bezier.rs, src/cubic_bezier.rs: bounding_box"]}
{"id": "C65", "title": "Split is watertight in any arithmetic", "statement": "For every curve type the first part of split(t) starts at the curve's start point, the second ends at its end point, and the end of the first part is the very same value as the start of the second: no gap, bit for bit, also in floating point and for t outside [0,1]. Splitting recursively yields a chain of parts without gaps.", "quantifier": "every scalar type and arithmetic (including floats with any rounding), every point type, every curve, every t, every recursion depth", "why_tests_cant": "All float inputs, all parameters, all recursion depths; a test compares a few splits, usually with a tolerance.", "anchors": ["src/line.rs, src/quadratic_bezier.rs, src/cubic_bezier.rs, src/bezier.rs, src/bezier_segment.rs: split"]}
{"id": "C66", "title": "Subdivision tiles the curve and adaptive flattening terminates", "statement": "Halving a quadratic or cubic curve n times with split(0.5) gives 2^n parts, the k-th being the curve over [k/2^n,(k+1)/2^n]. Halving until is_linear(tol) or is_a_point(tol) holds terminates for every curve and every tol > 0; the baselines of the parts form a connected polyline from start to end with corners on the curve, and every curve point is within tol (quadratic) or sqrt(2)*tol (cubic) of it. With is_linear alone it does not terminate on a degenerate curve.", "quantifier": "every quadratic and cubic curve in every dimension, every tolerance > 0, every depth; exact arithmetic", "why_tests_cant": "Termination and tolerance for all curves and unbounded recursion depth.", "anchors": ["src/quadratic_bezier.rs, src/cubic_bezier.rs: split, is_linear, is_a_point, baseline"]}
{"id": "C67", "title": "Rounding errors of the specialised evaluation functions", "statement": "In every float format with unit roundoff and underflow threshold at most 2^-10 (f64 and f32 included), for t in [0,1] and coordinates of magnitude at most M away from overflow: LineSegment::eval, QuadraticBezier::eval / eval_casteljau and CubicBezier::eval / eval_casteljau return finite coordinates within explicit bounds of order u*M (6u, 6u+, 13u, 9u+, 20u) of the exact curve; hence eval and eval_casteljau agree up to rounding.", "quantifier": "every float format, dimension, curve with bounded coordinates, float parameter in [0,1]", "why_tests_cant": "error analysis over all float inputs.", "anchors": ["src/line.rs: eval", "src/quadratic_bezier.rs, src/cubic_bezier.rs: eval, eval_casteljau"]}
{"id": "C68", "title": "Variation diminishing", "statement": "A Bezier curve of any degree and dimension meets a hyperplane at no more parameters in (0,1) than the control polygon has sign changes with respect to it, unless all control points lie on the hyperplane.", "quantifier": "every N, dimension, control polygon, hyperplane", "why_tests_cant": "bound on the number of solutions for all curves and hyperplanes.", "anchors": ["src/bezier.rs: eval", "src/line.rs, src/quadratic_bezier.rs, src/cubic_bezier.rs: eval"]}
{"id": "C69", "title": "Sorted control points give a monotone curve", "statement": "If the control points do not move backwards in some direction (in particular: their coordinates on an axis are sorted) then neither does the curve on [0,1].", "quantifier": "every N, dimension, control polygon, direction, s <= t in [0,1]", "why_tests_cant": "monotonicity over a continuum for all curves.", "anchors": ["src/bezier.rs: eval", "src/quadratic_bezier.rs, src/cubic_bezier.rs: eval"]}
{"id": "C70", "title": "Bounding boxes are consistent with each other", "statement": "The bounding box of a quadratic or cubic curve lies inside the box of its control points; the boxes of the two parts of split(t) lie inside the box of the curve and together cover it, up to EPSILON/8 (quadratic) or EPSILON/3 (cubic); translating the curve translates the box exactly.", "quantifier": "every quadratic and cubic curve in every dimension, every t in [0,1], every translation", "why_tests_cant": "relation between results over all curves and split parameters.", "anchors": ["src/quadratic_bezier.rs: bounding_box, split", "src/cubic_bezier.rs: bounding_box, split"]}
{"id": "C71", "title": "arclen behaves like a length", "statement": "arclen(n) never decreases when n is replaced by a multiple, never exceeds the length of the control polygon (so neither does the true arc length), is at least the distance from the first sample to the end, is unchanged by translations and rotations and scales with similarities. Reversing the control points leaves it unchanged.", "quantifier": "every quadratic, cubic and generic curve, every n and multiple, every similarity of the space", "why_tests_cant": "relations between results for unboundedly many step counts, curves and maps.", "anchors": ["src/quadratic_bezier.rs: arclen", "src/cubic_bezier.rs: arclen", "src/bezier.rs: arclen"]}
{"id": "C72", "title": "Evaluation is stable under moving the control points", "statement": "If no control point moves by more than d, no point of the curve moves by more than d. This holds for lines, quadratic, cubic and generic Bezier curves on [0,1] and for B-splines on every kind of knot vector wherever evaluation succeeds up to knots[C]; moving control points never changes whether evaluation succeeds.", "quantifier": "every pair of control polygons, every parameter", "why_tests_cant": "a Lipschitz bound over all pairs of inputs.", "anchors": ["src/line.rs, src/quadratic_bezier.rs, src/cubic_bezier.rs, src/bezier.rs: eval", "src/bspline.rs: eval"]}
{"id": "C73", "title": "Curves move at bounded speed", "statement": "If neighbouring control points are at most M apart, the points at parameters s and t are at most degree*M*|t-s| apart; for a line segment the distance is exactly its length times |t-s|.", "quantifier": "every curve of every degree, all 0 <= s <= t <= 1", "why_tests_cant": "a bound over all curves and pairs of parameters.", "anchors": ["src/line.rs, src/quadratic_bezier.rs, src/cubic_bezier.rs, src/bezier.rs: eval"]}
{"id": "C74", "title": "A finite computed point certifies finite inputs", "statement": "In floating point, if a coordinate of an evaluated point (any evaluation method of lines, quadratic, cubic and generic Bezier curves) is finite, then the parameter and that coordinate of every control point are finite; if it is not NaN, none of those is NaN. The same holds for squared_length.", "quantifier": "every floating-point format, every curve of every degree, every parameter including NaN and infinities", "why_tests_cant": "ranges over all special values in all positions for all degrees.", "anchors": ["src/line.rs, src/quadratic_bezier.rs, src/cubic_bezier.rs: eval, eval_casteljau", "src/bezier.rs: eval", "src/point_generic.rs: squared_length"]}
{"id": "C75", "title": "NaN input gives a NaN distance", "statement": "If any coordinate of the segment or curve or of the query point is NaN, distance_to_point returns NaN rather than an ordinary number.", "quantifier": "every floating-point format, every segment and curve, every position of the NaN", "why_tests_cant": "ranges over all curves with a NaN in any position.", "anchors": ["src/line.rs, src/quadratic_bezier.rs, src/cubic_bezier.rs, src/bezier.rs: distance_to_point"]}
{"id": "C76", "title": "Distances do not depend on the position and scale by the scale factor", "statement": "Applying a similarity (translation, rotation, reflection, scaling by r > 0) to a segment or curve and to the query point multiplies the result of distance_to_point by r.", "quantifier": "every similarity, also between spaces of different dimension, every segment and curve, every query point", "why_tests_cant": "ranges over all similarities, curves and points.", "anchors": ["src/line.rs, src/quadratic_bezier.rs, src/cubic_bezier.rs, src/bezier.rs: distance_to_point"]}
{"id": "C77", "title": "Flatness and point tests are coherent", "statement": "is_linear and is_a_point accept with every larger tolerance what they accept with a smaller one; their answers do not change under rigid motions or when the curve is traversed backwards.", "quantifier": "every quadratic and cubic curve, all pairs of tolerances, every rigid motion", "why_tests_cant": "relational claim over pairs of tolerances and over all motions.", "anchors": ["src/quadratic_bezier.rs, src/cubic_bezier.rs: is_linear, is_a_point"]}
{"id": "C78", "title": "Degree elevation describes the same curve", "statement": "Writing a curve with one degree more (standard degree elevation of the control points) changes neither its points nor the results of arclen and distance_to_point, and for a quadratic written as a cubic neither the points of the derivative.", "quantifier": "every curve of every degree, every parameter, step count and query point", "why_tests_cant": "ranges over all degrees and control polygons.", "anchors": ["src/line.rs, src/quadratic_bezier.rs, src/cubic_bezier.rs, src/bezier.rs: eval, arclen, distance_to_point"]}
{"id": "C79", "title": "B-splines do not depend on the units of the parameter", "statement": "Replacing every knot u by r u + c (r > 0) and the parameter t by r t + c leaves the result of eval unchanged.", "quantifier": "every degree, knot vector, control points, parameter, scale r > 0 and shift c", "why_tests_cant": "relational claim over pairs of splines with reals as scale factors; it only fails at scales comparable to the machine epsilon.", "anchors": ["src/bspline.rs: eval, find_span, de_boor_iterate"]}
{"id": "C80", "title": "B-spline evaluation commutes with affine maps", "statement": "Mapping the control points by an affine map and evaluating gives the image of the evaluated point, with errors unchanged; the same for the linear part and the derivative.", "quantifier": "every knot vector, control points, parameter and affine map, also between point types", "why_tests_cant": "quantifies over all maps and splines.", "anchors": ["src/bspline.rs: eval, derivative, de_boor_iterate"]}
{"id": "C81", "title": "B-splines are continuous piecewise polynomials", "statement": "Between two knots each coordinate of eval is a polynomial in t of degree at most DEGREE, and the pieces fit together continuously at simple knots and at the ends of the domain.", "quantifier": "every degree and clamped knot vector, every span and every parameter in it", "why_tests_cant": "a claim about the functional form over an interval of reals; continuity is a limit statement.", "anchors": ["src/bspline.rs: eval, de_boor_iterate"]}
{"id": "C82", "title": "A B-spline with knots 0..0 1..1 is the Bezier curve", "statement": "With DEGREE + 1 zeros followed by DEGREE + 1 ones as knots, BSpline::eval(t) equals Bezier::eval(t) for the same control points and every t in [0,1].", "quantifier": "every degree, control points and t in [0,1]", "why_tests_cant": "ranges over all degrees and real parameters and relates two independent implementations.", "anchors": ["src/bspline.rs: eval", "src/bezier.rs: eval"]}
{"id": "C83", "title": "B-spline evaluation is numerically stable", "statement": "In floating point, eval of a spline clamped at one end at least inside a knot span returns a finite point whose distance to the value of the same algorithm in exact arithmetic is bounded by a small multiple of the unit roundoff (and of the machine epsilon relative to the length of the span) times the size of the control points.", "quantifier": "every IEEE-like format, degree, knot vector with finite knots that is clamped, up to the machine epsilon, at one end at least, control points of bounded magnitude, every float in a span", "why_tests_cant": "ranges over all formats, degrees, knot vectors and floats; rounding errors of untested inputs are not sampled.", "anchors": ["src/bspline.rs: eval, de_boor_iterative"]}
{"id": "C84", "title": "Floating-point bounding boxes contain the curve up to rounding", "statement": "In floating point, bounding_box of a Bezier curve with coordinates bounded by M returns finite intervals which contain the exact curve over [0, 1] up to a few units of roundoff times M (plus the machine epsilon), and whose ends are within a few units of roundoff of points of the exact curve.", "quantifier": "every IEEE-like format, dimension, quadratic or cubic curve with finite coordinates not close to overflow, and every real parameter in [0, 1]", "why_tests_cant": "ranges over all formats and all floats; the failing cubic curves are a thin set which random tests do not hit.", "anchors": ["src/quadratic_bezier.rs: bounding_box, real_roots", "src/cubic_bezier.rs: bounding_box", "src/line.rs: root"]}
{"id": "C85", "title": "The four-cubic circle has the advertised radial error everywhere", "statement": "The four cubic curves with control offset 0.551915024494 which approximate the unit circle keep a distance to the origin within 0.00019608 of 1 for every parameter in [0, 1], both for the exact curve and for every value eval returns in binary64.", "quantifier": "the four quadrants, every real parameter in [0,1] and every binary64 parameter in [0,1]", "why_tests_cant": "the test samples about a thousand parameters; the extremal error lies between samples and the float grid is far too large.", "anchors": ["src/cubic_bezier.rs: eval", "src/cubic_bezier.rs: tests::circle_approximation_error"]}
{"id": "C86", "title": "Floating-point subdivision traces the curve up to rounding", "statement": "In floating point, split at a float t in [0,1] returns two curves with finite control points which, as exact curves, agree with the parts [0,t] and [t,1] of the original exact curve up to a few units of roundoff times the size M of the coordinates; after k successive splits at arbitrary floats the deviation is at most k times that.", "quantifier": "every IEEE-like format, dimension, quadratic/cubic/generic curve with coordinates not close to overflow, every float t in [0,1], every finite sequence of splits", "why_tests_cant": "ranges over all formats, all floats and split sequences of any length.", "anchors": ["src/quadratic_bezier.rs: split", "src/cubic_bezier.rs: split", "src/bezier.rs: split"]}
{"id": "C87", "title": "Panics are decided by sizes and indices, not by numbers", "statement": "For every scalar type (floats with NaN, infinities and any rounding): distance_to_point, is_linear, arclen, root finding and split never panic on fixed-degree curves; axis and dd panic exactly for an axis outside the dimension; solve_t_for_axis returns at most three parameters, all passing 0 < t and t < 1; the generic Bezier methods panic exactly when N is 0 (eval, distance_to_point, and arclen of more than one step, since one step or none evaluates nothing) or 1 (derivative); bounding_box of quadratics and cubics panics only if two scalars are incomparable.", "quantifier": "every scalar type and arithmetic, every dimension, curve, parameter, tolerance, axis, number of control points", "why_tests_cant": "ranges over all float inputs including special values and all sizes; fixed-capacity vectors and index arithmetic must be safe on every path.", "anchors": ["src/line.rs", "src/quadratic_bezier.rs", "src/cubic_bezier.rs", "src/bezier.rs", "src/roots.rs"]}
{"id": "C88", "title": "Distance to a point in floating point", "statement": "In IEEE arithmetic with control points bounded by M and no overflow, squared_length has relative error (1+u)^(n+1)-1 plus an underflow term, and distance_to_point of quadratics, cubics and generic Bezier curves does not panic, returns a finite non-negative number, exceeds the true distance to the curve by at most (1+u)^(n+3) times degree*D/64 (D the largest control polygon step) plus the rounding error of evaluation, and equals, up to the rounding of one distance computation, the distance to the start or to the library's own evaluation at some k/4096. For binary64 plane cubics with coordinates below 1e9: at most (1+1e-15)(true + 3D/64) + 1e-14 M + 1e-25.", "quantifier": "every float format with the stated unit roundoff, every dimension, number of control points, curve, point, size bound M", "why_tests_cant": "a universally quantified accuracy bound over all float curves and points; comparisons inside the search are made on rounded distances, so correctness needs an error analysis of every branch.", "anchors": ["src/quadratic_bezier.rs distance_to_point", "src/cubic_bezier.rs distance_to_point", "src/bezier.rs distance_to_point", "src/point_generic.rs squared_length"]}
{"id": "C89", "title": "Segment distances and flatness tests survive rounding", "statement": "In floating point, whenever LineSegment::distance_to_point returns a finite number, that number is, up to stated rounding errors, at least the true distance from the point to the segment; hence is_linear(tol) and is_a_point(tol) on quadratic and cubic curves are sound up to stated rounding errors (every point of the curve is within the slightly enlarged tolerance of the segment between the endpoints, respectively of the start point). Conversely, for a point that projects onto the line before the end of the segment by more than the rounding error of the projection, the result exceeds the distance to any point of the segment by rounding errors only (for f64 plane segments of length at least 1, coordinates up to M <= 1e9 and projection before 99.99 %: relative 1e-15, absolute 1e-13 M + 1e-25), so is_linear accepts curves that are flat enough.", "quantifier": "all floating-point formats satisfying the format laws, all dimensions n with (n+4)u <= 1/64, all finite points without overflow, all finite tolerances; numeric versions for all f64 inputs with coordinates up to 1e9", "why_tests_cant": "the claims bound accumulated rounding over all finite inputs, including the rounding of the projection parameter and of its clamping, and all parameters of the curve", "anchors": ["src/line.rs: LineSegment::distance_to_point", "src/quadratic_bezier.rs: QuadraticBezier::is_linear, is_a_point", "src/cubic_bezier.rs: CubicBezier::is_linear, is_a_point"]}
{"id": "C90", "title": "solve_t_for_axis on quadratic curves survives rounding", "statement": "In floating point, at every parameter returned by QuadraticBezier::solve_t_for_axis(value, axis) the exact curve has the requested coordinate up to a rounding error proportional to the magnitude of the coordinates.", "quantifier": "all floating-point formats satisfying the format laws, all dimensions, all axes, all finite control points and values without overflow; numeric version for all f64 inputs with coordinates up to 1e6", "why_tests_cant": "the quadratic formula loses accuracy in a continuum of cancellation patterns; the bound has to cover all of them, and the failure needs a carefully rounded witness", "anchors": ["src/quadratic_bezier.rs: QuadraticBezier::solve_t_for_axis, real_roots"]}
{"id": "C91", "title": "Tangents, higher derivatives and integrals are consistent", "statement": "At its ends a curve of degree n moves along the first and last leg of its control polygon, n times the leg; the derivatives of the two pieces of split(t) of a quadratic, cubic or generic curve are the derivative of the whole curve scaled by t and 1-t, so the pieces join without a kink (for LineSegment::split, which cuts at the wrong place, the factors are -t and 1+t); integrating derivative() between two parameters gives the difference of the points; derivative() called k < N times in a row evaluates to the k-th derivative, and the N-th call panics.", "quantifier": "all point types and dimensions, all numbers N >= 2 of control points, all parameters (also outside [0,1]), all k < N; lines, quadratic, cubic and generic curves", "why_tests_cant": "the claims are identities of functions on all real parameters and for every degree, including integrals and arbitrarily high derivatives", "anchors": ["src/bezier.rs: Bezier::derivative, Bezier::split, Bezier::eval", "src/quadratic_bezier.rs: QuadraticBezier::derivative, split", "src/cubic_bezier.rs: CubicBezier::derivative, split", "src/line.rs: LineSegment::derivative"]}
{"id": "C92", "title": "Rounding errors of derivatives", "statement": "In any IEEE-like floating-point format with unit roundoff u and underflow error eta (both at most 2^-10), for finite control points with coordinates of magnitude at most M and every float parameter in [0, 1]: derivative() followed by eval returns finite coordinates within 38uM + 11eta (quadratic), ((1+u)^6-1)(27/4 M + 9eta) + 15uM + (88M+22)eta (cubic), and (N-1)(5uM + 3eta) plus the error bound of eval (Bezier with N <= 1025 control points, never panicking) of the mathematical derivative of the exact curve; LineSegment::derivative is within 2uM + eta; QuadraticBezier::dd is within 35uM + (12M+7)eta and does not panic. CubicBezier::dd is within 164uM + (73M+10)eta of its exact formula (the derivative plus 3t(t-1) start, see C23). The control points of BSpline::derivative (degree D from 1 to 1024) are finite and within 11 u M r + (2r + 3M + 2) eta of r (P[i+1] - P[i]), where r = D/(k[i+D+1] - k[i+1]), unless the two knots are equal: then they are infinite or NaN on every axis. In f64 with coordinates up to 1000 these are below 1e-10.", "quantifier": "all float formats of the given precision, all dimensions, all finite control points, all float parameters in [0, 1], every number of control points from 2 to 1025", "why_tests_cant": "a test compares a few results to reference values; a bound on the error for all inputs and all float formats needs an argument about each rounding", "anchors": ["src/line.rs: LineSegment::derivative", "src/quadratic_bezier.rs: QuadraticBezier::derivative, dd", "src/cubic_bezier.rs: CubicBezier::derivative, dd", "src/bezier.rs: Bezier::derivative", "src/bspline.rs: BSpline::derivative"]}
{"id": "C93", "title": "A curve determines its control points, and == is equality of curves", "statement": "Two Bezier curves with N control points which agree at N different parameters have the same control points (and N-1 parameters are not enough). For LineSegment, QuadraticBezier and CubicBezier, a == b holds exactly when the curves agree at every (equivalently at degree + 1) parameters; for BezierSegment exactly when moreover the degrees agree, so the same curve stored with another degree compares as different. In floating point == is exactly: same coordinates, none of them NaN. Iterating mutably over a point visits the axes in order and changes only the written coordinates.", "quantifier": "all curves, all point types, all sets of parameters; all float formats for the last part", "why_tests_cant": "the claim quantifies over pairs of curves and all parameters: no finite number of comparisons shows that different control points always give different curves", "anchors": ["src/line.rs: derive(PartialEq) LineSegment", "src/quadratic_bezier.rs: derive(PartialEq) QuadraticBezier", "src/cubic_bezier.rs: derive(PartialEq) CubicBezier", "src/bezier_segment.rs: derive(PartialEq) BezierSegment", "src/point_generic.rs: IntoIterator for &mut PointN", "src/bezier.rs: Bezier::eval"]}
{"id": "C94", "title": "Effect of moving one control point", "statement": "Replacing control point k of a Bezier curve (for instance through the mutable iterator) moves the point at t by exactly the k-th Bernstein polynomial at t times the displacement; on [0,1] the point moves by that fraction of the distance, every point strictly inside moves, and none moves further than the point at parameter k/(N-1). The same for each control point of LineSegment, QuadraticBezier and CubicBezier.", "quantifier": "all degrees, all control points, all displacements, all parameters", "why_tests_cant": "the location of the largest influence is a statement about all parameters and all degrees", "anchors": ["src/bezier.rs: Bezier::eval, IntoIterator for &mut Bezier", "src/line.rs: LineSegment::eval", "src/quadratic_bezier.rs: QuadraticBezier::eval", "src/cubic_bezier.rs: CubicBezier::eval"]}
{"id": "C95", "title": "Arc length is additive under split", "statement": "Splitting a curve at t = m/n, arclen(m) of the first part plus arclen(n-m) of the second part equals arclen(n) of the whole; and for every t in [0,1] the limits of arclen(n) of the two parts add up to the limit of arclen(n) of the whole.", "quantifier": "all curves of all degrees, all m < n, all t in [0, 1]", "why_tests_cant": "both halves quantify over all curves and step counts, and the second is about limits", "anchors": ["src/bezier.rs: Bezier::split, Bezier::arclen", "src/quadratic_bezier.rs: split, arclen", "src/cubic_bezier.rs: split, arclen"]}
{"id": "C96", "title": "Coordinates are independent and mirror images are exact, in any arithmetic", "statement": "Applying a map that commutes with the point operations to every control point and then calling eval, eval_casteljau, split or derivative gives the same result as calling it first and mapping the result, for any scalar arithmetic (rounding, NaN and infinities included) and with the same panics. In particular each coordinate of a result depends only on that coordinate of the control points, coordinates may be permuted, dropped or repeated, and in f32 and f64 flipping the sign of any selection of coordinates flips exactly these coordinates of every result and leaves arclen, distance_to_point, is_linear and is_a_point unchanged bit for bit.", "quantifier": "all scalar types, all point maps commuting with the operations, all line segments, quadratic, cubic and arbitrary-degree Bezier curves, segments and B-splines, all parameters (also NaN), all step counts and query points", "why_tests_cant": "it quantifies over all arithmetics, maps, curves and parameters, including every pattern of rounding and overflow", "anchors": ["src/line.rs: eval, split, derivative, distance_to_point", "src/quadratic_bezier.rs: eval, eval_casteljau, split, derivative, arclen, distance_to_point, is_linear, is_a_point", "src/cubic_bezier.rs: the same methods", "src/bezier.rs: eval, split, derivative, arclen, distance_to_point", "src/bezier_segment.rs", "src/bspline.rs: eval, derivative", "src/point_generic.rs: PointN"]}
{"id": "C97", "title": "Computed straight lines never go back, and degenerate curves stay put", "statement": "In every floating-point format, with rounding, overflow, infinities and NaN: each coordinate of LineSegment::eval(t) moves in one direction only as t grows, and for t in [0,1] it stays between the start coordinate and the computed value at 1. A curve whose control points are one finite point p evaluates to exactly p, for every finite t, with LineSegment::eval and both eval_casteljau, and split returns two such curves. Both facts stop there: in f64 QuadraticBezier::eval and Bezier::eval of such a degenerate curve can return another point, and eval_casteljau of a quadratic curve with sorted control coordinates can go back.", "quantifier": "all float formats with monotone rounding, all segments (also with infinite or NaN coordinates), all pairs of parameters; all finite points and parameters", "why_tests_cant": "it ranges over all pairs of parameters and all coordinates, and violations are single-ulp events that sampling does not hit", "anchors": ["src/line.rs: LineSegment::eval", "src/quadratic_bezier.rs: eval, eval_casteljau, split", "src/cubic_bezier.rs: eval_casteljau, split", "src/bezier.rs: Bezier::eval"]}
{"id": "C98", "title": "Rounding error of arclen", "statement": "In floating point, arclen(k) of a quadratic, cubic or generic Bezier curve with bounded control points is a finite number, and it differs from what arclen(k) returns in exact arithmetic for the same control points by at most k times an explicit small step error, provided the format represents the integers up to k. In f64, for plane cubics with coordinates up to M <= 10^9, neighbouring control points at most D <= 10^10 apart and 1 <= k <= 10^6 steps, the difference is at most k * (10^-14 (M + D) + 10^-25). So the result exceeds the true length of the curve by no more than that, and falls short by no more than that plus a constant over k. No sample parameter comes out above 1. For a B-spline arclen(k) is, up to a relative error of about (k + dimension) u, the sum of the distances of the computed points at its k+1 pairs of parameters (f64, plane splines of degree up to 8 clamped at both ends, up to a million steps: relative 1e-9 plus 1e-19).", "quantifier": "all float formats with unit roundoff and underflow error up to 1/1024, all dimensions, all numbers of steps and of control points, all bounded control points that do not overflow the squared lengths", "why_tests_cant": "the error bound ranges over all control points and all step counts; a test has no exact value to compare a rounded sum of square roots with", "anchors": ["src/quadratic_bezier.rs: arclen", "src/cubic_bezier.rs: arclen", "src/bezier.rs: Bezier::arclen", "src/point_generic.rs: PointN arithmetic, squared_length"]}
{"id": "C99", "title": "Arc length of B-splines: panics, sign and symmetries", "statement": "BSpline::arclen does not change when the control points undergo a rigid motion and scales with them. For a spline clamped at both ends it never panics, for any number of steps including 0, and its result is never negative.", "quantifier": "all knot vectors that new accepts, all control points, degrees, dimensions and numbers of steps; panics and sign in all float formats, exchanging and negating axes in any arithmetic, scaling in exact arithmetic", "why_tests_cant": "quantifies over all knot vectors, all control points including NaN and infinities, all motions and all step counts", "anchors": ["src/bspline.rs: BSpline::arclen, BSpline::eval, BSpline::new, BSpline::knot_domain"]}
{"id": "C100", "title": "Evaluation and subdivision at dyadic parameters are exact in floating point", "statement": "If the control points lie on a dyadic grid (for instance, have integer coordinates) and t = j / 2^m in [0, 1], then de Casteljau evaluation and split in floating point make no rounding error as long as the exact results fit into the significand: the computed point and the control points of both parts are exactly those of real arithmetic. For example, a double precision cubic with integer coordinates up to 2^22 can be halved ten times, in any way, without any rounding error.", "quantifier": "every float format that contains the fixed-point numbers in question (all IEEE formats do), every dimension, every degree, all control points and dyadic parameters that fit, all sequences of splits", "why_tests_cant": "ranges over all formats, all curves on the grid, all dyadic parameters and all sequences of splits.", "anchors": ["src/line.rs: LineSegment::eval", "src/quadratic_bezier.rs, src/cubic_bezier.rs: eval_casteljau, split", "src/bezier.rs: eval, split"]}
{"id": "C101", "title": "How many steps arclen needs", "statement": "If neighbouring control points are at most D apart, arclen(n) never exceeds the length of the curve and falls short of it by at most degree^2 * D / n: 4 D / n for a quadratic and 9 D / n for a cubic curve. In double precision the rounding error (C98) comes on top.", "quantifier": "every curve of every degree in every dimension, every n >= 1; double precision: plane cubics with coordinates up to 10^9, up to a million steps", "why_tests_cant": "the length of the curve is an integral that the crate does not compute, and the bound is for all curves and all n.", "anchors": ["src/quadratic_bezier.rs: arclen", "src/cubic_bezier.rs: arclen", "src/bezier.rs: arclen"]}
{"id": "C102", "title": "Cuts can be made in any order and undone", "statement": "Cutting a part of a curve again gives exactly the control points of a direct cut: the start part of the start part at t, s is the start part at t*s; the end part of the end part is the end part at t + (1-t)*s; the middle piece is the same whichever end is cut off first. split at 1/t (or -t/(1-t)) of a part gives the whole curve back. Cutting commutes with derivative up to the factor t (or 1-t).", "quantifier": "every curve of every degree in every dimension, all real t and s (outside [0,1] too), except where a parameter of the statement would divide by zero", "why_tests_cant": "equality of all control points for every degree and all real parameters; it follows from uniqueness of control points, which no test shows.", "anchors": ["src/bezier.rs: split, derivative", "src/quadratic_bezier.rs: split", "src/cubic_bezier.rs: split"]}
{"id": "C103", "title": "Culling by bounding boxes is safe", "statement": "Two curves (segments, quadratics, cubics, in any mixture) are nowhere closer than their bounding boxes, so curves with separated boxes do not meet, and a point is not closer to a curve than to its box (up to a fraction of the machine epsilon per axis, which the root finder ignores). Conversely, where the boxes overlap on an axis, the curves do have points with the same coordinate. The diagonal of the box bounds the distance of any two points of the curve.", "quantifier": "all curves of the three types in every dimension, all pairs of parameters in [0,1], all query points; floating point: quadratic curves in every float format", "why_tests_cant": "a statement about every pair of points on every pair of curves.", "anchors": ["src/line.rs: bounding_box", "src/quadratic_bezier.rs: bounding_box", "src/cubic_bezier.rs: bounding_box"]}
{"id": "C104", "title": "The example program draws the right picture", "statement": "The example program does not panic before drawing; every point of the polyline it draws is inside the rectangle it draws as bounding box and inside the polygon it draws as convex hull; the polygon is closed and its corners are the control points; curve, box, polygon and control points all lie inside the chart.", "quantifier": "every point of everything drawn, in binary64, for any implementation of cos, acos and powf", "why_tests_cant": "the example is not run by any test, and a test would have to decide containment in binary64 with the same arithmetic that produced the picture.", "anchors": ["examples/plotters_cubic_bezier.rs: main", "src/cubic_bezier.rs: bounding_box, eval_casteljau"]}
{"id": "C105", "title": "Solving a cubic for an axis value survives rounding", "statement": "In floating point every parameter that CubicBezier::solve_t_for_axis returns is a finite number strictly between 0 and 1, and the exact curve has the requested coordinate there up to an error of the order of the rounding unit, for a curve whose leading coefficient is not small.", "quantifier": "every cubic curve, axis and value whose coordinates are bounded relative to the leading coefficient; every float format and every accurate implementation of cos, acos and powf", "why_tests_cant": "the size of the error depends on cancellation in Cardano's formula, on three library functions and on a single-precision value of pi; a test sees a handful of curves and compares with a tolerance chosen to pass.", "anchors": ["src/cubic_bezier.rs: solve_t_for_axis, real_roots", "src/roots.rs: roots_cubic"]}
{"id": "C106", "title": "A point type of the user's own behaves exactly like PointN", "statement": "For every type implementing Point whose operators, default, equality and squared_length work coordinate by coordinate (axis being the coordinates and the iterator yielding DIM items), every method of every curve type returns what it returns for PointN with the same coordinates: the same points, pieces, lengths, distances, boxes, roots and test results, bit for bit, and it panics or fails in exactly the same cases. If the iterator yields more than DIM items, bounding_box panics; if fewer, the missing coordinates are reported as the interval from 0 to 0.", "quantifier": "every arithmetic (exact or floating point), every user-defined point type meeting the contract, every curve, B-spline, parameter, axis, tolerance and step count", "why_tests_cant": "the tests only use PointN (and no other implementor exists in the repository); a statement about all implementors of a trait ranges over all types", "anchors": ["src/point.rs: Point", "src/point_generic.rs: PointN", "src/line.rs: LineSegment", "src/quadratic_bezier.rs: QuadraticBezier", "src/cubic_bezier.rs: CubicBezier", "src/bezier.rs: Bezier", "src/bspline.rs: BSpline", "src/bezier_segment.rs: BezierSegment"]}
{"id": "C107", "title": "The sign of zero does not matter", "statement": "In IEEE arithmetic with +0 and -0, replacing zeros by zeros of the other sign anywhere in the control points, parameters, query points, tolerances, knots or axis values changes the result of a method at most in the signs of zeros in it: the same panics and errors, the same yes/no answers, the same number of roots, the same non-zero numbers. In particular no infinity changes its sign and no finite result becomes infinite or NaN.", "quantifier": "every floating-point format, every curve, B-spline, point, parameter, tolerance and step count with any values including NaN and infinities", "why_tests_cant": "the tests never use -0.0, and -0.0 also arises inside computations (products with negative numbers, negation, underflow); whether it ever reaches a division is a property of all paths through the code", "anchors": ["src/cubic_bezier.rs: real_roots, solve_t_for_axis, bounding_box", "src/quadratic_bezier.rs: solve_t_for_axis", "src/line.rs: distance_to_point", "src/roots.rs", "src/bspline.rs: BSpline::new, eval, derivative"]}
{"id": "C108", "title": "De Casteljau points never leave the box of the control points in floating point", "statement": "In IEEE arithmetic, LineSegment::eval, QuadraticBezier::eval_casteljau and CubicBezier::eval_casteljau at a parameter 0 <= t < 1, and the control points of both halves returned by split at such a t, have coordinates exactly between the smallest and the largest control coordinate on every axis (no rounding allowance), as long as the extent of the control points is representable. So subdividing any number of times never leaves the box, and bounding_box returns bounds inside the box of the control points. The restriction t < 1 is needed, and the Bernstein forms (QuadraticBezier::eval, Bezier::eval) do not have the property.", "quantifier": "all curves of any dimension with finite coordinates whose extent does not exceed the largest finite number, all float parameters in [0, 1), all sequences of subdivisions; binary64, binary32 and any other binary format with rounding to nearest even", "why_tests_cant": "whether a rounded step (b - a) * t can be longer than b - a depends on the last bit of every operand; the same formula does overshoot at t = 1, so the property is a fact about all 2^64 parameters and coordinates, not about samples", "anchors": ["src/line.rs: eval", "src/quadratic_bezier.rs: eval_casteljau, split, bounding_box", "src/cubic_bezier.rs: eval_casteljau, split, bounding_box"]}
{"id": "C109", "title": "bounding_box panics exactly for NaN end points", "statement": "In IEEE arithmetic, bounding_box of a quadratic or cubic curve panics if and only if some coordinate of its start or end point is NaN. Infinite coordinates, NaN or infinite inner control points, and overflow anywhere inside the computation never make it panic. On an axis where any control coordinate is NaN or infinite, the returned bounds are those of the two end points.", "quantifier": "all quadratic and cubic curves of any dimension with any coordinates whatsoever, including NaN, infinities and values near overflow; binary64 and binary32", "why_tests_cant": "the sort unwraps partial_cmp, so a NaN arising anywhere in the extrema (infinity minus infinity, zero times infinity after an overflow) would panic; that none arises needs an argument about every overflow pattern", "anchors": ["src/quadratic_bezier.rs: bounding_box", "src/cubic_bezier.rs: bounding_box, real_roots", "src/line.rs: root"]}
{"id": "C110", "title": "Flattening by halving in floating point: when it stops, and how good the polyline is", "statement": "A user flattens a quadratic or cubic curve by split(0.5), recursively, until is_linear(tol) or is_a_point(tol) holds, computing in floating point. Let M bound the coordinates. The recursion stops, at the latest at depth k, if tol² is at least 12n(2M/2^k + 2(19uM+13η))² + 3nη (quadratic) or 27n(2M/2^k + 2(33uM+23η))² + 3nη (cubic); such a k exists for every tolerance above about 7√n (11√n) rounding errors of the coordinates. When it has stopped, the baselines form a connected polyline from the exact start to the exact end point, no control point has left the range [-M, M], the vertices lie on the exact curve up to k times the error of one split, and every point of the exact curve is within the tolerance of the polyline, up to the rounding errors of the tests and of k splits. For smaller tolerances it may recurse for ever: in f32 there are curves with coordinates about 64 for which every tolerance up to 2^-17 never stops.", "quantifier": "all quadratic and cubic curves with finite coordinates bounded by M (3M+2 ≤ MAX), all dimensions n, all tolerances and depths as stated, all float formats with u, η ≤ 1/1024, (n+3)u ≤ 1/4 that contain 1/2 and round as the IEEE formats do", "why_tests_cant": "Termination for all curves and an error bound over all points and all depths are universal statements; a test run only shows that one input stopped.", "anchors": ["src/quadratic_bezier.rs: split, is_linear, is_a_point, baseline", "src/cubic_bezier.rs: split, is_linear, is_a_point, baseline", "src/line.rs: distance_to_point", "src/point_generic.rs: squared_length"]}
{"id": "C111", "title": "Which evaluation forms keep the order of control points in floating point", "statement": "If no control coordinate of one curve is larger than that of another, and t is neither below 0 nor above 1, then no coordinate of the computed point of the first curve is larger than that of the second, with all rounding errors, overflow, underflow and infinite or NaN coordinates (NaN is not larger than anything). This holds for QuadraticBezier::eval and axis, CubicBezier::eval and axis, eval and both halves of split of the generic Bezier with any number of control points, and eval of BSplines of any kind and degree with the same finite knots, with one exception: at the last knot of a spline clamped at the front only, where a spline with all control coordinates v can evaluate to -v. In particular, curves with non-negative coordinates never evaluate to negative ones. It fails for LineSegment::eval and for eval_casteljau of quadratic and cubic curves, which compute a + (b - a) * t: in f64 there are two curves, one below the other, whose computed points at t = 1 are 2^-60 for the lower and 0 for the upper one.", "quantifier": "all pairs of curves, all dimensions, all parameters not outside [0,1], all float formats; for B-splines all finite knot vectors whose range does not overflow", "why_tests_cant": "An exact order relation between two computed results for all pairs of inputs, including special values, cannot be sampled; rounding errors make it plausible that it fails for rare inputs, and for two of the forms it does.", "anchors": ["src/quadratic_bezier.rs: eval, axis, eval_casteljau", "src/cubic_bezier.rs: eval, axis, eval_casteljau", "src/bezier.rs: eval, split", "src/bspline.rs: eval, de_boor_iterative", "src/line.rs: eval"]}
{"id": "C112", "title": "Drawing a curve by equal steps: how far the polyline is from the curve", "statement": "A user draws a Bezier curve with N control points as the polyline eval(0), eval(1/n), ..., eval(1). Let A bound the distance between consecutive legs p[k+1]-p[k] of the control polygon (as vectors). Every point of the curve is within (N-1)(N-2)A/(8n²) of the chord of its step: A/(4n²) for a quadratic and 3A/(4n²) for a cubic curve. So ceil(sqrt((N-1)(N-2)A/(8 tol))) steps suffice for a tolerance tol. The bound for quadratics is exact, not just an estimate. In floating point, between two float parameters s and t, the exact curve is within the same bound with (t-s) for the step, plus the rounding error of one evaluation, of the segment between the computed points.", "quantifier": "all point types and dimensions, all numbers of control points, all numbers of steps n ≥ 1, all t in [0,1]; floating point: quadratic and cubic eval, all formats with u, η ≤ 1/1024, coordinates bounded away from overflow", "why_tests_cant": "The distance bound holds at the uncountably many parameters between the samples and for every number of steps; a test can only look at some of them.", "anchors": ["src/bezier.rs: eval", "src/quadratic_bezier.rs: eval", "src/cubic_bezier.rs: eval", "examples/plotters_cubic_bezier.rs: main"]}
{"id": "C113", "title": "A convex control polygon gives a convex curve", "statement": "If on some axis the steps p[k+1]-p[k] of the control points do not decrease, then that coordinate of eval(t) is a convex function of t on [0,1]: the curve never lies above one of its chords on that axis.", "quantifier": "all point types and dimensions, all numbers of control points, all pairs of parameters in [0,1] and all parameters in between; generic, quadratic and cubic curves", "why_tests_cant": "Convexity compares all triples of parameters on all curves with a convex control polygon.", "anchors": ["src/bezier.rs: eval", "src/quadratic_bezier.rs: eval", "src/cubic_bezier.rs: eval"]}
{"id": "C114", "title": "A reversed generic Bezier curve is the same curve bit for bit, the specialised types are not", "statement": "In floating point, listing the control points of a generic Bezier in reverse order gives, for every t from 1/2 to 1, exactly the point at 1-t of the original at t, and exactly the point at t of the original at 1-t (computed as 1.0 - t, which is exact there). split at t gives the reversed parts of the original at 1-t, swapped; so midpoint and halves do not depend on the direction. derivative gives exactly the negated control points in reverse order. This includes infinite and NaN coordinates. It needs 1-t to be exact: at t = 2^-60 a line from 1 to 0 gives another result reversed. LineSegment::eval, QuadraticBezier::eval, QuadraticBezier::eval_casteljau and CubicBezier::eval do not have the property, not even at t = 1/2.", "quantifier": "all numbers of control points, all dimensions, all coordinates, all floating point t in [1/2,1], all binary formats; in any arithmetic with commutative point addition for all t, t' with t' = 1-t and t = 1-t' as computed", "why_tests_cant": "Equality bit for bit over all curves of all degrees and all parameters of a format; for the specialised types the first difference is one ulp and needs particular coordinates.", "anchors": ["src/bezier.rs: eval", "src/bezier.rs: split", "src/bezier.rs: derivative", "src/line.rs: eval", "src/quadratic_bezier.rs: eval", "src/quadratic_bezier.rs: eval_casteljau", "src/cubic_bezier.rs: eval"]}
{"id": "C115", "title": "What a B-spline evaluation depends on, in any arithmetic", "statement": "Whether BSpline::new and eval(t) succeed, return an error (and which) or panic depends on the knots, the numbers of points and t only: no control point values, NaN and infinities included, and no point type or dimension can change it. For given knots and t there is a window of max(D,1) consecutive control points such that eval(t) gives the same result for any two splines that agree in the window. For a spline clamped at one end at least with finite float knots and t in [knots[k], knots[k+1]) the window is k-D, ..., k-1: control point k, on which the curve should depend there, has no influence. For an unclamped spline with finite float knots the first ⌊K/2⌋ - D control points (K knots) have no influence on eval(t) for any t.", "quantifier": "all scalar and point types (exact, floating point, any other arithmetic), all knot vectors and kinds, all control points, all t; the location of the window: all float formats, all splines with finite knots", "why_tests_cant": "Independence from control points ranges over all pairs of control point lists, NaN patterns and point types.", "anchors": ["src/bspline.rs: new", "src/bspline.rs: eval", "src/bspline.rs: de_boor_iterative", "src/bspline.rs: knot_span_start_for_t"]}
{"id": "C116", "title": "Curves that advance on an axis can be inverted on it", "statement": "If the control points of a Bezier curve do not go back on an axis and the last is ahead of the first (a timing curve), the curve is strictly increasing on that axis on [0,1] and takes each value between the two ends at exactly one parameter. For a quadratic curve with a value strictly between its end coordinates, solve_t_for_axis returns exactly one parameter, it is the only one with this value, and eval gives the value back, provided the second difference on the axis is 0 or at least EPSILON and the curve does not end where it starts; the same holds for cubic curves without a cubic term on the axis. For cubic timing curves with a cubic term of at least EPSILON the one parameter is among the returned ones when the discriminant is negative, and, if it is more than delta away from 0 and 1, within delta of a returned one otherwise. With a second difference between 0 and EPSILON the quadratic solver can return nothing.", "quantifier": "all point types and dimensions, all N and control points sorted on the axis, all values between the ends, exact arithmetic", "why_tests_cant": "Existence and uniqueness of a solution range over all sorted control points and a continuum of values; the failing second differences are below 1e-15.", "anchors": ["src/bezier.rs: eval", "src/quadratic_bezier.rs: solve_t_for_axis", "src/cubic_bezier.rs: solve_t_for_axis", "src/roots.rs: roots_square"]}
{"id": "C117", "title": "Curves that always advance have no loops and no cusps", "statement": "If the control points of a Bezier curve never go back in some direction and the last is ahead of the first, the curve strictly advances in this direction on [0,1]: eval gives different points for different parameters, and the velocity given by derivative() has a positive component in this direction at every parameter strictly between 0 and 1. A QuadraticBezier whose control points are not on a line never returns the same point for two parameters, whatever they are. A cubic curve that does go back can cross itself.", "quantifier": "all point types and dimensions, all N, all control points and directions, all pairs of parameters in [0,1] (all real parameters for quadratic curves), exact arithmetic", "why_tests_cant": "Injectivity ranges over all pairs of parameters of all curves; a sampled curve never shows a self-intersection exactly.", "anchors": ["src/bezier.rs: eval, derivative", "src/quadratic_bezier.rs: eval", "src/cubic_bezier.rs: eval"]}
{"id": "C118", "title": "Computed curves do not jump and hardly go back", "statement": "In floating point the points computed at two parameters s, t in [0,1] differ on each axis by at most degree * D * |t-s| plus twice the rounding error, where D is the longest step of the control polygon on that axis; if the control points are sorted on the axis, the computed coordinate at the larger parameter is behind by at most twice the rounding error. This holds for Bezier::eval of every degree and for eval and eval_casteljau of the quadratic and the cubic type. The generic and the specialised types compute the same points up to the sum of their rounding errors.", "quantifier": "all float formats with small unit roundoff, all N, all curves with coordinates bounded by M (no overflow), all pairs of float parameters in [0,1]", "why_tests_cant": "It ranges over all pairs of float parameters and all control points; worst cases of rounding are isolated.", "anchors": ["src/bezier.rs: eval", "src/quadratic_bezier.rs: eval, eval_casteljau", "src/cubic_bezier.rs: eval, eval_casteljau"]}
{"id": "C119", "title": "A flat curve may be replaced by its baseline", "statement": "If is_linear(tol) holds for a quadratic or cubic curve, every point of its baseline is within tol of a point of the curve (not only the other way round, C17 and C28), and the curve is at least as long as the baseline and at most 2 tol (quadratic) or 3 tol (cubic) longer; every arclen(n) obeys the upper bound. If is_a_point(tol) holds, every point of the baseline is within tol/2 of the curve. Consequently every point of a polyline obtained by flattening with split(0.5) until one of the two tests succeeds is within tol of the curve.", "quantifier": "all curves in every dimension, all tolerances, all points of the baseline, all recursion depths and all numbers of steps", "why_tests_cant": "A test compares finitely many points of finitely many baselines; that no baseline point is far from the curve needs a continuity argument, and the length bound a telescoping sum over arbitrarily many chords.", "anchors": ["src/quadratic_bezier.rs: is_linear, is_a_point, baseline, arclen, split", "src/cubic_bezier.rs: is_linear, is_a_point, baseline, arclen, split", "src/line.rs: eval, distance_to_point"]}
{"id": "C120", "title": "Intersecting curves by boxes and subdivision", "statement": "Take two curves, each quadratic or cubic. Discard the pair if on some axis their bounding boxes are more than a margin m apart, otherwise halve both with split(0.5) and repeat on the four pairs of halves to depth n. With m at least two thirds of EPSILON no common point is lost: some reported pair of pieces contains its two parameters. All points of the two pieces of a reported pair agree on every axis up to m plus (speed bound of the first + speed bound of the second)/2^n. So an empty report means that the curves do not meet, and curves that stay apart by more than that bound give an empty report. The same program loses common points of line segments, because their split does not return the halves (C06).", "quantifier": "all pairs of quadratic and cubic curves in every dimension, all margins, all depths, all parameters in [0,1]", "why_tests_cant": "A test intersects finitely many pairs to a fixed depth; a lost intersection depends on where the point lies relative to the box of a piece at some depth.", "anchors": ["src/quadratic_bezier.rs: bounding_box, split, eval", "src/cubic_bezier.rs: bounding_box, split, eval", "src/line.rs: bounding_box, split"]}
{"id": "C121", "title": "The failing properties fail because of the named lines only", "statement": "With the lines that DESIGN.md names changed (the sign in LineSegment::split; the default parameter and the degeneracy test in LineSegment::distance_to_point; t2 for t in CubicBezier::dd; the start of the loop in arclen; the parameters of the second pass in distance_to_point of curves; in BSpline the copied range, the factor, the search, the domain, the step and the end of the loop in arclen, the knots of the derivative; in the root finders the constant π and the comparisons with EPSILON; in solve_t_for_axis the early return) and all else as it is, the statements that are false of the code hold: split cuts at t, distances are the distance to the nearest point, is_linear decides closeness to the base line (unless the end points coincide up to EPSILON), dd is the derivative, arclen is the length of the polyline, unchanged by reversal and additive under split, the distance to a curve is the distance to a point of the curve, the root finders return exactly the real roots, solve_t_for_axis exactly the parameters in (0,1) that hit the value, bounding boxes are exact on every axis, and every accepted B-spline evaluates to the B-spline curve on its domain, has its derivative, stays in the hull, commutes with affine maps and changes of the parameter, starts at its first control point when clamped, is continuous, is a Bezier curve on every span, is the Bezier curve for the knots 0..0 1..1 and has the length of its polyline.", "quantifier": "all segments, curves of all degrees, points, parameters, tolerances, step counts; all accepted B-splines of all kinds", "why_tests_cant": "whether a change makes a property hold for all inputs needs a proof over all of them; it also shows that the specifications used to refute the code are not unsatisfiable", "anchors": ["src/line.rs: split, distance_to_point", "src/cubic_bezier.rs: dd, arclen, distance_to_point, is_linear", "src/quadratic_bezier.rs: arclen, distance_to_point, is_linear", "src/bezier.rs: arclen, distance_to_point", "src/bspline.rs: eval, arclen, derivative", "src/roots.rs: roots_square, roots_cubic"]}
{"id": "C122", "title": "Splitting gives two-sided bounds on the arc length that halving makes tight", "statement": "However a Bézier curve of any degree is cut by calls of split(t) with t in [0,1], the distances between first and last control point of the pieces add up to at most the arc length of the curve, and the control polygons of the pieces add up to at least the arc length. Each cut raises the lower bound or leaves it alone and lowers the upper bound or leaves it alone. After n halvings split(1/2) of a curve with N control points the bounds differ by at most (N-1)(N-2)A/2^n, where A is the largest second difference |p_k - 2 p_(k+1) + p_(k+2)| of its control points; for quadratic curves 2A/2^n, for cubic curves 6A/2^n.", "quantifier": "all curves (quadratic, cubic, generic with any number of control points), all point types of any dimension, all finite sequences of cuts at any parameters in [0,1], all numbers of halvings", "why_tests_cant": "ranges over all sequences of cuts of all curves, and the arc length is an integral that no test can compute exactly", "anchors": ["src/bezier.rs: Bezier::split", "src/quadratic_bezier.rs: QuadraticBezier::split", "src/cubic_bezier.rs: CubicBezier::split"]}
{"id": "C123", "title": "Splitting gives two-sided bounds on the distance to a curve and between curves", "statement": "However a Bézier curve of any degree is cut by calls of split(t) with t in [0,1], the smallest distance from a query point to an endpoint of a piece is at least the distance to the curve over [0,1] and exceeds it by at most half the length of the longest control polygon of the pieces. After n halvings split(1/2) of a curve with N control points the excess is at most (N-1)A/2^(n+1), where A is the longest leg of its control polygon; for quadratic curves A/2^n, for cubic curves 3A/2^(n+1). For two curves, cut in any way, the smallest distance between endpoints of pieces of the one and of the other is at least the distance of the curves and exceeds it by at most half the sum of the lengths of the longest control polygons. (distance_to_point itself gives no such bounds, C16, C27, C40.)", "quantifier": "all curves (quadratic, cubic, generic with any number of control points), all pairs of generic curves, all point types of any dimension, all query points, all finite sequences of cuts at any parameters in [0,1], all numbers of halvings", "why_tests_cant": "ranges over all curves, points and sequences of cuts; the distance is an infimum over a continuum of parameters", "anchors": ["src/bezier.rs: Bezier::split, Bezier::control_points", "src/quadratic_bezier.rs: QuadraticBezier::split", "src/cubic_bezier.rs: CubicBezier::split"]}
{"id": "C124", "title": "The same program in f32 and in f64 gives the same points up to rounding", "statement": "The library computes in f64 on 64-bit targets and in f32 on all others. If a curve and a parameter are passed to `eval` (or `eval_casteljau`) in one floating-point format and nearly the same control points and parameter in another, the two computed points differ on each axis by at most: the largest difference of the control coordinates, plus the difference of the parameters times 2·degree·(largest coordinate), plus the rounding error of each of the two evaluations. In particular a cubic with coordinates of at most 1000, cast from f64 to f32, evaluates in f32 to the f64 point within 0.002 on each axis; casting from f32 to f64 loses nothing.", "quantifier": "All lines, quadratic, cubic and generic Bezier curves of every degree and dimension, all parameters in [0,1] of either format, all pairs of float formats with unit roundoff and subnormal error at most 1/1024, all bounds on the coordinates for which nothing overflows.", "why_tests_cant": "A test compares f32 with f64 for a few curves; the bound is needed for every curve and every pair of parameters, and the worst rounding is never met by sampling.", "anchors": ["src/line.rs: eval", "src/quadratic_bezier.rs: eval, eval_casteljau", "src/cubic_bezier.rs: eval, eval_casteljau", "src/bezier.rs: eval"]}
{"id": "C125", "title": "Debug and release builds give the same results", "statement": "A release build, in which arithmetic on array indices wraps around silently, returns the same value, the same error or panics in the same cases as a debug build, in which overflow panics. No index computation of the generic Bezier curves and B-splines wraps around into a valid index: where a debug build panics because an index would be negative, the release build panics because the index is out of bounds.", "quantifier": "All word sizes w, all generic Bezier curves with N + 1 < 2^w control points and B-splines with 2K + 2 <= 2^w knots (the Rust limit on the size of an array gives this), all parameters, knots and control points over every number type; for B-splines: `new` on any arguments, `eval` of those made by `new` and of their derivatives, `derivative`.", "why_tests_cant": "A wrapped index shows only in a release build and only for the sizes and parameters that make it wrap; running the suite in both profiles compares the two on the sampled curves alone.", "anchors": ["src/bezier.rs: eval, split, derivative", "src/bspline.rs: new, eval, knot_domain, derivative"]}
{"id": "C126", "title": "Sampling a B-spline by equal steps stays in its knot domain", "statement": "The parameters lo + (i/n)*(hi - lo), i = 0..n, that arclen computes in floating point for the knot domain [lo, hi], and that callers compute to draw a spline, are in the domain, start at lo, end at hi and never go back. So eval succeeds at every sample of a clamped spline, the last sample is the last control point, and arclen never falls back to the origin for one of them.", "quantifier": "All floating-point formats, all knot domains with finite end points, all numbers of steps n >= 1 that the format represents, all samples; for the evaluation all splines clamped at both ends.", "why_tests_cant": "Whether the last sample passes the end depends on the last bits of the two knots: 0.0..1.0 works and 0.3..0.9 does not. The unit tests use integer knots, for which nothing is rounded.", "anchors": ["src/bspline.rs: arclen, knot_domain, eval"]}
{"id": "C127", "title": "When curves join into a smooth path", "statement": "The path that follows one Bezier curve from 0 to 1 and then another is continuous exactly when the last control point of the first is the first control point of the second. It is k times continuously differentiable exactly when for every j up to k the j-th derivative curves (derivative() called j times) give the same vector at 1 for the first curve and at 0 for the second. It has no kink, with the second curve run through r times as fast, exactly when the last leg of the first control polygon times its degree is r times the first leg of the second times its degree. For cubic curves: equal end points; mirrored handles; equal second differences of the control points.", "quantifier": "every pair of Bezier curves with any numbers of control points, every order k below both numbers, every speed ratio r; every pair of cubic curves; every dimension", "why_tests_cant": "smoothness is a statement about limits at the joint, for all curves of all degrees, and the converse (nothing less is enough) cannot be tested at all", "anchors": ["src/bezier.rs: Bezier::eval, Bezier::derivative", "src/cubic_bezier.rs: CubicBezier::eval, CubicBezier::derivative"]}
{"id": "C128", "title": "A curve can be walked at constant speed by cutting it at the right lengths", "statement": "The values arclen(n) of a curve have a limit L as n grows, its length. For every s between 0 and L there is a t in [0,1] such that the first piece of split(t) has length s; unless all control points coincide the t is unique, and larger s have larger t. The piece between two such parameters has the difference of the two lengths as its length, and the points of the curve at the two parameters are at most that far apart. A walk that is at the point belonging to s at time s moves at speed 1: where the derivative of the curve is not zero, its velocity is the unit vector in the direction of derivative().", "quantifier": "every Bezier curve with at least one control point (not all equal for uniqueness and speed), every quadratic and cubic curve, every length between 0 and L, every pair of parameters", "why_tests_cant": "existence and uniqueness of the parameter, limits of arclen and the velocity of the walk are statements about all real lengths and all curves", "anchors": ["src/bezier.rs: Bezier::arclen, Bezier::split, Bezier::derivative", "src/quadratic_bezier.rs: QuadraticBezier::arclen, QuadraticBezier::split", "src/cubic_bezier.rs: CubicBezier::arclen, CubicBezier::split"]}
{"id": "C129", "title": "Bisection on a computed coordinate finds the parameter to full precision", "statement": "A caller who halves the parameter interval [0, 1] and keeps the half on which the coordinate returned by eval passes a value v always keeps a bracket: in any arithmetic the coordinate computed at the lower end stays below v and the one at the upper end does not fall below v. In floating point the midpoints are exact (as many halvings as the significand has bits), no call panics, after k steps the bracket is exactly 2^-k wide, and at the parameter found the coordinate of the true curve differs from v by at most degree * longest step of the control polygon * 2^-k plus one evaluation error. The coordinate need not be monotone. For a cubic curve in f64, 52 halvings give 1e-14 times the size of the curve, without the loss of digits of solve_t_for_axis.", "quantifier": "All control points of bounded size, all dimensions and axes, all degrees (generic type) and all cubic curves, all values v between the coordinates of the end points, all numbers of halvings, all floating point formats with a full dyadic grid.", "why_tests_cant": "The bracket invariant and the error bound range over all curves, values and numbers of steps; a test sees a handful of curves and cannot distinguish a lost bracket from rounding noise.", "anchors": ["src/bezier.rs: Bezier::eval", "src/cubic_bezier.rs: CubicBezier::eval", "src/point.rs: Point::axis"]}
{"id": "C130", "title": "Intersecting curves by boxes and subdivision in floating point", "statement": "A user intersects two curves in floating point: discard the pair if on some axis a.0 <= b.1 + m or b.0 <= a.1 + m fails for their boxes a and b, otherwise halve both with split(0.5) and repeat on the four pairs of halves to depth k. If the margin m covers the rounding errors of the boxes and of k splits, no common point of the exact curves is lost: some reported pair of pieces covers its two parameters. On the parameters of a reported pair the exact curves agree on every axis up to m, a bound that halves with every level, and rounding. In binary64, with coordinates up to M (1 to 10^20) and depth up to 50, a margin of 10^-12 M is enough. This is to hold with bounding_box as the box.", "quantifier": "all float formats that round as IEEE formats do, all dimensions, all pairs of quadratic and cubic curves with finite coordinates up to M (9M+2 ≤ MAX), all finite margins as stated, all depths, all real parameters in [0,1]", "why_tests_cant": "Whether an intersection is lost depends on the rounding of every box and split on the path to it; the failing cubic curves are a thin set.", "anchors": ["src/quadratic_bezier.rs: bounding_box, split", "src/cubic_bezier.rs: bounding_box, split"]}
{"id": "C131", "title": "Between two knots a B-spline is a Bezier curve", "statement": "For every accepted knot vector clamped on at least one side and every non-empty span [knots[k], knots[k+1]) of the domain there is a Bezier curve with DEGREE + 1 control points (only one, if the span is longer than the machine epsilon) whose eval at (t - knots[k]) / (knots[k+1] - knots[k]) is BSpline::eval(t) for every t of the span that is not within the machine epsilon above a knot. Its control points are combinations of the control points k - DEGREE, ..., k of the span with non-negative weights of sum 1 that depend on the knots only, the code counting the control point k as the origin.", "quantifier": "all degrees, numbers of control points, knot vectors, spans, control points and parameters of the span, in exact arithmetic", "why_tests_cant": "A test compares two curves at finitely many parameters of one spline; that the extracted control points exist for every knot vector, with weights independent of the control points, ranges over all real knots and points.", "anchors": ["src/bspline.rs: BSpline::new, BSpline::eval, BSpline::de_boor_iterative", "src/bezier.rs: Bezier::eval"]}
{"id": "C132", "title": "The length of an accepted B-spline can be computed", "statement": "BSpline::arclen(nsteps) returns a value, without panicking, for every spline that BSpline::new accepts and every nsteps. (False of the code: it holds exactly when none of the parameters knots_min + i/nsteps * (knots_max - knots_min) and one step further, i = 0, ..., nsteps, is one at which eval panics; it therefore always holds for splines clamped at both ends, and never, for nsteps >= 1, for splines clamped at the end only.)", "quantifier": "all knot vectors that new accepts, of each of the four kinds, all degrees, control points and numbers of steps; the reduction to evaluations in any arithmetic", "why_tests_cant": "Whether a sample hits a panicking parameter depends on the knots, the degree and the number of steps together; tests fix all three.", "anchors": ["src/bspline.rs: BSpline::arclen, BSpline::eval, BSpline::new, BSpline::knot_domain"]}
{"id": "C133", "title": "Lengths, boxes and point tests change little when control points are moved", "statement": "If no control point of a Bezier curve moves by more than d, arclen(n) changes by at most 2*degree*d for every n (4d for a quadratic, 6d for a cubic), and so does the true arc length. If on an axis no coordinate of a control point changes by more than d, both bounds of bounding_box on this axis change by at most d for a segment, d + EPSILON/8 for a quadratic and d + EPSILON/3 for a cubic curve. A quadratic or cubic curve that passes is_a_point(tol) passes is_a_point(tol + 2d) after the move.", "quantifier": "all pairs of curves, degrees, dimensions, displacements, numbers of steps and tolerances, in exact arithmetic", "why_tests_cant": "quantifies over pairs of curves and all displacements; the constant must not grow with the number of steps", "anchors": ["src/bezier.rs: Bezier::arclen", "src/quadratic_bezier.rs: QuadraticBezier::arclen, bounding_box, is_a_point", "src/cubic_bezier.rs: CubicBezier::arclen, bounding_box, is_a_point", "src/line.rs: LineSegment::bounding_box"]}
{"id": "C134", "title": "The distance to a segment changes by no more than the point moves", "statement": "Moving the query point by a distance m and the end points of the segment by at most d changes LineSegment::distance_to_point by at most m + d. (False of the code: the result jumps by the whole length of the segment when the query point passes its end; it holds while the query points project before the end, and for segments shorter than the square root of EPSILON.)", "quantifier": "all segments, query points, displacements and dimensions, in exact arithmetic", "why_tests_cant": "A jump is invisible to tests that compare values at isolated points; the claim quantifies over all pairs of nearby inputs.", "anchors": ["src/line.rs: LineSegment::distance_to_point"]}
{"id": "C135", "title": "How far a curve is from its control polygon", "statement": "Walk the control polygon of a degree-n Bezier curve at constant speed per leg, so that parameter (j+l)/n is the point (1-l)*p[j] + l*p[j+1]. The curve and the polygon at the same parameter t are at most (n*t*(1-t) - l*(1-l))/2 * A apart, where A bounds the second differences |p[k] - 2p[k+1] + p[k+2]|. So every point of either is within n*A/8 of the other. For a quadratic curve the first bound is attained. Splitting at 1/2, k times over, divides the bound A by 4^k, so the polygons of the parts converge to the curve.", "quantifier": "all Bezier curves of every degree and dimension, all parameters in [0,1], all subdivision depths, in exact arithmetic", "why_tests_cant": "quantifies over all degrees, curves and parameters; the rate 4^-k is a statement about all depths", "anchors": ["src/bezier.rs: Bezier::eval, Bezier::split", "src/quadratic_bezier.rs: QuadraticBezier::eval", "src/cubic_bezier.rs: CubicBezier::eval"]}
{"id": "C136", "title": "Every wrong result has a way around it with the calls of the same version", "statement": "Where a method gives a wrong result, other calls of the same version give the right one. Cutting a segment: split of the generic Bezier with the same two points. Distance to a segment: the smaller of the answers for the segment and the reversed segment. is_linear: a quadratic curve is flat iff it or its reverse passes the test; a cubic is flat iff this holds of both quadratics with its ends and one of its control points. is_a_point of a quadratic: curve and reverse. CubicBezier::dd: the component of derivative().eval(t). arclen(n): add the first chord. BSpline::eval at t with knots[k] <= t < knots[k+1]: subtract control point k from all control points, evaluate, add it again; for a spline that is clamped nowhere or at one end put D more copies of the first knot and D arbitrary control points in front before. BSpline::derivative: construct a spline from the control points it returns and the knots without the first and the last. In floating point the detours for the distance, the flatness of a quadratic and the evaluation of a B-spline differ from the right results by rounding errors only; in f64, for coordinates up to M <= 10^9, by 2*10^-15 relative and 10^-13 M absolute for plane segments of length at least 1, and by 2*10^-14 M for cubic splines of every kind on knot spans of length at least 1.", "quantifier": "all segments, curves and splines of every degree, dimension and kind of knot vector, all parameters of the domain not within EPSILON above a knot, all tolerances, in exact arithmetic; end points at least sqrt(EPSILON) apart for the distance and the flatness tests; in floating point every format, all finite inputs within the stated ranges", "why_tests_cant": "equality with the true value for all inputs; the wrong calls agree with the right ones on many inputs", "anchors": ["src/line.rs: LineSegment::split, LineSegment::distance_to_point", "src/bezier.rs: Bezier::split, Bezier::arclen", "src/quadratic_bezier.rs: is_linear, is_a_point, arclen", "src/cubic_bezier.rs: dd, derivative, is_linear, arclen", "src/bspline.rs: BSpline::new, BSpline::eval, BSpline::derivative"]}
{"id": "C137", "title": "In floating point, splitting bounds the arc length from both sides up to rounding", "statement": "Cut a Bezier curve (generic, quadratic or cubic) with floating-point control points into pieces by any sequence of calls of split(t) with floats t in [0, 1], measure the distances between the endpoints of the pieces and between consecutive control points of the pieces with (p - q).squared_length().sqrt(), and add them up in floating point. Then all control points of the pieces and both sums are finite; the first sum is at most the true arc length of the curve, and the second at least, up to an explicit error: one that grows linearly with the number of cuts, from the rounding in split, and the relative error of as many roundings as there are summands. Halving k times brings the two computed sums within the exact rate of C122, (N-1)(N-2) times the largest second difference of the control points over 2^k, plus such errors. In binary64, for a plane cubic with coordinates up to 1000 and at most 1024 pieces, both bounds hold up to 1e-7 and ten halvings bring them within 6 A / 2^k + 1e-6 (A the largest second difference).", "quantifier": "all float formats with u, eta <= 1/1024, all dimensions and degrees, all finite control points within range, all ways of cutting at floats in [0, 1] whose number of cuts times the error of one cut is at most 1", "why_tests_cant": "the true arc length of a cubic is an elliptic-type integral without a closed form to compare with, the ways of cutting and the number of pieces are unbounded, and rounding errors of all the splits and all the additions combine", "anchors": ["src/bezier.rs: split", "src/quadratic_bezier.rs: split", "src/cubic_bezier.rs: split", "src/point_generic.rs: squared_length"]}
{"id": "C138", "title": "In floating point, splitting bounds the distance to a curve and between curves up to rounding", "statement": "Cut a Bezier curve (generic, quadratic or cubic) with floating-point control points into pieces by any sequence of calls of split(t) with floats t in [0, 1], compute the distance from a query point to every endpoint of a piece with (p - q).squared_length().sqrt(), and take the smallest with <. The result is finite, at least the true distance from the point to the curve over [0, 1], and exceeds it by at most half the length of the longest control polygon of the pieces, up to an explicit error: the number of cuts times the rounding error of one split, and the relative error of one computed distance. After k halvings the excess is at most (N-1)A/2^(k+1) (A the longest leg of the control polygon; A/2^k for quadratic and 3A/2^(k+1) for cubic curves) plus an error that is proportional to k, not to the number 2^k of pieces. For two generic curves, each cut in any way, the smallest computed distance between endpoints bounds the distance of the curves in the same way. In binary64, for a plane cubic and a point with coordinates up to 1000, the rounding errors add at most 1e-8 for up to 1024 pieces, or for up to 256 halvings.", "quantifier": "all float formats with u, eta <= 1/1024, all dimensions and degrees, all finite control points and query points within range, all ways of cutting at floats in [0, 1] whose number of cuts (for halving: number of halvings) times the error of one cut is at most 1", "why_tests_cant": "the true distance is an infimum over a continuum of parameters, the ways of cutting are unbounded, and the rounding errors of all splits, distances and comparisons combine", "anchors": ["src/bezier.rs: split", "src/quadratic_bezier.rs: split", "src/cubic_bezier.rs: split", "src/point_generic.rs: squared_length"]}
{"id": "C139", "title": "Changing the unit of length by a power of two changes float results by exactly that factor", "statement": "Multiply all control points of a line segment, a quadratic, cubic or generic Bezier curve by the float 2^k. If the coordinates are multiples of 2^m of size at most 2^b, the parameter is a multiple of 2^h of size at most 4, and the exponents leave room (nothing underflows or overflows, before or after scaling), then eval, eval_casteljau, both halves of split and the derivative of a segment, quadratic or cubic curve at t are exactly 2^k times the results for the original curve, with no rounding difference, and so are eval, split and derivative() of a generic curve of any degree. For quadratic, cubic and generic curves arclen(N) is multiplied by exactly 2^k for every N up to 2^w, and distance_to_point by exactly 2^k when the point is multiplied too. In binary64, for cubic curves, it is enough that coordinates are multiples of 2^-100 up to 2^100, k is from -100 to 100 and N is at most 2^32. LineSegment::distance_to_point is an exception: it compares a squared length with a fixed tolerance, and in binary64 a point in the middle of the segment from 0 to 2^-27 has distance 2^-28 from it, but distance 0 after scaling by 2^27.", "quantifier": "all binary float formats (rounding to nearest, p bits), all dimensions and degrees, all control points, query points and parameters on the stated grids, all exponents k with room, all step counts up to 2^w; for the exception, a witness in binary64", "why_tests_cant": "it compares two runs of the whole computation bit by bit for all inputs, including every rounding and every comparison of the nearest-point search; a test sees a few curves", "anchors": ["src/line.rs: eval, split, derivative, distance_to_point", "src/quadratic_bezier.rs: eval, eval_casteljau, split, derivative, arclen, distance_to_point", "src/cubic_bezier.rs: eval, eval_casteljau, split, derivative, arclen, distance_to_point", "src/bezier.rs: eval, split, arclen, distance_to_point"]}
{"id": "C140", "title": "Changing the units of a B-spline by powers of two is exact in floating point", "statement": "(a) Multiply the control points of a B-spline (of any degree, in any dimension) by the float 2^k. If nothing underflows or overflows (control points multiples of 2^m up to 2^b, knots and parameter finite and at most 2^B, explicit conditions on the exponents), eval(t) returns exactly 2^k times the point it returned before, or the same error, or panics as before; arclen(N), N >= 1, returns exactly 2^k times the length, or panics as before. (b) Multiply the knots by 2^k instead. If the knots are multiples of 2^h, where neither 2^h nor 2^(h+k) is below the machine epsilon, BSpline::new accepts the same knot vectors with the same errors and the same classification of the ends, knot_domain() is multiplied by exactly 2^k, and eval(2^k t), for t a multiple of 2^h, returns the same point bit for bit, the same error, or panics as before. In binary64 (a) covers degrees up to 3, up to 100 dimensions, knots up to 1024, coordinates that are multiples of 2^-60 up to 2^60, and k from -60 to 60; (b) covers integer knots up to 1024 and k from -50 to 50.", "quantifier": "all binary float formats (rounding to nearest, p bits), all degrees, dimensions, knot counts and point counts, all knots, control points and parameters in the stated ranges, all k with room, all step counts below 2^w", "why_tests_cant": "it compares two runs bit for bit, through every search step, rounding and comparison with the tolerance, for all splines; a test sees a few splines", "anchors": ["src/bspline.rs: new, knot_domain, eval, de_boor_iterative, knot_span_start_for_t, arclen"]}
{"id": "C141", "title": "Changing the unit of length by powers of two is exact also where the tolerance is used, on grids that are not finer than it", "statement": "In floating point, multiply all points by the float 2^k. Let all coordinates be multiples of 2^m up to 2^b, where 2^m, 2^(m+k) and their squares are not below the machine epsilon, and let nothing underflow or overflow (explicit conditions on the exponents). Then LineSegment::distance_to_point and the bounding boxes of lines, quadratic and cubic curves return exactly 2^k times what they returned before; is_linear and is_a_point of quadratic and cubic curves give the same answers with the tolerance multiplied by 2^k; solve_t_for_axis of both gives the same list of parameters, bit for bit, for the value multiplied by 2^k; roots_square and roots_cubic give the same lists if all coefficients are multiplied by 2^k. In binary64 this covers cubic curves in up to 50 dimensions whose coordinates are multiples of 2^-10 up to 1024, k from -16 to 100, and tolerances up to 1024 that are multiples of 2^-400. On finer grids it fails: the box of the quadratic curve with the control points 0, 2^-55, 0 is [0, 0], but in units 2^55 times smaller it is [0, 1/2].", "quantifier": "all binary float formats (rounding to nearest, p bits; any cos, acos and powf), all dimensions, all segments, curves, points, values, axes and tolerances in the stated ranges, all k with room", "why_tests_cant": "it compares two runs bit for bit through comparisons with a fixed tolerance, square roots, quotients, case distinctions of the cubic formula and sorting, for all curves; a test sees a few", "anchors": ["src/line.rs: distance_to_point, root, bounding_box", "src/quadratic_bezier.rs: is_linear, is_a_point, real_roots, solve_t_for_axis, bounding_box", "src/cubic_bezier.rs: is_linear, is_a_point, real_roots, solve_t_for_axis, bounding_box", "src/roots.rs: roots_square, roots_cubic"]}
{"id": "C142", "title": "On curves that keep advancing, the length estimates converge quadratically once the missing first chord is added, and only linearly without it", "statement": "Let every leg of the control polygon of a curve with N control points advance by at least sigma > 0 in some fixed direction, let the second differences of the control points be at most A, and let L be the arc length. Then (a) after k rounds of splitting everything at 1/2, the polygon lengths of the pieces exceed their chords in total by at most N(N-1)(N-2)/24 * A^2/sigma / 4^k; (b) for every n >= 1, arclen(n) plus the distance from eval(0) to eval(1/n) is at most L and at least L - N(N-1)(N-2)/24 * A^2/sigma / n^2 (quadratic curves: A^2/(4 sigma n^2); cubic curves: A^2/(sigma n^2)); (c) arclen(n) alone is short of L by at least (N-1) sigma / n, so with the first chord left out the convergence is only linear. Exact arithmetic. (d) In f64, for plane cubics with coordinates up to M <= 1e9 and legs up to D <= 1e10 and k up to a million, arclen(k) plus the computed distance from start to eval_casteljau(1/k) is a finite number within A^2/(sigma k^2) + (k+2)(1e-14 (M+D) + 1e-25) of L.", "quantifier": "all curves of the three types with any number of control points in any dimension, all directions, all sigma > 0 and A meeting the hypotheses, all n >= 1 and all numbers of halvings", "why_tests_cant": "A rate with an explicit constant is a statement about all n and all curves at once; a test measures the error of a few curves at a few step counts against a reference that is itself approximate.", "anchors": ["src/bezier.rs: Bezier::arclen, Bezier::split", "src/quadratic_bezier.rs: QuadraticBezier::arclen, QuadraticBezier::split", "src/cubic_bezier.rs: CubicBezier::arclen, CubicBezier::split"]}
{"id": "C143", "title": "A B-spline is D - m times continuously differentiable at an m-fold knot", "statement": "Inside its knot domain a B-spline curve of degree D is D - m times continuously differentiable at a knot that occurs m times, and arbitrarily smooth between knots. (The reason to use B-splines: simple knots give a curve without kinks, and for degree 3 without jumps of curvature.)", "quantifier": "every accepted spline of every degree and dimension, every parameter strictly inside the domain, every multiplicity up to the degree", "why_tests_cant": "existence and continuity of derivatives at a point are limit statements, for all knot vectors and multiplicities", "anchors": ["src/bspline.rs: BSpline::new, BSpline::eval"]}
{"id": "C144", "title": "Sorted control points give a monotone B-spline", "statement": "If the control points of a B-spline do not go back in some direction (their signed distances from a hyperplane are in order), then the evaluated point does not go back in that direction as the parameter grows; if every leg of the control polygon advances and the degree is at least one, the point advances strictly, so the curve has no loops. Status: false of the code as it is, because eval drops a control point on each span (C48): the spline from 1 to 2 goes back to 1/2. Proved: (a) for the repaired eval; (b) for the points the detour of C136 returns with this version's calls, also across knots; (c) for eval itself on the span of knot k when control points k-D..k-1 are in order and on the negative side of the origin.", "quantifier": "all numbers of control points, all degrees, all accepted knot vectors, all directions, all pairs of parameters of the domain, points of any dimension", "why_tests_cant": "A test compares finitely many sample pairs of finitely many splines; the claim is about every pair of parameters and every arrangement of control points.", "anchors": ["src/bspline.rs: BSpline::new, BSpline::eval, BSpline::de_boors_algo"]}
{"id": "C145", "title": "B-splines move at bounded speed and are no longer than their control polygon", "statement": "If D times the length of each leg i of the control polygon is at most V (u_{i+D} - u_i), two evaluated points are at most V times the parameter difference apart. No polyline with its corners on the curve, in order, is longer than the control polygon, so arclen never exceeds it. Control points placed along a line like the averages of D neighbouring knots are passed at constant speed. Status: false of the code as it is: with both control points at 1 the curve goes from 1 to 1/2. Proved: (a) for the repaired eval and arclen; (b) the speed for the points of the detour of C136 with this version's calls; (c) the speed of eval itself between two knots, with the last control point of the span replaced by the origin.", "quantifier": "all numbers of control points, all degrees at least one (lengths: all degrees), all accepted knot vectors, all pairs or sequences of parameters, all numbers of steps, points of any dimension", "why_tests_cant": "The bounds range over all control polygons, knot vectors and parameter sequences of any length; samples cannot exclude a faster or longer stretch between them.", "anchors": ["src/bspline.rs: BSpline::new, BSpline::eval, BSpline::arclen"]}
{"id": "C146", "title": "Inserting a knot does not change the curve", "statement": "Let a B-spline be refined as in textbooks: insert a knot xi after knot k (u_k <= xi < u_{k+1}, inside the domain) and replace the control points by a_j P_j + (1 - a_j) P_{j-1}, where a_j is 1 for j <= k - D, 0 for j > k and (xi - u_j)/(u_{j+D} - u_j) in between. BSpline::new accepts the refined data and the new curve has the same point at every parameter. Status: false of the code as it is: a knot at 1/4 changes the point at 1/2 of every straight spline whose last control point is not the origin. Proved: (a) for the repaired eval; (b) for the detour of C136 with this version's calls; (c) for eval itself at parameters after the span of the new knot, or more than D spans before it.", "quantifier": "all numbers of control points, all degrees, all accepted knot vectors, all inserted knots, all parameters of the domain, points of any dimension", "why_tests_cant": "The two evaluations agree only as functions; a test compares them at finitely many parameters for finitely many splines.", "anchors": ["src/bspline.rs: BSpline::new, BSpline::eval, BSpline::de_boors_algo"]}
{"id": "C147", "title": "A B-spline crosses no line or plane more often than its control polygon", "statement": "For a B-spline of degree at least one and any hyperplane (a line in the plane, a plane in space): however the curve is sampled at increasing parameters of its domain, the samples change sides no more often than the control points do. Status: false of the code as it is: the spline from 1 to 2 passes 3/4 twice. Proved: (a) for the repaired eval; (b) for the points the detour of C136 returns with this version's calls; (c) for eval itself between two knots, with the origin in place of the last control point of the span.", "quantifier": "all numbers of control points, all degrees at least one, all accepted knot vectors, all hyperplanes, all increasing lists of parameters of any length, points of any dimension", "why_tests_cant": "The bound is on every sampling of the curve by any number of points; tests look at finitely many samples.", "anchors": ["src/bspline.rs: BSpline::new, BSpline::eval"]}
{"id": "C148", "title": "A B-spline curve determines its control points", "statement": "Two B-splines over the same knots that are equal on a part, however short, of the span between two knots have the same D+1 control points of that span. So two choices of control points give the same curve exactly if they agree on every control point the curve uses: those that reach into a span of positive length inside the domain, and the last one; if the knots of every control point (i to i+D+1) overlap the domain in more than one parameter these are all of them. Status: false of the code as it is: with degree 1 and knots 0 0 1 1 2 2 the results of eval do not depend on the second control point. Proved: (a) for the repaired eval, as an equivalence; (b) for eval itself, as an equivalence with the smaller set of control points that the code uses: the last one, and those with a span of positive length among the D spans after the first one they reach into.", "quantifier": "all numbers of control points, all degrees, all accepted knot vectors (for eval: clamped at one end at least, spans empty or longer than EPSILON), all pairs of choices of control points, points of any dimension", "why_tests_cant": "The claim is about all pairs of curves that agree on an interval; a test can only compare particular curves at particular parameters.", "anchors": ["src/bspline.rs: BSpline::new, BSpline::eval"]}
{"id": "C149", "title": "A convex control polygon gives a convex B-spline", "statement": "Put each control point of a B-spline of degree D at the average of the D knots after its own. If the legs of the control polygon then get steeper and steeper in some direction (for instance along a coordinate axis), and no D+1 consecutive knots (the first and the last left aside) are equal, the curve is a convex function of the parameter in that direction: it lies below each of its chords, and above the control polygon, even above the lines through its legs. Status: false of the code as it is: the straight spline from 0 to -2 has the points 0, 0 and -2 at the parameters 0, 1/2 and 1. Proved: (a) for the repaired eval; (b) for the points the detour of C136 returns with this version's calls; (c) for eval itself between two knots, with the origin in place of the last control point of the span.", "quantifier": "all numbers of control points, all degrees at least one, all accepted knot vectors without inner knots repeated more than D times, all directions, all pairs of parameters of the domain and all parameters between them, points of any dimension", "why_tests_cant": "Convexity is an inequality between all triples of points of the curve; tests look at finitely many triples.", "anchors": ["src/bspline.rs: BSpline::new, BSpline::eval"]}
{"id": "C150", "title": "A B-spline drawn with n equal steps", "statement": "A program draws a B-spline of degree D >= 2 by calling eval at equally spaced parameters and joining the points with straight lines. Let M bound the second differences of the control polygon: D-1 times the change of slope from one leg to the next (each control point taken at the average of the D knots after its own) is at most M times the length of the knots the two legs share. Then a point of the curve at a parameter between s and t differs from the corresponding point of the chord by at most M l (1-l) (t-s)^2 / 2, if no D+1 consecutive knots (the first and the last left aside) are equal; so the polyline with n equal steps over the domain of a spline clamped at its end is within M (end - start)^2 / (8 n^2) of every point of the curve. Status: false of the code as it is: the spline with control points on a line in proportion to the knots (M = 0) is not returned as a straight line. Proved: (a) for the repaired eval; (b) for the points the detour of C136 returns with this version's calls; (c) for eval itself between two knots, with the origin in place of the last control point of the span.", "quantifier": "all numbers of control points, all degrees at least two, all accepted knot vectors without inner knots repeated more than D times, all numbers of steps, all parameters of the domain, points of any dimension", "why_tests_cant": "The bound is about every point of the curve and every number of steps; a test samples finitely many of both, and misses what happens between its samples.", "anchors": ["src/bspline.rs: BSpline::new, BSpline::eval", "src/bspline.rs: BSpline::arclen"]}
{"id": "C151", "title": "How far a B-spline is from its control polygon", "statement": "Put each control point of a B-spline of degree D >= 2 at the average of the D knots after its own. Let M bound the second differences of the control polygon as in C150, and let W bound the length of any D consecutive knots (the first and the last knot left aside). Then curve and polygon at the same parameter are no further apart than M W^2 / (8 (D-1)): every point of the curve is that close to the polygon, and, if the spline is clamped, every point of the polygon is that close to the curve (no D+1 consecutive inner knots being equal). More precisely the distance is at most M/2 times the variance of the knots divided by D-1, interpolated between the two control points, less a term for the position between them; the parabola with second derivative M reaches this at every point. Status: false of the code as it is: control points in proportion to the knots (M = 0) are not returned. Proved: (a) for the repaired eval; (b) for the points the detour of C136 returns with this version's calls; (c) for eval itself, for the polygon with the origin in place of the last control point of the span.", "quantifier": "all numbers of control points, all degrees at least two, all accepted knot vectors without inner knots repeated more than D times, all control points, all parameters of the domain and all points of the polygon, points of any dimension", "why_tests_cant": "The bound is about all curves and all their points, and says that no better one holds; a test compares finitely many points of particular curves.", "anchors": ["src/bspline.rs: BSpline::new, BSpline::eval"]}
{"id": "C152", "title": "Inserting knots makes the control polygon of a B-spline converge to the curve", "statement": "Insert knots into a B-spline by the usual rule (C146). However many are inserted, the second differences of the control polygon do not exceed the bound M they had at the start. So if any D consecutive inner knots of the new knot vector are within W, every point `eval` returns is within M W^2 / (8 (D - 1)) of the new control polygon, and (clamped at both ends) every point of the new polygon is that close to the curve. For a spline clamped at both ends with no inner knot repeated D times, the polygon comes as close to the curve as wanted.", "quantifier": "every degree D >= 2, every knot vector with separate knots, all control points, every sequence of knot insertions of any length, every parameter of the domain, every tolerance", "why_tests_cant": "The claim is about every sequence of insertions of any length and every parameter; a test compares one refined polygon with the curve at finitely many parameters.", "anchors": ["src/bspline.rs: BSpline::new, BSpline::eval, de_boor"]}
{"id": "C153", "title": "Effect of moving one control point of a B-spline", "statement": "If a B-spline is built again with control point j moved by a vector v, the point eval returns at t moves by v times the value of the j-th basis function at t: by at most |v|, not at all outside the D + 1 spans that follow knot j, and by a positive fraction strictly inside them. The effect rises to one maximum and falls again: at a parameter between two others the point moves at least as far as at one of the two. At the end of the domain only the last control point has an effect.", "quantifier": "every accepted knot vector, all control points, every index j, every vector v, every parameter (every three ordered parameters) of the domain", "why_tests_cant": "It ranges over all knot vectors and all triples of parameters; a test samples finitely many and cannot show that the effect has a single peak.", "anchors": ["src/bspline.rs: BSpline::new, BSpline::eval, de_boor_iterative"]}
{"id": "C154", "title": "A chain of Bezier curves is one B-spline", "statement": "Where D equal knots x are followed by D equal knots y > x, a B-spline of degree D is on [x, y) the Bezier curve with the D + 1 control points of that span, run through at constant speed of the parameter. So every chain of m Bezier curves of degree D, each starting at the end of the one before, is accepted as a single B-spline (joint times D-fold as knots, the two ends once more), with the domain from the first to the last time, and eval returns at every time the point that Bezier::eval returns on the curve of that time.", "quantifier": "every degree D of at least 1, every number of curves, all control points, all increasing joint times, every parameter of the domain", "why_tests_cant": "It relates two types for all degrees, chain lengths, control points and times; a test compares finitely many points of a few chains.", "anchors": ["src/bspline.rs: BSpline::new, BSpline::eval, BSpline::knot_domain, de_boor_iterative", "src/bezier.rs: Bezier::eval"]}
{"id": "C155", "title": "Curves as graphs of functions", "statement": "A coordinate of a Bezier curve is a linear function of the parameter exactly if this coordinate of the control points is equally spaced. Such a curve is the graph of a function of this coordinate, and for quadratic and cubic curves solve_t_for_axis returns exactly the one parameter of every value in between. If the control points of Bezier curves are taken from the graph of a continuous function at equal distances, the curves tend to the graph uniformly as the number of control points grows; for degree n they are within L/(2 sqrt(n)) of it if the function has the Lipschitz constant L, and within M/(4n) if its derivative has the Lipschitz constant M. For a B-spline with control point i at the average of the knots i+1 to i+D the coordinate of eval(t) is t, and control values taken from a function at these places give a curve that is no farther from the graph than the function changes from t to the knots around it, and no farther than M times the square of the width of these knots.", "quantifier": "all Bezier curves of every degree, all values, every continuous function on [0, 1]; all accepted knot vectors and every parameter of the domain", "why_tests_cant": "It ranges over all functions, degrees and knot vectors, and one direction excludes every other placing of the control points; convergence is a statement about infinitely many curves.", "anchors": ["src/bezier.rs: Bezier::eval", "src/quadratic_bezier.rs: QuadraticBezier::eval, solve_t_for_axis", "src/cubic_bezier.rs: CubicBezier::eval, solve_t_for_axis", "src/bspline.rs: BSpline::new, BSpline::eval"]}
{"id": "C156", "title": "Reversing a B-spline", "statement": "The B-spline with the knots negated and in reverse order and the control points in reverse order is accepted exactly if the original is. Its knot domain is the mirror image of the original one, its point at -t is the point of the original at t (everywhere in the domain except at inner knots repeated more than D times; at the two ends if the outer D + 1 knots coincide), and, if the outer D + 1 knots coincide at both ends and no inner knot is repeated more than D times, arclen is the same for every number of steps.", "quantifier": "all knot vectors, all control points, every parameter of the domain, every number of steps", "why_tests_cant": "It relates two curves for all knot vectors and parameters; a test compares finitely many points, and usually not at the repeated knots where the two directions could differ.", "anchors": ["src/bspline.rs: BSpline::new, BSpline::eval, BSpline::knot_domain, BSpline::arclen, de_boor_iterative"]}
{"id": "C157", "title": "The mean point of a curve", "statement": "The integral of eval(t) over t from 0 to 1 is, for a Bezier curve of any order, the mean of its control points (for quadratics a third, for cubics a quarter of their sum). For a B-spline whose first D + 1 and last D + 1 knots coincide and whose knots are repeated at most D + 1 times, the integral over the knot domain is the sum of the control points, control point i with the weight (u_{i+D+1} - u_i) / (D + 1); the weights are not negative and add up to the length of the domain.", "quantifier": "all numbers of control points, all degrees, all such knot vectors, all control points, every coordinate", "why_tests_cant": "It is a statement about an integral over a continuum of parameters; a test can only approximate it by sums, with a tolerance, for chosen curves.", "anchors": ["src/bezier.rs: Bezier::eval", "src/quadratic_bezier.rs: QuadraticBezier::eval", "src/cubic_bezier.rs: CubicBezier::eval", "src/bspline.rs: BSpline::new, BSpline::eval, de_boor_iterative"]}
{"id": "C158", "title": "The area swept by a curve", "statement": "The area that the segment from the origin to the point sweeps, half the integral of x y' - y x' over t from 0 to 1 with the points from eval and the velocities from derivative(), is given by a closed formula in the control points: for line segments, quadratics, cubics and Bezier curves of every degree, in the plane of any two axes. It is the sum of the areas of the two parts returned by split(t), for every t, and changes its sign when the control points are reversed. A quadratic and its baseline enclose two thirds of the triangle of its control points. Moving a curve by v adds half the determinant of v and its chord, so that the area of a closed path of Bezier curves of any degrees does not depend on the position of the origin.", "quantifier": "all control points, all dimensions, all degrees, all pairs of axes, every parameter t of a split", "why_tests_cant": "It equates an integral over a continuum of parameters with a polynomial in arbitrary control points; a test approximates the integral by sums for chosen curves.", "anchors": ["src/line.rs: LineSegment::eval, LineSegment::derivative, LineSegment::split", "src/quadratic_bezier.rs: QuadraticBezier::eval, QuadraticBezier::derivative, QuadraticBezier::split, QuadraticBezier::baseline", "src/cubic_bezier.rs: CubicBezier::eval, CubicBezier::derivative, CubicBezier::split", "src/bezier.rs: Bezier::eval, Bezier::derivative, Bezier::split"]}
