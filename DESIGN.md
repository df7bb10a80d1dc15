# Formal model of dorianprill/stroke in Lean 4

## 1. Architecture

* `lean/Verif/Model/*.lean` – the model, one file per Rust source file
  (`Cubic.lean` also holds `src/roots.rs`), with one definition per Rust function:
  loops the source repeats are repeated in the model, so that a change to one copy
  is a change to one function. Every definition cites the file and
  lines in /repo it models and says where it simplifies. The model is written
  once, over a class `Scalar S` (the float operations the crate uses) and a class
  `Point S P` (the crate's `Point` trait), and instantiated three times:
  * `S = ℝ` (`Spec/Exact.lean`) – exact arithmetic, for the geometric properties;
  * `S = Fl F` (`Spec/Float.lean`) – rounded arithmetic with NaN, infinities and
    overflow, for an arbitrary float format `F` with monotone faithful rounding.
    IEEE binary64 and binary32 with round-to-nearest-even are constructed as
    instances in `Lemmas/Ieee.lean`, so the theorems about `Fl F` are about
    `f64` and `f32` in particular;
  * `S = Float` (`UnitTests.lean`) – runs the crate's own `#[test]` functions on
    the model as a check of the translation. No theorem uses it.
* `lean/Verif/Spec/*.lean` – independent specifications: Bernstein form, polyline
  length and arc length (total variation), distance to a segment, attained
  bounds, Cox–de Boor basis functions (`Curves.lean`, `BSpline.lean`).
  The theorems about points of an abstract type talk about coordinates
  (`coord p i`) through the laws of `LawfulPoint`, proved for `PointN ℝ n`.
* `lean/Verif/Lemmas/*.lean` – helper lemmas, not part of any statement except
  for the definition of `binary64`.
* `lean/Verif/Props/*.lean` – the property theorems `Cxx_…`, each followed by an
  `example` (or preceded by a theorem) showing that its hypotheses can be met.
  Groups of theorems with the same kind of hypotheses share their examples: those are
  in `Props/{Witnesses,FloatWitnesses,LaterWitnesses}.lean` and `Witness/*.lean`.
* `lean/Verif/Repaired/Model.lean` – not the code of the crate: copies of the
  defective functions with the defective lines changed. Only C121 and the theorems with `repaired` in their names
  are about them; C121 shows that the lines named in section 4 are the whole defect.

### Rust constructs

* `&mut` and in-place array updates are functions returning the new array.
* A panic is a value: `Option` with `none` = panic (index out of bounds, `usize`
  underflow, `ArrayVec` overflow, `unwrap` of `None`). A function returning
  `Result<_, BSplineError>` returns `Outcome`: `ok`, `err` or `panic`.
* `for` loops are monadic folds over ranges (`forRange`, `forRangeRev`,
  `forBreak`); `while` loops are well-founded recursions.
* `usize` is `Nat` with checked subtraction (panic on underflow). That this gives
  the results of debug and of release builds, on targets of any word size, is
  theorem C125: `Model/Usize.lean` has the functions with `usize` arithmetic for
  `w`-bit words, with overflow checks and without. The sizes and indices in other
  functions are constants, loop counters and dimensions without arithmetic.
* Const generics (`N`, `K`, `C`, `D`, `P::DIM`) are ordinary numbers, and the
  theorems quantify over them. `Bezier<P, {N - 1}>` and `BSpline<P, K, {C - 1},
  {D - 1}>` exist as types only for positive `N`, `C`, `D`; theorems about
  `derivative` assume it.
* `ArrayVec<[T; n]>` is a list with an explicit capacity check.
* `sort_unstable_by(partial_cmp().unwrap())` is an insertion sort that panics
  when two compared elements are incomparable (what `core` does for slices this
  short).

## 2. Trusted base

* Lean 4.33.0's kernel. Every theorem depends on at most the axioms `propext`,
  `Classical.choice` and `Quot.sound` (the real numbers need them). There are no
  other axioms, and no proof is left out or delegated to compiled code.
* Mathlib's definitions of ℝ, EReal, sqrt, cos, arccos, rpow, derivative,
  total variation.
* The hand translation of the Rust text into `Model/`, checked only by reading
  and by replaying the crate's unit tests.
* `P::Scalar`, `NativeFloat` and the coordinate type are identified. The bounds
  in the source (`P::Scalar: From<NativeFloat>`) admit on 64-bit targets only
  `f64`-like scalars, and `PointN<f64, N>` is the only instance the crate uses.
* In exact arithmetic `EPSILON` is the real number 2⁻⁵² and the `f32` constant π
  is its exact rational value; `signum(0) = 1`, as `f64::signum(+0.0)`.
* In `Fl F`, +0 and -0 are one value. C107 shows that the methods give the same
  results with two zeros (`Spec/SignedZero.lean`), except `BSpline::derivative` with
  a knot -0. `cos`, `acos`, `powf` are arbitrary
  functions, rounded. C107 assumes that powf(0, 1/3) is 0. Only C105 assumes more, as an explicit hypothesis
  (`AccurateLibrary` in `Spec/Library.lean`): that their values are accurate. Rust
  does not specify the precision of these functions; correctly rounded functions
  meet the hypothesis (`exact_library`).

### Modelled

All of `src/`: `point.rs`, `point_generic.rs`, `line.rs`, `quadratic_bezier.rs`,
`cubic_bezier.rs`, `bezier.rs`, `bezier_segment.rs`, `bspline.rs`, `roots.rs`,
`spline.rs`, including the private functions.  Of `examples/plotters_cubic_bezier.rs`, the
numbers it hands to the plotting library.

### Not modelled

Commented-out code (curvature, radius, recursive de Boor, Newton iteration), the
derived `Clone`/`Copy`/`Debug` implementations, compile-time rejection of
ill-typed programs, the plotting library used by the example, and performance.

## 3. Properties

`properties.jsonl` states them, `MANIFEST.json` lists the theorems and their
status. "False" means that the theorem `Cxx_false…` proves the negation of the
English claim (or of part of it) about the model, with a witness or in general;
`Cxx_partial`/`Cxx_actual` then state what does hold.

| property | modelled / proved how |
|---|---|
| C01–C04 | `PointN` over any scalar type for the componentwise part; vector space laws, norm over ℝ; NaN part of C02 over `Fl F`. |
| C05, C08, C09 | ring identities, `HasDerivAt`, case split on the order of the ends. |
| C06 | **False** for every segment with distinct ends and every t ≠ 0 (the code uses `start - end`). Actual value, and what holds. |
| C07 | **False** when the projection is at or beyond the end point (t stays 0 there). Correct otherwise; never below the true distance. |
| C10–C12, C20–C22 | polynomial identities and derivatives for every t. |
| C13, C14, C24, C25 | the loop body returns minimum and maximum over end points and critical points inside (0,1); calculus on the derivative's roots; error bounds in the branches that treat small coefficients as 0. |
| C15, C26, C39 | **False**: the loop starts at 1, the first chord is skipped. Exact value, never above the arc length, error bound O(1/n), convergence. |
| C16, C27, C40 | **False** half: the fine pass samples parameters outside [0,1] and measures from a moving `tmin`. The result is the distance to a point of the extended curve, at most the coarse resolution above the true distance. |
| C17–C19, C28, C29 | soundness by convexity of the distance to a segment; completeness **false** because of C07. |
| C23 | **False** (`t` instead of `t²` in one coefficient); exact discrepancy. |
| C30–C38, C41 | generic Bezier by induction over the loops, for every N; C35 **false** for N = 1 (panics). |
| C42 | dispatch; linear segments inherit C06. |
| C43, C44 | decision logic of the constructor for all K, C, D; also for floats. |
| C45 | **False** for one-sided clamping: the domain reaches into the unclamped end. |
| C46 | loop invariants of the three searches; floats with NaN and infinities. |
| C47 | **False** for unclamped splines of degree ≥ 2 and at the far end of one-sided ones (index out of bounds). Proved elsewhere; `C47_front_exact`, `C47_back_exact`, `C47_unclamped_exact` say exactly where eval succeeds and where it panics; `C47_unclamped_sizes` turns the unclamped case into arithmetic on the sizes; `C47_float_both/front/back/unclamped` are the same for floats with finite knots (the searches only compare, so they run as on the real values). |
| C48, C50 | **False**: `for j in 0..D` copies D of the D+1 points, the last one of the span is replaced by the default point. Exact value: the Cox–de Boor sum without that term. By induction over the rounds of de Boor's algorithm. Unclamped splines: the search passes over spans, so the value is that of the spline without the knots passed over (`passOver`), again without its last term. |
| C49 | end point; start point for degree ≥ 1; **false** for degree 0. In floating point (FloatBSpline.lean, FloatBSplineStart.lean): at the start every interpolation factor is 0, since rounded differences to knots of the front are below EPSILON when the largest of them is, so the first point is passed through unchanged. |
| C51 | locality of clamped splines; fails for unclamped ones. |
| C52 | **False**: all K knots are kept. The control points are right for the knots without the first and last (Cox–de Boor derivative formula). |
| C53 | **False**: step size 1/n does not depend on the length of the domain, the last sample lies outside. Exact value. |
| C54 | no overflow: proved for every t; **false** for finite knots whose difference overflows. |
| C55 | case analysis on the discriminant. |
| C56, C57 | Cardano over ℝ. **False** as exact claims (π in single precision; thresholds); residual and distance bounds. |
| C58, C59 | panic freedom, accessors. |
| C60–C62 | rounding: end points, error analysis by induction over the levels. C61 **false** in binary64. |
| C63, C64 | special values: **false** for NaN in middle control points, line segments, NaN knots; boxes contain the end points whenever they are returned. |
| C65 | identity of the stored points, for any scalar type; induction over the split list. |
| C66 | user programs `pieces` and `adaptive` over `split(0.5)`; induction over the depth; legs of the control polygon halve, so `is_a_point` holds eventually. |
| C67 | error calculus for products and sums of rounded quantities, `((1+u)^k - 1) A + a η`. |
| C68 | Bernstein form to monomials in (1-t)/t, Descartes' rule of signs from Mathlib. |
| C69 | sign of the derivative curve (C34, C35). |
| C70 | box ends are attained (C14, C25) at end points or candidates; convex combinations (C36); split reparametrises (C11, C21); the candidates depend on differences of control points only. |
| C71 | `arclen` as polyline (C15/C26/C39 `_actual`); triangle inequality; chord bounded by a Bernstein sum of polygon lengths, monotone by C69. Reversal is false, exact difference proved. |
| C72 | evaluation is a combination with fixed non-negative weights of sum at most 1 (C36, C50). |
| C73 | chord bound of C71 and linear precision of the Bernstein basis. |
| C74 | predicates reflected by every rounded operation ("finite", "not NaN"), pushed through the loops by induction. |
| C75 | NaN fails every comparison, so the search keeps its start value: NaN if that is NaN, otherwise **false** (the distance to the start point is returned). |
| C76 | simulation of the search loops with scaled squared distances; scalar products of a segment by polarisation. **False** for line segments near the absolute cut-off. |
| C77 | closed forms of the tests in terms of distances. Reversal **false** (C07; quadratic `is_a_point` measures from the start only). |
| C78 | raising identities of the Bernstein basis. |
| C79 | induction over the span search and the de Boor loops; the absolute epsilon makes scaling fail, with witness. |
| C80 | fusion of the map with the loops, for any arithmetic; exact linear maps as instance; translations refuted. |
| C81 | basis functions restricted to a span are polynomials (induction on degree); limit at the end computed from C82. |
| C82 | basis functions of 0..0 1..1 are Bernstein polynomials (induction on degree), with C48 and C30. |
| C83 | error of each interpolation factor (quotient of rounded differences), error of each interpolation step, perturbation bound for the exact triangle. |
| C84 | the box as least/greatest candidate; error of the vertex parameter when the derivative's control points have opposite signs; curve in terms of its vertex.  Cubic: binary64 counterexample computed step by step; when the leading coefficient is not small, the computed discriminant is the exact discriminant of a nearby quadratic (backward error), whose roots are close to computed ones. |
| C85 | squared radius as a polynomial in t(1-t); radius is 1-Lipschitz, plus the evaluation error of C67 for binary64. |
| C86 | the control points of the halves are entries of the de Casteljau triangle, so the error bounds of C62/C67 apply; Bernstein weights are convex; induction over the path of splits. |
| C87 | totality of every loop and fixed-capacity vector operation, generic over `Scalar` with no laws assumed. |
| C88 | forward error of the squared-length loop, square root perturbation, then the coarse and fine sampling loops on rounded distances compared with the exact search of C37-style bounds. |
| C89 | Float instance; error analysis of scalar product, squared length, quotient, clamping, evaluation and final distance (FloatLine.lean); exact soundness theorems reused for the enlarged tolerance. |
| C90 | Float instance; inverse reading of finite results (a finite result has finite operands), error analysis of discriminant, square root, quotient; residual of the quadratic formula bounded by D u / |a|; coefficient errors carried over (FloatRoots.lean). Witness for the negation computed with the binary64 rounding function, including a tie to even. |
| C91 | Exact instance; uniqueness of derivatives and the chain rule on the split identity C33; fundamental theorem of calculus; induction on the number of differentiations. |
| C92 | `FloatFormat` model; one lemma for `(b - a) * k` under rounding and one for `(b - a) * (k / (r - l))`, then the evaluation bounds of C62/C67 plus stability of Bernstein sums under moving the control points; the reference is Mathlib's `deriv` of the exact coordinate function. |
| C93 | New model file Derived.lean (derived PartialEq, mutable iteration over points). A Bernstein sum is a polynomial of degree < N, so agreement at N parameters makes the difference vanish; coefficients vanish by induction on the degree through the derivative. |
| C94 | Linearity of the Bernstein form in each control point; the maximum of t^k (1-t)^(n-k) at k/n by the weighted arithmetic-geometric mean inequality. |
| C95 | Sampled half: the chords of the parts are chords of the whole (C33 and C39_actual); limit half: C39_partial and substitution in the arc length integral. The sampled half is false of the code. |
| C96 | Structural: every operation used by the methods is one the map commutes with; Bezier loops through the de Casteljau triangle, panics included; for sign flips the rounding of the IEEE formats is odd. |
| C97 | Order on floats via extended reals; rounding with overflow is monotone, and so are adding a value and multiplying by a value of known sign. Counterexamples by computing each rounding in its binade. |
| C98 | Float model of `arclen`: the sample parameters are rounded quotients within 4u+4eta of i/k and at most 1 (`HasSteps`, proved for binary64 up to 2^53 steps and binary32 up to 2^24 from a relative error lemma and the tie at 1+2^-p); each chord by C88_point_distance, C67/C62 and the Lipschitz bound C73; the sum by a loop invariant with factor (1+u)^i. The exact counterpart is the model at ℝ (C15_actual, C26_actual, C39_actual), which omits the first chord. |
| C99 | Model of `BSpline::arclen`. Symmetries: C80_any_arithmetic lifted through `unwrap_or_default` and the loop. Panics and sign: C47_float_clamped inside the domain, C46_float outside it and at NaN, and a loop invariant (NaN, +inf or not negative). Translations are a disagreement: proved false from the two runs of C53_false. |
| C100 | Floats as a grid of reals. A predicate `multiple of 2^-a, at most M` is carried through sums, differences, products and the two forms of interpolation in the source, each of which is shown to be in the grid, so rounding is the identity; induction over the de Casteljau triangle and over a path of splits. |
| C101 | The chord of a curve with acceleration at most M falls short of the arc by at most M h^2 / 2 (each velocity against the mean velocity, integrated); speed and acceleration are bounded through the control points of the derivative curve (C34, C36, C73); the missing first chord adds speed / n. |
| C102 | Both sides trace the same reparametrised curve (C33), so they have the same control points (C93). Derivatives by the chain rule (C34). |
| C103 | Containment (C09, C13, C24) on each axis gives the lower bound on distances; tightness (C14, C25) and the intermediate value theorem on the unit square give the converse. |
| C104 | The literals, the evaluation (C67), the box (C84) and the chart arithmetic as rounded numbers; convexity for the polygon. |
| C105 | Float instance plus AccurateLibrary (error bound on cos, acos and powf; Spec/Library.lean). Error analysis of the depressed coefficients, the discriminant, both cube roots (Hoelder continuity of the cube root gives the exponent 1/3), the angle and the cosine with the single-precision pi (Lemmas/CubicFormulaError.lean); residual of each root, then the coefficients of solve_t_for_axis (FloatRootsCubic.lean). Witness for the negation: t^3 + 3*2^-21 t = 1/8, where the linear term is absorbed. |
| C106 | The map from a point to the PointN with the same axes is shown to keep the operations and the metric (RespectsPoint, KeepsMetric of C96); the methods not covered by C96 (axis, dd, solve_t_for_axis, bounding_box, derived equality, BSpline::new) are transferred directly. Contract stated as the structure Componentwise. |
| C107 | Spec/SignedZero.lean defines the values with two zeros and the IEEE rules for signs. Lemmas/ScalarMaps.lean shows once, for any map between two arithmetics that respects the operations and the divisions the library performs (by constants, step counts and numbers not below epsilon), that every method respects it. Forgetting the sign of zeros is such a map. Justifies the single zero of Spec/Float.lean. |
| C108 | The only fact about rounding is ShortSteps: |rnd(rnd(b - a) * t)| <= |b - a| for t < 1. For IEEE rounding it is proved in Lemmas/IeeeLerp.lean: t is at most 1 - 2^-p, so a difference rounded up by at most half a unit is rounded down by at least half a unit after the multiplication; differences below the normal range are exact. Everything else is monotonicity of rounding, and induction over the subdivisions. |
| C109 | An accepted root is a quotient strictly between 0 and 1, so its operands are finite, so the leading coefficient and with it all coordinates of that axis and all their differences are finite. By C108 the first interpolation steps are then finite, and the last step between two numbers can overflow but not be NaN. Hence the sort never sees a NaN other than those of the end points. |
| C110 | The client program of C66 over Fl F. No growth of the coordinates by C108; the differences of neighbouring control coordinates halve up to 19uM+13η (C67), so pieces of depth k pass is_a_point (C88); accuracy by adding up C86 along the recursion and C89 for the accepted pieces. Counterexample for small tolerances: the second half of a curve is the curve itself. |
| C111 | Order up to NaN on floats (`Ord`, C97) is kept by addition and by multiplication with non-negative weights; all weights are products of t, -t + 1 and positive literals, or the alphas of de Boor's recursion, which are in [0,1] whenever t is left of the end of the span used (`alpha_unit`; no assumption on its start, so unclamped splines are covered). Induction over the rounds for the generic Bezier and for B-splines. The counterexample reuses C61_false. |
| C112 | The second derivative of a binomial sum is a binomial sum of second differences; adding a multiple of t² makes it convex (Mathlib: convexOn_of_deriv2_nonneg), which bounds the deviation from chords for real sequences. For points: apply this to the inner product with the deviation vector. Floats: add the error bounds of C67. |
| C113 | The same lemma on real sequences with second differences at least 0. |
| C114 | Induction on the level of the de Casteljau triangle: the triangle of the reversed polygon is the mirrored triangle (`cas_rev`). Exactness of 1-t from the grid of the format. Witnesses computed with `round_binade`. |
| C115 | Relation `SameOutcome` between two runs (value, same error, panic), preserved by bind and by the loops; the loops that copy points and interpolate branch on indices and knots only. Locality from the congruence of the copying loop. |
| C116 | Derivative of the Bernstein sum is positive on (0,1) when the differences are nonnegative and one is positive; intermediate value theorem. A quadratic polynomial that changes sign has one simple root in (0,1); then C55 and C57. |
| C117 | The scalar product with the direction is a Bernstein sum (linear in the control points); strict monotonicity as in C116. Quadratic: divided difference of two parameters is a combination of the two legs with weights that cannot both vanish. |
| C118 | Triangle inequality from the error bounds C62, C67 and a Lipschitz bound for Bernstein sums (mean value inequality). |
| C119 | Exact arithmetic. The foot of the perpendicular from the moving curve point onto the baseline moves continuously from start to end, so it meets every baseline point; the distance there is at most that to the nearest segment point. Lengths: curve = monotone motion along the baseline + deviation of bounded speed, summed over the chords of arclen and passed to the limit (C15, C26). |
| C120 | Exact arithmetic. The program is a recursion on the depth over any two curve types with halves and boxes. Completeness: induction on the depth, with C11/C21 for the halves and C103 for the boxes. Soundness: induction shows that a reported pair is a pair of dyadic pieces with overlapping boxes; box ends are attained (C14, C25) and the speed is bounded (C73). |
| C121 | Verif/Repaired/Model.lean copies the defective functions with the defective lines changed; the theorems are the statements of C06, C07, C13, C15, C16, C18, C23-C28, C39, C40, C47-C50, C52, C53, C56, C57, C71, C79-C82, C95 and C99 that are false of the code (or true only up to EPSILON), proved for the copies. Loops by invariant, the B-spline by the correctness of de Boor's triangle and the Cox-de Boor recursion, root finding by Cardano's formulas, continuity from closed forms of the basis functions at multiple knots (Verif/Lemmas/CoxDeBoorContinuity.lean). |
| C122 | `CutInto split q ps` in Props/LengthBounds.lean is the inductive set of lists of pieces a user can get by calling `split(t)` on pieces. Bounds: chord ≤ arc ≤ control polygon for one curve (limits of C39 with C71), arc length is additive under `split` (C95), then induction on the cuts. `C122_refine`: triangle inequality and corner cutting on the de Casteljau triangle. `C122_halving`: the second differences of the halves are a quarter of those of the curve, a polygon exceeds its chord by at most n(n-1)A. Quadratic and cubic curves through the generic type (C32). |
| C123 | Specification in Props/DistanceBounds.lean: `IsCurveDistance`, `IsCurvesDistance` (greatest lower bounds over [0,1]), `IsNearest`, `IsNearestPair`. Pieces of a `CutInto` list cover the curve and lie on it (induction on the cuts with C33); every point of a curve is within half the control polygon of an endpoint, because the two parts of `split` at that point have arc lengths that add up to that of the curve (C95, C122) and are at least as long as their chords. Halving halves the legs of the control polygon. |
| C124 | Model: the same generic functions instantiated at two float formats F and G; `Fl.convert` is the cast between them. Proof: each computed coordinate is near its Bernstein sum (C67, C62); two Bernstein sums with nearby coefficients at nearby parameters are near each other (convexity and the Lipschitz bound of C118). The binary64/binary32 case is worked out in numbers, and widening is shown to be exact. |
| C125 | Model: `Model/Usize.lean` writes every function with `usize` arithmetic again with the arithmetic as a parameter, `checked w` (debug) or `wrapping w` (release), and with the `while` loops as loops of a bounded number of rounds that can run out. Proof: both are equal to the functions on natural numbers (`Sound`: a sum or difference that fits is exact; a difference below zero panics or is at least 2^w minus the subtrahend, which is beyond every array), by congruence of the loops and by induction on the width of the search interval for the span search; a number of rounds equal to the number of knots is always enough. |
| C126 | Model: `sampleParam`, the expression of src/bspline.rs:445-448, over `Fl F`; `arclen_samples` shows that `arclen` uses it. Proof: monotonicity of rounding; if hi - lo is representable the last sample is exactly hi. `C126_false` computes the four roundings for 0.3 and 0.9 in binary64. |
| C127 | exact; piecewise function of the two evals; ContDiff by induction on the order from one-sided derivatives at the joint, converse by uniqueness of one-sided derivatives |
| C128 | exact; length as the integral of the speed (C39, C95), intermediate value theorem, strict monotonicity because a polynomial that is constant on an interval is constant (C93), inverse function for the velocity |
| C129 | The client's loop `bisect` is defined over any scalar type and any library call. The bracket is an invariant (induction on the number of steps). In floats the midpoints stay on the dyadic grid (HasDyadics), so width and parameters are exact; the bound follows from the Lipschitz bound of C118, the evaluation errors C62/C67 and the exact end points C60. |
| C130 | Props/FloatIntersect.lean: the recursion of C120 with a computed test, run with the float model; completeness by induction on the depth with the split error of C86 added per level, soundness from C84 and the shrinking control polygon (C110). For cubic curves with bounding_box the negation is proved from the curve of C84_cubic_false. |
| C131 | Verif/Props/BSplineBezier.lean. The basis functions restricted to a span are Bernstein sums with non-negative coefficients (induction on the degree: a linear function non-negative at both ends of the span times such a sum is such a sum); their sum is 1, so the coefficients sum to 1 (Bernstein coefficients are unique). With C48_partial (what eval computes) and C30 (what Bezier::eval computes) this gives the piece; uniqueness from C93. |
| C132 | `arclen` modelled as the loop over `evalOrDefault`; a loop whose body fails independently of its state fails exactly if one iteration does (`C132_panics_iff`, any arithmetic). With the exact success domains of C47 this becomes a condition on the sample parameters for each kind of knot vector (`C132_partial`, `C132_front`, `C132_back`, `C132_unclamped`). False of the code (`C132_false`): `arclen` starts at `knots[0]` for splines clamped at the end only, where `eval` panics. |
| C133 | The differences of the control points are the control points of the difference curve; the polygon bound of C71 for that curve bounds the change of `arclen`. Boxes: both boxes are filled and attained up to EPSILON/8 or EPSILON/3 (C13, C14, C24, C25) by curves that are `d` apart. `is_a_point`: triangle inequality. |
| C134 | True distances are 1-Lipschitz in the query point and in the end points; with C07 this transfers to the code where C07 holds. The jump at the end point follows from C07_false and C07_partial at points of the segment itself. |
| C135 | The points deviate from the line through p[j], p[j+1] by at most (k-j)(k-j-1)/2 times A (induction over k); weighting with the Bernstein basis and its first two moments gives the bound. Halving: second differences of de Casteljau rows are averages of those of the row before. |
| C136 | Consequences of the exact characterisations of the wrong results. Segment distance: a point that projects beyond the end projects before the start of the reversed segment. B-splines: the code leaves out the term of control point k, so it is right when that point is the origin, and B-splines commute with translations; copies of the first knot in front shift the basis functions by D and make the vector clamped at the front, and the added control points have no influence on the domain. |
| C137 | Model of the user's program: FloatCutInto (pieces by float split), sumDistances (float loop). One cut: the control points of the float halves are within sqrt(n)·E of those of the exact halves (C86/C67 errors), so by C133 the total arc length changes by at most 4(N-1)·sqrt(n)·E; induction over the cuts; chord ≤ arc ≤ polygon (C122) for the exact curve through the float control points of every piece; C88 and a relative-error loop invariant for the float sums. Halving: second differences shrink by 4 per halving up to 4·sqrt(n)·E. |
| C138 | Model of the user's program: FloatCutInto (C137), leastDistance (float loop with <). Induction over the cuts: the float pieces are paired with the pieces that the exact curve has when cut at the same parameters, and the control points of a pair differ by at most (number of cuts)·sqrt(n)·E, because split with t in [0, 1] does not enlarge distances of control points. The exact pieces cover the curve (C123), every point of a piece is within half its control polygon of an endpoint. Halving: induction over the depth, so the difference is at most k·sqrt(n)·E. C88 for the computed distances; the loop returns one of them and at most each. |
| C139 | A binary format (`FloatFormat.Binary`, proved of the IEEE formats in Lemmas/IeeeScale.lean) rounds `2^k x` to `2^k` times the rounding of `x` unless one of them is subnormal; values that are multiples of `2^m` with `m` large enough are zero or not subnormal. The relation `ScaledFl k m b x y` (y = 2^k x, x a multiple of 2^m, |x| <= 2^b) is preserved by each operation with known growth of m and b, and squared lengths scale by 2^2k, so the comparisons of the nearest-point search have the same outcome (`forRange_rel`, `search_scaled`). The segment's distance is refuted with a concrete segment. |
| C140 | Relations between two runs (`OutRel`, `OptRel`, closed under sequencing and loops) carry the scaling relation of C139 through the knot searches, the interpolation factors and the rounds of de Boor's algorithm. For (a) the factors are the same in both runs and, being 0, 1 or quotients of differences that are not below the tolerance, multiples of a known power of two; each round loses a fixed number of bits. For (b) all comparisons have the same outcome because differences of knots are 0 or not below the tolerance, and the quotients are equal. |
| C141 | The relations of C139 and C140, extended by quotients (equal in both runs, and multiples of a known power of two, since numerator and denominator are 0 or not too small), lists (pushing, filtering, sorting, first and last) and comparisons with the tolerance: on the stated grid a length, squared length, coefficient or discriminant is either 0 or not below the tolerance, in both runs. For `solve_t_for_axis` of cubic curves, whose tolerance is not in the user's units, the test for collinear points only matters if start and end coincide, and then it compares plain lengths. |
| C142 | Props/LengthRate.lean. For one curve, polygon minus chord is at most n(n^2-1)A^2/(24V) when the chord is at least nV (sum over all pairs of legs); split at t multiplies A by t^2 and sigma by t (de Casteljau triangle). Induction on the number of halvings, and on n for equal steps, cutting off the first 1/n with split. (d) in Props/FloatLengthRate.lean: C98's error per chord applied to the first chord too, plus one rounded addition. |
| C143 | Props/BSplineSmooth.lean. Smoothness is Mathlib's ContDiffAt of every coordinate; multiplicity is the number of knots equal to x. A Cox-de Boor function of degree q is continuous at x if x occurs at most q times; off the knots its derivative is the known combination of two functions of degree q-1; the derivative extends to the knot where that combination is continuous (mean value theorem, Mathlib's Extend); induction on the order. False of the code because of the jump of C81; partial, detour and repaired versions. |
| C144 | Props/BSplineMonotone.lean. The spline is control point 0 plus the legs of the control polygon times the sums of the last basis functions (summation by parts); each such sum has a right derivative that is a nonnegative multiple of one basis function of degree D-1, so it grows from 0 to 1 (mean value inequality). Strictness from the weighted sum of the shares being the parameter. False of the code; partial, detour and repaired versions. |
| C145 | Same file. The same sums bound each coordinate difference by leg lengths times growing shares; the weights (u_{i+D}-u_i)/D make the shares add up to the parameter difference (averages of D neighbouring knots reproduce the parameter). False of the code; partial, detour and repaired versions. |
| C146 | Props/BSplineInsert.lean. Each Cox-de Boor function of the old knots is a_i times new function i plus (1 - a_{i+1}) times new function i+1 (induction on the degree, all cases of the position of the new knot, repeated knots included). False of the code because eval drops the term of the last control point of the span, which refinement changes; partial, detour and repaired versions. |
| C147 | Props/BSplineVariation.lean. Sign changes as in C68. A refined control polygon consists of blends of neighbours and so has no more sign changes; inserting every sample parameter D times makes the samples control points of the refined spline, so they are a sublist. Induction on the list of samples. False of the code; partial, detour and repaired versions. |
| C148 | Props/BSplineUnique.lean. The D+1 basis functions of one span are independent: by induction on the degree, the derivative of a spline that vanishes on an interval is a spline of one degree less that vanishes there, so neighbouring coefficients are equal, and the functions add up to 1. False of the code because eval drops the term of the last control point of the span. |
| C149 | Props/BSplineConvex.lean. The right derivative of the curve is the spline of degree D-1 with the slopes of the legs as control points, which does not decrease (C144); the mean value inequality on both sides of the middle parameter. Above the polygon: summation by parts, with shares between 0 and 1. False of the code; partial, detour and repaired versions. |
| C150 | Props/BSplineChord.lean. The right derivative of the curve is the spline of degree D-1 with the slopes as control points, and the averages of D-1 knots are the control points of the parameter itself; so M x minus the derivative does not decrease (slopes_mono of C149), and M x^2 / 2 minus the curve is convex in every direction. Cauchy-Schwarz in the direction from the curve to the chord. False of the code; partial, detour and repaired versions. |
| C151 | Props/BSplinePolygon.lean. The control points of x^2 are the average products of two of the D knots (basis_square, by de Boor rounds), so M x^2 / 2 minus the curve has a convex polygon in every direction and lies above the lines through its legs (above_legShares of C149); Cauchy-Schwarz in the direction from the polygon to the curve; the variance of D numbers in an interval of length W is at most W^2/4. False of the code; partial, detour and repaired versions. |
| C152 | Boehm insertion maps the control points of x and x^2 to those for the new knots (insertValue_greville, insertValue_square). A polygon convex in a direction stays convex, as each new leg goes around one old corner (insert_convex). Applied to the parabola with second derivative M minus the polygon this shows the second differences do not grow (bends_inserted). Sequences of insertions are an inductive relation (Refines); C152_refine builds one with short spans by splitting the spans from the last to the first. Then C151. |
| C153 | Linearity of the Cox-de Boor sum in the control points. The single peak: extend the knots on both sides; basis function j minus a level x is the spline with control values -x .. 1-x .. -x, which change sign at most twice, so by variation diminishing (changes_spline of C147) its samples cannot be -, +, -, +, -. Strictly inside the support coxDeBoor_pos of C81. |
| C154 | Generalises C82. Between D-fold knots the Cox-de Boor recursion is the recursion of the Bernstein polynomials in (t - x)/(y - x): induction on the degree, with the basis functions outside the span 0 (coxDeBoor_full_span). A chain has the knots a(min((i-1)/D, m)), for which span (p+1)D has D-fold knots on both sides. |
| C155 | Linear precision of the Bernstein basis, and uniqueness of the coefficients (C93) for the converse; solve_t_for_axis from C116; convergence from Mathlib's Bernstein approximation theorem, after identifying the value of eval with the approximation. B-splines: the average of the knots is reproduced (basis_greville), the basis functions are weights of the D + 1 averages around t. Rates (ApproxRate.lean): the variance of the Bernstein weights is t(1-t)/n, with the Cauchy-Schwarz inequality for L; the linear term of the function is reproduced, its remainder is bounded by the mean value theorem for M. |
| C156 | Away from knots the Cox-de Boor recursion of the negated knots is the mirror image, by induction on the degree. At a knot of multiplicity at most D both sides are continuous (C143), so they agree there too; at the ends both are the outer control point. Length: the sampled polyline is the same in reverse. |
| C157 | The right derivative of a tail sum of basis functions of degree D + 1 is (D + 1) / (u_{i+D+1} - u_i) times the basis function i of degree D (C144). The knots are widened on both sides by simple knots, so that the tail sum is continuous and runs from 0 to 1, and the fundamental theorem of calculus with right derivatives gives the integral of the basis function. The knots 0, ..., 0, 1, ..., 1 give the Bernstein polynomials. The value at the last parameter and the jumps do not matter for the integral. evalFixed agrees with the spline on the half-open domain (C121). For eval the basis function k is missing on span k (C48_partial). |
| C158 | For the fixed degrees the integrand is expanded into powers of t and integrated term by term; the other statements about them follow from the formulas by ring. For every degree the product of two Bernstein polynomials is a multiple of one of the sum of the degrees, whose integral is known from C157. Additivity for every degree: the parts are reparametrised pieces of the curve (C33), their derivatives are determined by C34 and the chain rule, and the integral is substituted. Reversal for every degree: reindexing both sums of the formula. Translation: fundamental theorem of calculus for the coordinates; closed paths: the terms of the chords cancel. |

## 4. Disagreements between code and documentation found

1. `LineSegment::split` moves away from the end point (C06, C42).
2. `LineSegment::distance_to_point` uses the start point when the projection is
   beyond the end (C07), hence `is_linear` rejects straight curves (C18, C28).
3. `arclen` of all Bezier types skips the first chord (C15, C26, C39).
4. `distance_to_point` samples outside [0,1] and can return a distance to a point
   that is not on the curve (C16, C27, C40).
5. `CubicBezier::dd` has a wrong coefficient (C23).
6. `Bezier::derivative` panics for one control point (C35).
7. `BSpline`: knot domain of one-sided knot vectors (C45), panics inside the
   domain (C47), one control point dropped (C48, C50), degree 0 (C49), wrong span
   for unclamped vectors (C48, C51), derivative keeps too many knots (C52),
   arclen (C53), NaN factor for finite knots (C54), NaN knots accepted (C63).
8. Cubic roots use single-precision π (C56, C57).
9. NaN in inner control points is ignored by `bounding_box`, line boxes contain
   NaN (C63).
10. NaN in a control point other than the first makes `distance_to_point` of a
    curve return the distance to its start point (C75).
11. The README lists splitting among the implemented B-spline operations; there is
    no such method.
12. In floating point the box of a cubic can miss a visible part of the curve: with a
    leading coefficient of the derivative just above the machine epsilon (for instance a
    quadratic curve written as a cubic) `real_roots` loses a root to cancellation (C84).
13. In floating point Cardano's formula loses up to two thirds of the digits: with
    coefficients of size 1, `solve_t_for_axis` of a cubic can return a parameter
    at which the coordinate is wrong by 5·10⁻⁷ (C105). For a quadratic with a
    leading coefficient near the machine epsilon it can be wrong by 1/17 (C90).
14. A solution close to 0 or 1 can be missed by `solve_t_for_axis` of a cubic even in
    exact arithmetic, because of the single-precision π
    (`C57_cubic_complete_false`: the solution 10⁻⁸ is not returned).
15. `BSpline::new` accepts the knots 0.0, -0.0 as non-decreasing, but `derivative` then
    returns an infinity of the other sign than with 0.0, 0.0 (C107).
16. The last sample of `BSpline::arclen`, start + 1·(end - start), can round to a number
    after the end of the knot domain (0.3..0.9 in f64). Then `eval` is an error, which the
    comment in the source says cannot happen, and the origin is used as the point (C126).
17. Flattening with a tolerance below the precision of the coordinates never stops
    (C110).

## 5. Testing the theorems

`seeded/LOG.jsonl` records edits of the model (one per line) that imitate
realistic bugs, or repair the defects above, with the theorems that stop
proving. For each edit the whole project is rebuilt in a scratch copy; proofs
that fail are cut out there and the build continues, so that `theorems_failed`
lists every theorem whose own proof breaks and `claims_affected` every property
theorem that breaks directly or through a lemma.
