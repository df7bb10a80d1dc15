import Verif.Model.Segment
import Verif.Model.Bezier
import Verif.Model.BSpline
import Verif.Lemmas.Sampling

/-!
# Repairs of single lines

These definitions are NOT the code of the library.  Each is the model of a function of the library
with one or two lines changed, as named in its comment.  They are used by C121 and by the theorems with
`repaired` in their names only, which show that the properties that are false of the code hold once
those lines are changed: that the specifications are met by the intended programs, and that the named
lines are what breaks them.
-/

namespace Stroke

section Line
variable {S P : Type} [Scalar S] [Point S P]

/-- src/line.rs:26-40 `split`, repaired: `end - start` instead of `start - end` in line 29. -/
def LineSegment.splitFixed (l : LineSegment P) (t : S) : LineSegment P × LineSegment P :=
  let ctrl_ab := l.start + (l.end_ - l.start) * t
  (⟨l.start, ctrl_ab⟩, ⟨ctrl_ab, l.end_⟩)

/-- src/line.rs:51-79 `distance_to_point`, repaired: the parameter defaults to 1, not 0 (line 65),
and only segments of length 0 count as points (line 54). -/
def LineSegment.distanceFixed (l : LineSegment P) (p : P) : Option S := do
  let l2 := Point.squaredLength (l.end_ - l.start)
  if Scalar.eq l2 (lit 0) then
    pure (Scalar.sqrt (Point.squaredLength (l.start - p)))
  else
    let v1 := p - l.start
    let v2 := l.end_ - l.start
    let dot ← LineSegment.dotLoop v1 v2
    let t : S := lit 1
    let t := if Scalar.lt (dot / l2) (lit 1) then dot / l2 else t
    let t := if Scalar.lt t (lit 0) then lit 0 else t
    let projection := l.start + (l.end_ - l.start) * t
    pure (Scalar.sqrt (Point.squaredLength (p - projection)))

/-- src/quadratic_bezier.rs:238-253 `is_linear` and `are_points_colinear`, with the repaired
distance. -/
def QuadraticBezier.isLinearFixed (q : QuadraticBezier P) (tolerance : S) : Option Bool :=
  if Scalar.lt (Point.squaredLength (q.start - q.end_)) Scalar.epsilon then pure false
  else do
    let d ← q.baseline.distanceFixed q.ctrl
    pure (Scalar.le d tolerance)

/-- src/cubic_bezier.rs:230-246 `is_linear` and `are_points_colinear`, with the repaired distance. -/
def CubicBezier.isLinearFixed (c : CubicBezier P) (tolerance : S) : Option Bool :=
  if Scalar.lt (Point.squaredLength (c.start - c.end_)) Scalar.epsilon then pure false
  else do
    let d1 ← c.baseline.distanceFixed c.ctrl1
    let d2 ← c.baseline.distanceFixed c.ctrl2
    pure (Scalar.le d1 tolerance && Scalar.le d2 tolerance)

/-- src/quadratic_bezier.rs:257-262 `is_a_point`, repaired: the end point is compared with the control
point as well. -/
def QuadraticBezier.isAPointFixed (q : QuadraticBezier P) (tolerance : S) : Bool :=
  let tolerance_squared := tolerance * tolerance
  Scalar.le (Point.squaredLength (q.start - q.end_)) tolerance_squared
    && Scalar.le (Point.squaredLength (q.start - q.ctrl)) tolerance_squared
    && Scalar.le (Point.squaredLength (q.end_ - q.ctrl)) tolerance_squared

/-- src/cubic_bezier.rs:138-149 `dd`, repaired: `t2` instead of `t` in the first term of `c0`. -/
def CubicBezier.ddFixed (c : CubicBezier P) (t : S) (axis : Nat) : Option S := do
  let t2 := t * t
  let c0 := t2 * lit (-3) + t * lit 6 - lit 3
  let c1 := t2 * lit 9 - t * lit 12 + lit 3
  let c2 := t2 * lit (-9) + t * lit 6
  let c3 := t2 * lit 3
  let p0 ← Point.axis c.start axis
  let p1 ← Point.axis c.ctrl1 axis
  let p2 ← Point.axis c.ctrl2 axis
  let p3 ← Point.axis c.end_ axis
  pure (p0 * c0 + p1 * c1 + p2 * c2 + p3 * c3)

/-- src/quadratic_bezier.rs:148-159 `arclen`, repaired: the loop runs over `0..nsteps`. -/
def QuadraticBezier.arclenFixed (q : QuadraticBezier P) (nsteps : Nat) : Option S :=
  let stepsize : S := lit 1 / Scalar.ofUsize nsteps
  forRange 0 nsteps (lit 0) fun t arclen => do
    let t := Scalar.ofUsize t * lit 1 / Scalar.ofUsize nsteps
    let p1 := q.evalCasteljau t
    let p2 := q.evalCasteljau (t + stepsize)
    pure (arclen + Scalar.sqrt (Point.squaredLength (p1 - p2)))

/-- src/cubic_bezier.rs:76-87 `arclen`, repaired: the loop runs over `0..nsteps`. -/
def CubicBezier.arclenFixed (c : CubicBezier P) (nsteps : Nat) : Option S :=
  let stepsize : S := lit 1 / Scalar.ofUsize nsteps
  forRange 0 nsteps (lit 0) fun t arclen => do
    let t := Scalar.ofUsize t * lit 1 / Scalar.ofUsize nsteps
    let p1 := c.evalCasteljau t
    let p2 := c.evalCasteljau (t + stepsize)
    pure (arclen + Scalar.sqrt (Point.squaredLength (p1 - p2)))

/-- src/bezier.rs:241-252 `arclen`, repaired: the loop runs over `0..nsteps`. -/
def Bezier.arclenFixed {N : Nat} (b : Bezier P N) (nsteps : Nat) : Option S :=
  let stepsize : S := lit 1 / Scalar.ofUsize nsteps
  forRange 0 nsteps (lit 0) fun t arclen => do
    let t := Scalar.ofUsize t * lit 1 / Scalar.ofUsize nsteps
    let p1 ← b.eval t
    let p2 ← b.eval (t + stepsize)
    pure (arclen + Scalar.sqrt (Point.squaredLength (p1 - p2)))

/-- The second pass of `distance_to_point` (src/quadratic_bezier.rs:215-224,
src/cubic_bezier.rs:210-220, src/bezier.rs:106-116), repaired: the parameters are
`tmin + (i - 32)/4096`, cut off at 0 and 1, around the `tmin` of the first pass. -/
def finePassFixed (eval : S → Option P) (point : P) (s : S × S) : Option (S × S) :=
  let tmin := s.1
  forRange 0 nstepsDistance s fun i s => do
    let u := tmin + (Scalar.ofUsize i - lit 32) / Scalar.ofUsize (nstepsDistance * nstepsDistance)
    let u := if Scalar.lt u (lit 0) then lit 0 else u
    let u := if Scalar.lt (lit 1) u then lit 1 else u
    let candidate ← eval u
    if Scalar.lt (Point.squaredLength (candidate - point)) s.2 then
      pure (u, Point.squaredLength (candidate - point))
    else pure s

/-- `distance_to_point` of the curves, for an arbitrary evaluation method and first control point,
with the repaired second pass. -/
def searchDistanceFixed (eval : S → Option P) (first point : P) : Option S := do
  let s : S × S := (lit (1/2), Point.squaredLength (point - first))
  let s ← coarsePass eval point s
  let s ← finePassFixed eval point s
  pure (Scalar.sqrt s.2)

/-- `distance_to_point` of quadratic curves with the repaired second pass. -/
def QuadraticBezier.distanceFixed (q : QuadraticBezier P) (point : P) : Option S :=
  searchDistanceFixed (fun t => some (q.eval t)) q.start point

/-- `distance_to_point` of cubic curves with the repaired second pass. -/
def CubicBezier.distanceFixed (c : CubicBezier P) (point : P) : Option S :=
  searchDistanceFixed (fun t => some (c.eval t)) c.start point

/-- `distance_to_point` of generic curves with the repaired second pass. -/
def Bezier.distanceFixed {N : Nat} (b : Bezier P N) (point : P) : Option S := do
  searchDistanceFixed b.eval (← b.control_points.get? 0) point

end Line

namespace BSpline
variable {S P : Type} [Scalar S] [Point S P] {K C D : Nat}

/-- src/bspline.rs:262-264, repaired: `for j in 0..=D`. -/
def copyPointsFixed (control_points : Arr P C) (k : Nat) (d : Arr P (D + 1)) :
    Option (Arr P (D + 1)) :=
  forRange 0 (D + 1) d fun j d => do
    d.set? j (← control_points.get? (← usub (j + k) D))

/-- src/bspline.rs:282-298, repaired: the quotient without the comparisons with the machine epsilon
(lines 289-295); in the span of `t` the denominator is positive. -/
def alphaFixed (knots : Arr S K) (t : S) (k r j : Nat) : Outcome S := do
  let kl ← .ofOption (do knots.get? (← usub (j + k) D))
  let kr ← .ofOption (do knots.get? (← usub (j + 1 + k) r))
  let alpha : S := (t - kl) / (kr - kl)
  if Scalar.isNaN alpha then .err .EvaluationAlphaIsNaN else pure alpha

/-- src/bspline.rs:280-302 with the repaired factor. -/
def deBoorRoundFixed (knots : Arr S K) (t : S) (k r : Nat) (d : Arr P (D + 1)) :
    Outcome (Arr P (D + 1)) :=
  forRangeRev r (D + 1) d fun j d => do
    let a ← alphaFixed (D := D) knots t k r j
    let dl ← .ofOption (do d.get? (← usub j 1))
    let dj ← .ofOption (d.get? j)
    .ofOption (d.set? j (dl * (lit 1 - a) + dj * a))

/-- src/bspline.rs:241-305 `de_boor_iterative`, repaired: as above, and the search for clamped
splines (lines 347-366) is used for all kinds. -/
def deBoorFixed (b : BSpline S P K C D) (t : S) : Outcome P := do
  let kC ← .ofOption (b.knots.get? C)
  if Scalar.eq t kC then
    .ofOption (do b.control_points.get? (← usub C 1))
  else
    match ← .ofOption (b.spanClamped t) with
    | none => .err .KnotDomainViolation
    | some k =>
      let d : Arr P (D + 1) := fun _ => Point.default
      let d ← .ofOption (copyPointsFixed b.control_points k d)
      let d ← forRange 1 (D + 1) d fun r d => deBoorRoundFixed b.knots t k r d
      .ofOption (d.get? D)

/-- src/bspline.rs:115-129 `eval`, repaired: as above, and the domain is `knots[D]`, `knots[C]` for
all kinds (lines 146-153). -/
def evalFixed (b : BSpline S P K C D) (t : S) : Outcome P := do
  let (knot_start, knot_end) ← .ofOption b.knotDomainUnclamped
  if Scalar.lt t knot_start || Scalar.lt knot_end t then
    .err .KnotDomainViolation
  else
    b.deBoorFixed t

/-- `self.eval(t).unwrap_or_else(|_| P::default())`, src/bspline.rs:449-456, with the repaired
evaluation. -/
def evalOrDefaultFixed (b : BSpline S P K C D) (t : S) : Option P :=
  match b.evalFixed t with
  | .ok p => some p
  | .err _ => some Point.default
  | .panic => none

/-- src/bspline.rs:436-460 `arclen`, repaired: the step is `(kmax - kmin)/nsteps` (line 440), the loop
runs over `0..nsteps` (line 445), and domain and evaluation are the repaired ones. -/
def arclenFixed (b : BSpline S P K C D) (nsteps : Nat) : Option S := do
  let (kmin, kmax) ← b.knotDomainUnclamped
  let stepsize : S := (kmax - kmin) / Scalar.ofUsize nsteps
  forRange 0 nsteps (lit 0) fun t arclen => do
    let t := kmin + Scalar.ofUsize t / Scalar.ofUsize nsteps * (kmax - kmin)
    let p1 ← b.evalOrDefaultFixed t
    let p2 ← b.evalOrDefaultFixed (t + stepsize)
    pure (arclen + Scalar.sqrt (Point.squaredLength (p1 - p2)))

/-- src/bspline.rs:445-448, the parameter of sample `i` of `n`, repaired: not beyond the end of the
domain. -/
def sampleFixed (kmin kmax : S) (i n : Nat) : S :=
  let t := kmin + Scalar.ofUsize i / Scalar.ofUsize n * (kmax - kmin)
  if Scalar.lt kmax t then kmax else t

/-- src/bspline.rs:471-485 `derivative`, repaired: the first and the last knot are left out (line
484). -/
def derivativeFixed (b : BSpline S P K C D) : Option (BSpline S P (K - 2) (C - 1) (D - 1)) := do
  let d ← b.derivative
  pure { knots := fun i => b.knots ⟨i.val + 1, by have := i.2; omega⟩, knot_kind := d.knot_kind,
         control_points := d.control_points }

end BSpline

section Roots
variable {S P : Type} [Scalar S] [Point S P]

/-- src/roots.rs:22-49 `roots_square` and src/quadratic_bezier.rs:164-192 `real_roots`, repaired: the
coefficients and the discriminant are compared with 0, not with EPSILON. -/
def rootsSquareFixed (a b c : S) : Option (List S) := do
  let result : List S := []
  if Scalar.eq a (lit 0) then
    if Scalar.eq b (lit 0) then
      return result
    return (← avPush 2 result (-c / b))
  let delta := b * b - a * c * lit 4
  if Scalar.lt (lit 0) delta then
    let sqrt_delta := Scalar.sqrt delta
    let result ← avPush 2 result ((-b - sqrt_delta) / (a * lit 2))
    let result ← avPush 2 result ((-b + sqrt_delta) / (a * lit 2))
    return result
  else if Scalar.eq delta (lit 0) then
    return (← avPush 2 result (-b / (a * lit 2)))
  return result

/-- src/roots.rs:57-122 `roots_cubic` and src/cubic_bezier.rs:262-330 `real_roots`, repaired: π is
that of the scalar type (`acos(-1)`) and not the one of `f32` (lines 64, 270); the coefficients and
the discriminant are compared with 0, not with EPSILON, and the second value of the one-root case is
returned if `s = t` and `s + t ≠ 0`. -/
def rootsCubicFixed (a b c d : S) : Option (List S) := do
  let result : List S := []
  let pi : S := Scalar.acos (lit (-1))
  if Scalar.eq a (lit 0) then
    return (← rootsSquareFixed b c d)
  let frac_1_3 : S := lit 1 / lit 3
  let bn := b / a
  let cn := c / a
  let dn := d / a
  let delta0 := (cn * lit 3 - bn * bn) / lit 9
  let delta1 := (bn * cn * lit 9 - dn * lit 27 - bn * bn * bn * lit 2) / lit 54
  let delta_01 := delta0 * delta0 * delta0 + delta1 * delta1
  if Scalar.le (lit 0) delta_01 then
    let delta_p_sqrt := delta1 + Scalar.sqrt delta_01
    let delta_m_sqrt := delta1 - Scalar.sqrt delta_01
    let s := Scalar.signum delta_p_sqrt * Scalar.powf (Scalar.abs delta_p_sqrt) frac_1_3
    let t := Scalar.signum delta_m_sqrt * Scalar.powf (Scalar.abs delta_m_sqrt) frac_1_3
    let result ← avPush 3 result (-bn * frac_1_3 + (s + t))
    if Scalar.eq (s - t) (lit 0) && !Scalar.eq (s + t) (lit 0) then
      let result ← avPush 3 result (-bn * frac_1_3 - (s + t) / lit 2)
      return result
    return result
  else
    let theta := Scalar.acos (delta1 / Scalar.sqrt (-delta0 * delta0 * delta0))
    let two_sqrt_delta0 := Scalar.sqrt (-delta0) * lit 2
    let result ← avPush 3 result
      (two_sqrt_delta0 * Scalar.cos (theta * frac_1_3) - bn * frac_1_3)
    let result ← avPush 3 result
      (two_sqrt_delta0 * Scalar.cos ((theta + lit 2 * pi) * frac_1_3) - bn * frac_1_3)
    let result ← avPush 3 result
      (two_sqrt_delta0 * Scalar.cos ((theta + lit 4 * pi) * frac_1_3) - bn * frac_1_3)
    return result

/-- src/quadratic_bezier.rs:271-292 `solve_t_for_axis`, repaired: without the early return for
collinear curves whose ends are close together (lines 274-279), and with the repaired root finder. -/
def QuadraticBezier.solveFixed (q : QuadraticBezier P) (value : S) (axis : Nat) :
    Option (List S) := do
  let s ← Point.axis q.start axis
  let k ← Point.axis q.ctrl axis
  let e ← Point.axis q.end_ axis
  let a := s + k * lit (-2) + e
  let b := s * lit (-2) + k * lit 2
  let c := s - value
  let roots ← rootsSquareFixed a b c
  roots.foldlM (fun result root =>
    if Scalar.lt (lit 0) root && Scalar.lt root (lit 1) then avPush 3 result root
    else some result) []

/-- src/cubic_bezier.rs:339-363 `solve_t_for_axis`, repaired in the same way. -/
def CubicBezier.solveFixed (c : CubicBezier P) (value : S) (axis : Nat) : Option (List S) := do
  let p0 ← Point.axis c.start axis
  let p1 ← Point.axis c.ctrl1 axis
  let p2 ← Point.axis c.ctrl2 axis
  let p3 ← Point.axis c.end_ axis
  let ka := -p0 + p1 * lit 3 - p2 * lit 3 + p3
  let kb := p0 * lit 3 - p1 * lit 6 + p2 * lit 3
  let kc := -p0 * lit 3 + p1 * lit 3
  let kd := p0 - value
  let roots ← rootsCubicFixed ka kb kc kd
  roots.foldlM (fun result root =>
    if Scalar.lt (lit 0) root && Scalar.lt root (lit 1) then avPush 3 result root
    else some result) []

/-- src/quadratic_bezier.rs:305-325: the body of the `bounding_box` loop, repaired: the root of the
derivative is sought when its slope is not 0, not when it is at least EPSILON (src/line.rs:94). -/
def QuadraticBezier.axisBoundsFixed (q : QuadraticBezier P) (a b : P) (dim : Nat) :
    Option (S × S) := do
  let ad ← Point.axis a dim
  let bd ← Point.axis b dim
  let roots ← if Scalar.eq ad (lit 0) then some [] else avPush 1 [] (-bd / ad)
  let extrema ← avExtend 3 [] roots
  let extrema := extrema.filter fun root => Scalar.lt (lit 0) root && Scalar.lt root (lit 1)
  let extrema ← extrema.mapM fun t => Point.axis (q.evalCasteljau t) dim
  let extrema ← avPush 3 extrema (← Point.axis q.start dim)
  let extrema ← avPush 3 extrema (← Point.axis q.end_ dim)
  let extrema ← sortUnwrap extrema
  let lo ← extrema.head?
  let hi ← extrema.getLast?
  pure (lo, hi)

/-- src/quadratic_bezier.rs:295-328 `bounding_box`, with the repaired loop body. -/
def QuadraticBezier.boundingBoxFixed (q : QuadraticBezier P) :
    Option (Arr (S × S) (Point.dim P)) :=
  let derivative := q.derivative
  let a := derivative.start * (lit (-1) : S) + derivative.end_
  let b := derivative.start
  forRange 0 (Point.iter a).length (fun _ => (lit 0, lit 0)) fun dim bounds => do
    bounds.set? dim (← q.axisBoundsFixed a b dim)

/-- src/cubic_bezier.rs:384-407: the body of the `bounding_box` loop, with the repaired root
finder. -/
def CubicBezier.axisBoundsFixed (cb : CubicBezier P) (a b c : P) (dim : Nat) :
    Option (S × S) := do
  let ad ← Point.axis a dim
  let bd ← Point.axis b dim
  let cd ← Point.axis c dim
  let extrema ← avExtend 4 [] (← rootsSquareFixed ad bd cd)
  let extrema := extrema.filter fun root => Scalar.lt (lit 0) root && Scalar.lt root (lit 1)
  let extrema ← extrema.mapM fun t => Point.axis (cb.evalCasteljau t) dim
  let extrema ← avPush 4 extrema (← Point.axis cb.start dim)
  let extrema ← avPush 4 extrema (← Point.axis cb.end_ dim)
  let extrema ← sortUnwrap extrema
  let lo ← extrema.head?
  let hi ← extrema.getLast?
  pure (lo, hi)

/-- src/cubic_bezier.rs:366-409 `bounding_box`, with the repaired loop body. -/
def CubicBezier.boundingBoxFixed (cb : CubicBezier P) : Option (Arr (S × S) (Point.dim P)) :=
  let derivative := cb.derivative
  let a := derivative.start + derivative.ctrl * (lit (-2) : S) + derivative.end_
  let b := derivative.start * (lit (-2) : S) + derivative.ctrl * (lit 2 : S)
  let c := derivative.start
  forRange 0 (Point.iter a).length (fun _ => (lit 0, lit 0)) fun dim bounds => do
    bounds.set? dim (← cb.axisBoundsFixed a b c dim)

end Roots

end Stroke
