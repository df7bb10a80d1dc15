import Verif.Model.Line

/-!
# src/quadratic_bezier.rs
-/

namespace Stroke

/-- src/quadratic_bezier.rs:6-10 `QuadraticBezier`. -/
structure QuadraticBezier (P : Type) where
  start : P
  ctrl : P
  end_ : P

namespace QuadraticBezier

variable {S P : Type} [Scalar S] [Point S P]

/-- src/quadratic_bezier.rs:17-19 `new`. -/
def new (start ctrl end_ : P) : QuadraticBezier P := ⟨start, ctrl, end_⟩

/-- src/quadratic_bezier.rs:22-28 `eval`. -/
def eval (q : QuadraticBezier P) (t : S) : P :=
  let t2 := t * t
  let one_t := -t + lit 1
  let one_t2 := one_t * one_t
  q.start * one_t2 + q.ctrl * (lit 2 : S) * one_t * t + q.end_ * t2

/-- src/quadratic_bezier.rs:31-38 `eval_casteljau`. -/
def evalCasteljau (q : QuadraticBezier P) (t : S) : P :=
  let ctrl_1ab := q.start + (q.ctrl - q.start) * t
  let ctrl_1bc := q.ctrl + (q.end_ - q.ctrl) * t
  ctrl_1ab + (ctrl_1bc - ctrl_1ab) * t

/-- src/quadratic_bezier.rs:40-42 `control_points`. -/
def controlPoints (q : QuadraticBezier P) : List P := [q.start, q.ctrl, q.end_]

/-- src/quadratic_bezier.rs:44-64 `split`. -/
def split (q : QuadraticBezier P) (t : S) : QuadraticBezier P × QuadraticBezier P :=
  let ctrl_1ab := q.start + (q.ctrl - q.start) * t
  let ctrl_1bc := q.ctrl + (q.end_ - q.ctrl) * t
  let ctrl_2ab := ctrl_1ab + (ctrl_1bc - ctrl_1ab) * t
  (⟨q.start, ctrl_1ab, ctrl_2ab⟩, ⟨ctrl_2ab, ctrl_1bc, q.end_⟩)

/-- src/quadratic_bezier.rs:70-78 `axis`. -/
def axis (q : QuadraticBezier P) (t : S) (axis : Nat) : Option S := do
  let t2 := t * t
  let one_t := -t + lit 1
  let one_t2 := one_t * one_t
  let s ← Point.axis q.start axis
  let c ← Point.axis q.ctrl axis
  let e ← Point.axis q.end_ axis
  pure (s * one_t2 + c * lit 2 * one_t * t + e * t2)

/-- src/quadratic_bezier.rs:84-89 `derivative`. -/
def derivative (q : QuadraticBezier P) : LineSegment P :=
  ⟨(q.ctrl - q.start) * (lit 2 : S), (q.end_ - q.ctrl) * (lit 2 : S)⟩

/-- src/quadratic_bezier.rs:100-107 `dd`. -/
def dd (q : QuadraticBezier P) (t : S) (axis : Nat) : Option S := do
  let c0 := t * lit 2 - lit 2
  let c1 := lit 2 - lit 4 * t
  let c2 := lit 2 * t
  let s ← Point.axis q.start axis
  let c ← Point.axis q.ctrl axis
  let e ← Point.axis q.end_ axis
  pure (s * c0 + c * c1 + e * c2)

/-- src/quadratic_bezier.rs:148-159 `arclen` (the loop runs over `1..nsteps`). -/
def arclen (q : QuadraticBezier P) (nsteps : Nat) : Option S :=
  let stepsize : S := lit 1 / Scalar.ofUsize nsteps
  forRange 1 nsteps (lit 0) fun t arclen => do
    let t := Scalar.ofUsize t * lit 1 / Scalar.ofUsize nsteps
    let p1 := q.evalCasteljau t
    let p2 := q.evalCasteljau (t + stepsize)
    pure (arclen + Scalar.sqrt (Point.squaredLength (p1 - p2)))

/-- src/quadratic_bezier.rs:164-192 `real_roots` (roots of `a t² + b t + c`;
capacity 2). -/
def realRoots (_q : QuadraticBezier P) (a b c : S) : Option (List S) := do
  let result : List S := []
  if Scalar.lt (Scalar.abs a) Scalar.epsilon then
    if Scalar.lt (Scalar.abs b) Scalar.epsilon then
      return result
    return (← avPush 2 result (-c / b))
  let delta := b * b - a * c * lit 4
  if Scalar.lt (lit 0) delta then
    let sqrt_delta := Scalar.sqrt delta
    let result ← avPush 2 result ((-b - sqrt_delta) / (a * lit 2))
    let result ← avPush 2 result ((-b + sqrt_delta) / (a * lit 2))
    return result
  else if Scalar.lt (Scalar.abs delta) Scalar.epsilon then
    return (← avPush 2 result (-b / (a * lit 2)))
  return result

/-- src/quadratic_bezier.rs:199-226 `distance_to_point`.  The state of both loops is
`(tmin, dmin)`. -/
def distanceToPoint (q : QuadraticBezier P) (point : P) : Option S := do
  let nsteps : Nat := 64
  let s : S × S := (lit (1/2), Point.squaredLength (point - q.start))
  -- 1. coarse pass (lines 204-213)
  let s ← forRange 0 nsteps s fun i s => do
    let t := Scalar.ofUsize i * lit 1 / Scalar.ofUsize nsteps
    let candidate := q.eval t
    if Scalar.lt (Point.squaredLength (candidate - point)) s.2 then
      pure (t, Point.squaredLength (candidate - point))
    else pure s
  -- 2. fine pass (lines 215-224); `tmin` becomes the offset `t`, as in the source
  let s ← forRange 0 nsteps s fun i s => do
    let t := Scalar.ofUsize i * lit 1 / Scalar.ofUsize (nsteps * nsteps)
    let candidate := q.eval (s.1 + t - t * (Scalar.ofUsize nsteps / lit 2))
    if Scalar.lt (Point.squaredLength (candidate - point)) s.2 then
      pure (t, Point.squaredLength (candidate - point))
    else pure s
  pure (Scalar.sqrt s.2)

/-- src/quadratic_bezier.rs:230-235 `baseline`. -/
def baseline (q : QuadraticBezier P) : LineSegment P := ⟨q.start, q.end_⟩

/-- src/quadratic_bezier.rs:250-253 `are_points_colinear`. -/
def arePointsColinear (q : QuadraticBezier P) (tolerance : S) : Option Bool := do
  let line := q.baseline
  let d ← line.distanceToPoint q.ctrl
  pure (Scalar.le d tolerance)

/-- src/quadratic_bezier.rs:238-246 `is_linear`. -/
def isLinear (q : QuadraticBezier P) (tolerance : S) : Option Bool :=
  if Scalar.lt (Point.squaredLength (q.start - q.end_)) Scalar.epsilon then pure false
  else q.arePointsColinear tolerance

/-- src/quadratic_bezier.rs:257-262 `is_a_point`. -/
def isAPoint (q : QuadraticBezier P) (tolerance : S) : Bool :=
  let tolerance_squared := tolerance * tolerance
  Scalar.le (Point.squaredLength (q.start - q.end_)) tolerance_squared
    && Scalar.le (Point.squaredLength (q.start - q.ctrl)) tolerance_squared

/-- src/quadratic_bezier.rs:271-292 `solve_t_for_axis`; the last statement is the loop
over the roots, lines 285-289 (capacity 3). -/
def solveTForAxis (q : QuadraticBezier P) (value : S) (axis : Nat) : Option (List S) := do
  let degenerate ←
    if q.isAPoint Scalar.epsilon then pure true
    else do
      let col ← q.arePointsColinear (lit 0)
      pure (col && Scalar.lt (Point.squaredLength (q.start - q.end_)) Scalar.epsilon)
  if degenerate then return []
  let s ← Point.axis q.start axis
  let k ← Point.axis q.ctrl axis
  let e ← Point.axis q.end_ axis
  let a := s + k * lit (-2) + e
  let b := s * lit (-2) + k * lit 2
  let c := s - value
  let roots ← q.realRoots a b c
  roots.foldlM (fun result root =>
    if Scalar.lt (lit 0) root && Scalar.lt root (lit 1) then avPush 3 result root
    else some result) []

/-- src/quadratic_bezier.rs:305-325: the body of the `bounding_box` loop, for one
dimension: candidate extrema, sorted; first and last. -/
def axisBounds (q : QuadraticBezier P) (derivative : LineSegment P) (a b : P) (dim : Nat) :
    Option (S × S) := do
  let ad ← Point.axis a dim
  let bd ← Point.axis b dim
  let extrema ← avExtend 3 [] (← derivative.root ad bd)
  let extrema := extrema.filter fun root => Scalar.lt (lit 0) root && Scalar.lt root (lit 1)
  let extrema ← extrema.mapM fun t => Point.axis (q.evalCasteljau t) dim
  let extrema ← avPush 3 extrema (← Point.axis q.start dim)
  let extrema ← avPush 3 extrema (← Point.axis q.end_ dim)
  let extrema ← sortUnwrap extrema
  let lo ← extrema.head?
  let hi ← extrema.getLast?
  pure (lo, hi)

/-- src/quadratic_bezier.rs:295-328 `bounding_box`. -/
def boundingBox (q : QuadraticBezier P) : Option (Arr (S × S) (Point.dim P)) :=
  let derivative := q.derivative
  let a := derivative.start * (lit (-1) : S) + derivative.end_
  let b := derivative.start
  forRange 0 (Point.iter a).length (fun _ => (lit 0, lit 0)) fun dim bounds => do
    bounds.set? dim (← q.axisBounds derivative a b dim)

end QuadraticBezier

end Stroke
