import Verif.Model.Quadratic

/-!
# src/cubic_bezier.rs and src/roots.rs
-/

namespace Stroke

/-- src/roots.rs:22-49 `roots_square` (capacity 2). -/
def rootsSquare {S : Type} [Scalar S] (a b c : S) : Option (List S) := do
  let result : List S := []
  if Scalar.lt (Scalar.abs a) Scalar.epsilon then
    if Scalar.lt (Scalar.abs b) Scalar.epsilon then
      return result
    return (← avPush 2 result (-c / b))
  let delta := b * b - a * c * lit 4
  if Scalar.lt (lit 0) delta then
    let sqrt_delta := Scalar.sqrt delta
    let result ← avPush 2 result ((-b - sqrt_delta) / (a * lit 2))
    let result ← avPush 2 result ((-b + sqrt_delta) / (a * lit 2))
    return result
  else if Scalar.lt (Scalar.abs delta) Scalar.epsilon then
    return (← avPush 2 result (-b / (a * lit 2)))
  return result

/-- `core::f32::consts::PI` converted to the scalar type: the exact value of the
f32 constant is 13176795 / 2^22 (src/roots.rs:64, src/cubic_bezier.rs:270). -/
def piF32 {S : Type} [Scalar S] : S := lit (13176795 / 4194304)

/-- src/roots.rs:57-122 `roots_cubic` (capacity 3). -/
def rootsCubic {S : Type} [Scalar S] (a b c d : S) : Option (List S) := do
  let result : List S := []
  let pi : S := piF32
  if Scalar.lt (Scalar.abs a) Scalar.epsilon then
    if Scalar.lt (Scalar.abs b) Scalar.epsilon then
      if Scalar.lt (Scalar.abs c) Scalar.epsilon then
        return result
      return (← avPush 3 result (-d / c))
    let delta := c * c - b * d * lit 4
    if Scalar.lt (lit 0) delta then
      let sqrt_delta := Scalar.sqrt delta
      let result ← avPush 3 result ((-c - sqrt_delta) / (b * lit 2))
      let result ← avPush 3 result ((-c + sqrt_delta) / (b * lit 2))
      return result
    else if Scalar.lt (Scalar.abs delta) Scalar.epsilon then
      return (← avPush 3 result (-c / (b * lit 2)))
    return result
  let frac_1_3 : S := lit 1 / lit 3
  let bn := b / a
  let cn := c / a
  let dn := d / a
  let delta0 := (cn * lit 3 - bn * bn) / lit 9
  let delta1 := (bn * cn * lit 9 - dn * lit 27 - bn * bn * bn * lit 2) / lit 54
  let delta_01 := delta0 * delta0 * delta0 + delta1 * delta1
  if Scalar.le (lit 0) delta_01 then
    let delta_p_sqrt := delta1 + Scalar.sqrt delta_01
    let delta_m_sqrt := delta1 - Scalar.sqrt delta_01
    let s := Scalar.signum delta_p_sqrt * Scalar.powf (Scalar.abs delta_p_sqrt) frac_1_3
    let t := Scalar.signum delta_m_sqrt * Scalar.powf (Scalar.abs delta_m_sqrt) frac_1_3
    let result ← avPush 3 result (-bn * frac_1_3 + (s + t))
    if Scalar.lt (Scalar.abs (s - t)) Scalar.epsilon
        && Scalar.le Scalar.epsilon (Scalar.abs (s + t)) then
      let result ← avPush 3 result (-bn * frac_1_3 - (s + t) / lit 2)
      return result
    return result
  else
    let theta := Scalar.acos (delta1 / Scalar.sqrt (-delta0 * delta0 * delta0))
    let two_sqrt_delta0 := Scalar.sqrt (-delta0) * lit 2
    let result ← avPush 3 result
      (two_sqrt_delta0 * Scalar.cos (theta * frac_1_3) - bn * frac_1_3)
    let result ← avPush 3 result
      (two_sqrt_delta0 * Scalar.cos ((theta + lit 2 * pi) * frac_1_3) - bn * frac_1_3)
    let result ← avPush 3 result
      (two_sqrt_delta0 * Scalar.cos ((theta + lit 4 * pi) * frac_1_3) - bn * frac_1_3)
    return result

/-- src/cubic_bezier.rs:11-16 `CubicBezier`. -/
structure CubicBezier (P : Type) where
  start : P
  ctrl1 : P
  ctrl2 : P
  end_ : P

namespace CubicBezier

variable {S P : Type} [Scalar S] [Point S P]

/-- src/cubic_bezier.rs:23-30 `new`. -/
def new (start ctrl1 ctrl2 end_ : P) : CubicBezier P := ⟨start, ctrl1, ctrl2, end_⟩

/-- src/cubic_bezier.rs:33-38 `eval`. -/
def eval (c : CubicBezier P) (t : S) : P :=
  c.start * ((-t + lit 1) * (-t + lit 1) * (-t + lit 1))
    + c.ctrl1 * (t * (-t + lit 1) * (-t + lit 1) * lit 3)
    + c.ctrl2 * (t * t * (-t + lit 1) * lit 3)
    + c.end_ * (t * t * t)

/-- src/cubic_bezier.rs:41-52 `eval_casteljau`. -/
def evalCasteljau (c : CubicBezier P) (t : S) : P :=
  let ctrl_1ab := c.start + (c.ctrl1 - c.start) * t
  let ctrl_1bc := c.ctrl1 + (c.ctrl2 - c.ctrl1) * t
  let ctrl_1cd := c.ctrl2 + (c.end_ - c.ctrl2) * t
  let ctrl_2ab := ctrl_1ab + (ctrl_1bc - ctrl_1ab) * t
  let ctrl_2bc := ctrl_1bc + (ctrl_1cd - ctrl_1bc) * t
  ctrl_2ab + (ctrl_2bc - ctrl_2ab) * t

/-- src/cubic_bezier.rs:54-56 `control_points`. -/
def controlPoints (c : CubicBezier P) : List P := [c.start, c.ctrl1, c.ctrl2, c.end_]

/-- src/cubic_bezier.rs:60-71 `axis`. -/
def axis (c : CubicBezier P) (t : S) (axis : Nat) : Option S := do
  let t2 := t * t
  let t3 := t2 * t
  let one_t := -t + lit 1
  let one_t2 := one_t * one_t
  let one_t3 := one_t2 * one_t
  let p0 ← Point.axis c.start axis
  let p1 ← Point.axis c.ctrl1 axis
  let p2 ← Point.axis c.ctrl2 axis
  let p3 ← Point.axis c.end_ axis
  pure (one_t3 * p0 + one_t2 * t * p1 * lit 3 + one_t * t2 * p2 * lit 3 + t3 * p3)

/-- src/cubic_bezier.rs:76-87 `arclen` (the loop runs over `1..nsteps`). -/
def arclen (c : CubicBezier P) (nsteps : Nat) : Option S :=
  let stepsize : S := lit 1 / Scalar.ofUsize nsteps
  forRange 1 nsteps (lit 0) fun t arclen => do
    let t := Scalar.ofUsize t * lit 1 / Scalar.ofUsize nsteps
    let p1 := c.evalCasteljau t
    let p2 := c.evalCasteljau (t + stepsize)
    pure (arclen + Scalar.sqrt (Point.squaredLength (p1 - p2)))

/-- src/cubic_bezier.rs:89-116 `split`. -/
def split (c : CubicBezier P) (t : S) : CubicBezier P × CubicBezier P :=
  let ctrl_1ab := c.start + (c.ctrl1 - c.start) * t
  let ctrl_1bc := c.ctrl1 + (c.ctrl2 - c.ctrl1) * t
  let ctrl_1cd := c.ctrl2 + (c.end_ - c.ctrl2) * t
  let ctrl_2ab := ctrl_1ab + (ctrl_1bc - ctrl_1ab) * t
  let ctrl_2bc := ctrl_1bc + (ctrl_1cd - ctrl_1bc) * t
  let ctrl_3ab := ctrl_2ab + (ctrl_2bc - ctrl_2ab) * t
  (⟨c.start, ctrl_1ab, ctrl_2ab, ctrl_3ab⟩, ⟨ctrl_3ab, ctrl_2bc, ctrl_1cd, c.end_⟩)

/-- src/cubic_bezier.rs:121-127 `derivative`. -/
def derivative (c : CubicBezier P) : QuadraticBezier P :=
  ⟨(c.ctrl1 - c.start) * (lit 3 : S), (c.ctrl2 - c.ctrl1) * (lit 3 : S),
    (c.end_ - c.ctrl2) * (lit 3 : S)⟩

/-- src/cubic_bezier.rs:138-149 `dd` (note `t * -3.0` in `c0`, as in the source). -/
def dd (c : CubicBezier P) (t : S) (axis : Nat) : Option S := do
  let t2 := t * t
  let c0 := t * lit (-3) + t * lit 6 - lit 3
  let c1 := t2 * lit 9 - t * lit 12 + lit 3
  let c2 := t2 * lit (-9) + t * lit 6
  let c3 := t2 * lit 3
  let p0 ← Point.axis c.start axis
  let p1 ← Point.axis c.ctrl1 axis
  let p2 ← Point.axis c.ctrl2 axis
  let p3 ← Point.axis c.end_ axis
  pure (p0 * c0 + p1 * c1 + p2 * c2 + p3 * c3)

/-- src/cubic_bezier.rs:193-222 `distance_to_point`.  The state of both loops is
`(tmin, dmin)`. -/
def distanceToPoint (c : CubicBezier P) (point : P) : Option S := do
  let nsteps : Nat := 64
  let s : S × S := (lit (1/2), Point.squaredLength (point - c.start))
  -- 1. coarse pass (lines 198-208)
  let s ← forRange 0 nsteps s fun i s => do
    let t := Scalar.ofUsize i * lit 1 / Scalar.ofUsize nsteps
    let candidate := c.eval t
    if Scalar.lt (Point.squaredLength (candidate - point)) s.2 then
      pure (t, Point.squaredLength (candidate - point))
    else pure s
  -- 2. fine pass (lines 210-220); `tmin` becomes the offset `t`, as in the source
  let s ← forRange 0 nsteps s fun i s => do
    let t := Scalar.ofUsize i * lit 1 / Scalar.ofUsize (nsteps * nsteps)
    let candidate := c.eval (s.1 + t - t * (Scalar.ofUsize nsteps / lit 2))
    if Scalar.lt (Point.squaredLength (candidate - point)) s.2 then
      pure (t, Point.squaredLength (candidate - point))
    else pure s
  pure (Scalar.sqrt s.2)

/-- src/cubic_bezier.rs:224-229 `baseline`. -/
def baseline (c : CubicBezier P) : LineSegment P := ⟨c.start, c.end_⟩

/-- src/cubic_bezier.rs:240-244 `are_points_colinear` (short-circuiting `&&`). -/
def arePointsColinear (c : CubicBezier P) (tolerance : S) : Option Bool := do
  let line := c.baseline
  let d1 ← line.distanceToPoint c.ctrl1
  if Scalar.le d1 tolerance then
    let d2 ← line.distanceToPoint c.ctrl2
    pure (Scalar.le d2 tolerance)
  else pure false

/-- src/cubic_bezier.rs:231-238 `is_linear`. -/
def isLinear (c : CubicBezier P) (tolerance : S) : Option Bool :=
  if Scalar.lt (Point.squaredLength (c.start - c.end_)) Scalar.epsilon then pure false
  else c.arePointsColinear tolerance

/-- src/cubic_bezier.rs:249-255 `is_a_point`. -/
def isAPoint (c : CubicBezier P) (tolerance : S) : Bool :=
  let tolerance_squared := tolerance * tolerance
  Scalar.le (Point.squaredLength (c.start - c.end_)) tolerance_squared
    && Scalar.le (Point.squaredLength (c.start - c.ctrl1)) tolerance_squared
    && Scalar.le (Point.squaredLength (c.end_ - c.ctrl2)) tolerance_squared

/-- src/cubic_bezier.rs:262-330 `real_roots` (roots of `a t³ + b t² + c t + d`; capacity 3). -/
def realRoots (_c : CubicBezier P) (a b c d : S) : Option (List S) := do
  let result : List S := []
  let pi : S := piF32
  if Scalar.lt (Scalar.abs a) Scalar.epsilon then
    if Scalar.lt (Scalar.abs b) Scalar.epsilon then
      if Scalar.lt (Scalar.abs c) Scalar.epsilon then
        return result
      return (← avPush 3 result (-d / c))
    let delta := c * c - b * d * lit 4
    if Scalar.lt (lit 0) delta then
      let sqrt_delta := Scalar.sqrt delta
      let result ← avPush 3 result ((-c - sqrt_delta) / (b * lit 2))
      let result ← avPush 3 result ((-c + sqrt_delta) / (b * lit 2))
      return result
    else if Scalar.lt (Scalar.abs delta) Scalar.epsilon then
      return (← avPush 3 result (-c / (b * lit 2)))
    return result
  let frac_1_3 : S := lit 1 / lit 3
  let bn := b / a
  let cn := c / a
  let dn := d / a
  let delta0 := (cn * lit 3 - bn * bn) / lit 9
  let delta1 := (bn * cn * lit 9 - dn * lit 27 - bn * bn * bn * lit 2) / lit 54
  let delta_01 := delta0 * delta0 * delta0 + delta1 * delta1
  if Scalar.le (lit 0) delta_01 then
    let delta_p_sqrt := delta1 + Scalar.sqrt delta_01
    let delta_m_sqrt := delta1 - Scalar.sqrt delta_01
    let s := Scalar.signum delta_p_sqrt * Scalar.powf (Scalar.abs delta_p_sqrt) frac_1_3
    let t := Scalar.signum delta_m_sqrt * Scalar.powf (Scalar.abs delta_m_sqrt) frac_1_3
    let result ← avPush 3 result (-bn * frac_1_3 + (s + t))
    if Scalar.lt (Scalar.abs (s - t)) Scalar.epsilon
        && Scalar.le Scalar.epsilon (Scalar.abs (s + t)) then
      let result ← avPush 3 result (-bn * frac_1_3 - (s + t) / lit 2)
      return result
    return result
  else
    let theta := Scalar.acos (delta1 / Scalar.sqrt (-delta0 * delta0 * delta0))
    let two_sqrt_delta0 := Scalar.sqrt (-delta0) * lit 2
    let result ← avPush 3 result
      (two_sqrt_delta0 * Scalar.cos (theta * frac_1_3) - bn * frac_1_3)
    let result ← avPush 3 result
      (two_sqrt_delta0 * Scalar.cos ((theta + lit 2 * pi) * frac_1_3) - bn * frac_1_3)
    let result ← avPush 3 result
      (two_sqrt_delta0 * Scalar.cos ((theta + lit 4 * pi) * frac_1_3) - bn * frac_1_3)
    return result

/-- src/cubic_bezier.rs:339-363 `solve_t_for_axis`; the last statement is the loop over the
roots, lines 356-360 (capacity 3). -/
def solveTForAxis (c : CubicBezier P) (value : S) (axis : Nat) : Option (List S) := do
  let degenerate ←
    if c.isAPoint Scalar.epsilon then pure true
    else do
      let col ← c.arePointsColinear Scalar.epsilon
      pure (col && Scalar.lt (Point.squaredLength (c.start - c.end_)) Scalar.epsilon)
  if degenerate then return []
  let p0 ← Point.axis c.start axis
  let p1 ← Point.axis c.ctrl1 axis
  let p2 ← Point.axis c.ctrl2 axis
  let p3 ← Point.axis c.end_ axis
  let ka := -p0 + p1 * lit 3 - p2 * lit 3 + p3
  let kb := p0 * lit 3 - p1 * lit 6 + p2 * lit 3
  let kc := -p0 * lit 3 + p1 * lit 3
  let kd := p0 - value
  let roots ← c.realRoots ka kb kc kd
  roots.foldlM (fun result root =>
    if Scalar.lt (lit 0) root && Scalar.lt root (lit 1) then avPush 3 result root
    else some result) []

/-- src/cubic_bezier.rs:384-407: the body of the `bounding_box` loop. -/
def axisBounds (cb : CubicBezier P) (derivative : QuadraticBezier P) (a b c : P) (dim : Nat) :
    Option (S × S) := do
  let ad ← Point.axis a dim
  let bd ← Point.axis b dim
  let cd ← Point.axis c dim
  let extrema ← avExtend 4 [] (← derivative.realRoots ad bd cd)
  let extrema := extrema.filter fun root => Scalar.lt (lit 0) root && Scalar.lt root (lit 1)
  let extrema ← extrema.mapM fun t => Point.axis (cb.evalCasteljau t) dim
  let extrema ← avPush 4 extrema (← Point.axis cb.start dim)
  let extrema ← avPush 4 extrema (← Point.axis cb.end_ dim)
  let extrema ← sortUnwrap extrema
  let lo ← extrema.head?
  let hi ← extrema.getLast?
  pure (lo, hi)

/-- src/cubic_bezier.rs:366-409 `bounding_box`. -/
def boundingBox (cb : CubicBezier P) : Option (Arr (S × S) (Point.dim P)) :=
  let derivative := cb.derivative
  let a := derivative.start + derivative.ctrl * (lit (-2) : S) + derivative.end_
  let b := derivative.start * (lit (-2) : S) + derivative.ctrl * (lit 2 : S)
  let c := derivative.start
  forRange 0 (Point.iter a).length (fun _ => (lit 0, lit 0)) fun dim bounds => do
    bounds.set? dim (← cb.axisBounds derivative a b c dim)

end CubicBezier

end Stroke
