import Verif.Model.Segment
import Verif.Model.Bezier
import Verif.Model.BSpline

/-!
# Reading check: the crate's own unit tests, run against the model

These are tests, not proofs: the model is instantiated with Lean's `Float`
(binary64) and the `#[test]` functions of /repo are replayed.  No theorem
depends on this file.  All tests of the crate pass on the model, as they do on
the code, including those that only pass by accident (see DESIGN.md).
-/

namespace Stroke.UnitTests

instance : Scalar Float where
  lit q := Float.ofInt q.num / Float.ofNat q.den
  ofUsize := Float.ofNat
  lt a b := decide (a < b)
  le a b := decide (a ≤ b)
  eq a b := a == b
  abs := Float.abs
  sqrt := Float.sqrt
  cos := Float.cos
  acos := Float.acos
  signum x := if x.isNaN then x else if x < 0 then -1 else 1
  powf := Float.pow
  isNaN := Float.isNaN
  epsilon := Float.scaleB 1 (-52)

abbrev Pt := PointN Float 2

def pt (x y : Float) : Pt := ⟨fun i => if i.val = 0 then x else y⟩
def pt3 (x y z : Float) : PointN Float 3 :=
  ⟨fun i => if i.val = 0 then x else if i.val = 1 then y else z⟩
def arr {α : Type} (l : List α) : Arr α l.length := fun i => l[i]
def eps : Float := Scalar.epsilon
def sq {n} (p : PointN Float n) : Float := Point.squaredLength p
def small (p : Pt) : Bool := sq p < eps

/-- `t as f64 / nsteps as f64` for `t in 0..=nsteps` -/
def steps (n : Nat) : List Float := (List.range (n + 1)).map fun i => i.toFloat / n.toFloat

-- src/line.rs:124-133 line_segment_interpolation
#guard
  let l := LineSegment.new (pt 0 1.77) (pt 4.3 3)
  let mid := l.eval 0.5
  sq (mid - l.start) - sq (mid - l.end_) < eps

-- src/line.rs:136-152 line_segment_distance_to_point
#guard
  let l := LineSegment.new (pt3 0 1 0) (pt3 3 1 0)
  match l.distanceToPoint (pt3 0 5 0) with
  | some d => d - 4 < eps && (Float.sqrt (sq (pt3 0 5 0 - l.start)) - 4).abs < eps
      && (Float.sqrt (sq (pt3 0 5 0 - l.end_)) - 5).abs < eps
      && (Float.sqrt (sq (pt3 1.5 2 0 - l.eval 0.5)) - 1).abs < eps
  | none => false

-- src/quadratic_bezier.rs:425-442 eval_equivalence
#guard
  let b := QuadraticBezier.new (pt 0 1.77) (pt 4.3 3) (pt 3.2 (-4))
  (steps 1000).all fun t => small (b.evalCasteljau t - b.eval t)

-- src/quadratic_bezier.rs:445-467 split_equivalence
#guard
  let b := QuadraticBezier.new (pt 0 1.77) (pt 4.3 3) (pt 3.2 (-4))
  let (l, r) := b.split (0.5 : Float)
  (steps 1000).all fun t =>
    small (b.eval (t / 2) - l.eval t) && small (b.eval (t * 0.5 + 0.5) - r.eval t)

def inBox (p : Pt) (bounds : Arr (Float × Float) 2) : Bool :=
  (List.finRange 2).all fun i =>
    (bounds i).1 - 1e-2 ≤ p.coords i && p.coords i ≤ (bounds i).2 + 1e-2

-- src/quadratic_bezier.rs:470-491 bounding_box_contains
#guard
  let b := QuadraticBezier.new (pt 0 1.77) (pt 4.3 (-3)) (pt 3.2 4)
  match b.boundingBox with
  | some bounds => (steps 100).all fun t => inBox (b.evalCasteljau t) bounds
  | none => false

-- src/quadratic_bezier.rs:495-503 distance_to_point
#guard
  let b := QuadraticBezier.new (pt 0 1.77) (pt 4.3 3) (pt 3.2 (-4))
  match b.distanceToPoint (pt (-5.1) (-5.6)), b.distanceToPoint (pt 5.1 5.6) with
  | some a, some b => a > b
  | _, _ => false

-- src/cubic_bezier.rs:478-522 circle_circumference_approximation
def circ : List (CubicBezier Pt) :=
  let c := 0.551915024494
  [ .new (pt 0 1) (pt c 1) (pt 1 c) (pt 1 0), .new (pt 1 0) (pt 1 (-c)) (pt c (-1)) (pt 0 (-1)),
    .new (pt 0 (-1)) (pt (-c) (-1)) (pt (-1) (-c)) (pt (-1) 0),
    .new (pt (-1) 0) (pt (-1) c) (pt (-c) 1) (pt 0 1)]
#guard
  let len := (circ.filterMap fun b => b.arclen 1000).foldl (· + ·) 0
  let tau := 2 * 3.14159265358979323846
  tau + 1e-2 > len && tau - 1e-2 < len

-- src/cubic_bezier.rs:418-475 circle_approximation_error
#guard
  circ.all fun b => (steps 1000).all fun t =>
    (Float.sqrt (sq (b.eval t)) - 1).abs ≤ 0.019608 * 0.01

def cub : CubicBezier Pt := .new (pt 0 1.77) (pt 1.1 (-1)) (pt 4.3 3) (pt 3.2 (-4))

-- src/cubic_bezier.rs:525-543 eval_equivalence_casteljau
#guard (steps 1000).all fun t => small (cub.evalCasteljau t - cub.eval t)

-- src/cubic_bezier.rs:546-569 split_equivalence
#guard
  let b : CubicBezier Pt := .new (pt 0 1.77) (pt 2.9 0) (pt 4.3 3) (pt 3.2 (-4))
  let (l, r) := b.split (0.5 : Float)
  (steps 1000).all fun t =>
    small (b.eval (t / 2) - l.eval t) && small (b.eval (t * 0.5 + 0.5) - r.eval t)

-- src/cubic_bezier.rs:572-596 bounding_box_contains
#guard
  let b : CubicBezier Pt := .new (pt 0 1.77) (pt 2.9 0) (pt 4.3 (-3)) (pt 3.2 4)
  match b.boundingBox with
  | some bounds => (steps 100).all fun t => inBox (b.evalCasteljau t) bounds
  | none => false

-- src/cubic_bezier.rs:599-611 distance_to_point
#guard
  match cub.distanceToPoint (pt (-5.1) (-5.6)), cub.distanceToPoint (pt 5.1 5.6) with
  | some a, some b => a > b
  | _, _ => false

-- src/bezier.rs:264-284 eval_endpoints
#guard
  let ps := [pt 0 1.77, pt 1.1 (-1), pt 4.3 3, pt 3.2 (-4), pt 7.3 2.7, pt 8.9 1.7]
  let b := Bezier.new (arr ps)
  match b.eval (0 : Float), b.eval (1 : Float) with
  | some s, some e => small (s - pt 0 1.77) && small (e - pt 8.9 1.7)
  | _, _ => false

-- src/bezier.rs:287-301 distance_to_point
#guard
  let b := Bezier.new (arr [pt 0 1.77, pt 2.9 0, pt 4.3 3, pt 3.2 (-4)])
  match b.distanceToPoint (pt (-5.1) (-5.6)), b.distanceToPoint (pt 5.1 5.6) with
  | some a, some b => a > b
  | _, _ => false

-- src/bezier.rs:304-329 split_equivalence
#guard
  let b := Bezier.new (arr [pt 0 1.77, pt 2.9 0, pt 4.3 3, pt 3.2 (-4)])
  match b.split (0.5 : Float) with
  | none => false
  | some (l, r) => (steps 1000).all fun t =>
    match b.eval (t / 2), l.eval t, b.eval (t * 0.5 + 0.5), r.eval t with
    | some p, some q, some p', some q' => small (p - q) && small (p' - q')
    | _, _, _, _ => false

-- src/bezier.rs:334-357, 362-383 equivalence with the specialisations
#guard
  let b := Bezier.new (arr [pt 0 1.77, pt 1.1 (-1), pt 4.3 3, pt 3.2 (-4)])
  let q := QuadraticBezier.new (pt 0 1.77) (pt 1.1 (-1)) (pt 3.2 (-4))
  let b3 := Bezier.new (arr [pt 0 1.77, pt 1.1 (-1), pt 3.2 (-4)])
  (steps 1000).all fun t =>
    match b.eval t, b3.eval t with
    | some p, some p3 => small (cub.eval t - p) && small (q.eval t - p3)
    | _, _ => false

/-! B-splines -/

abbrev Curve (K C D : Nat) := BSpline Float Pt K C D

def mk (D : Nat) (knots : List Float) (ps : List Pt) :
    Option (Curve knots.length ps.length D) :=
  match BSpline.new (D := D) (arr knots) (arr ps) with
  | .ok c => some c
  | _ => none

def allOk {K C D} (c : Curve K C D) : Bool :=
  match c.knotDomain with
  | none => false
  | some (kmin, kmax) => (steps 100).all fun s =>
    match c.eval (kmin + s * (kmax - kmin)) with
    | .ok _ => true
    | _ => false

def evalsTo {K C D} (c : Curve K C D) (t : Float) (p : Pt) : Bool :=
  match c.eval t with
  | .ok q => Point.eq q p
  | _ => false

def violates {K C D} (c : Curve K C D) (t : Float) : Bool :=
  match c.eval t with
  | .err .KnotDomainViolation => true
  | _ => false

-- src/bspline.rs:496-530
#guard match mk 1 [0, 0, 1, 1] [pt 0 0, pt 10 10] with
  | some c => c.knot_kind == .Clamped && allOk c && evalsTo c 0 (pt 0 0) && evalsTo c 1 (pt 10 10)
  | none => false

-- src/bspline.rs:533-572
#guard match mk 1 [0, 1, 2, 3] [pt 0 0, pt 10 10] with
  | some c => c.knot_kind == .Unclamped && allOk c &&
    (match c.eval (1.5 : Float) with
     | .ok mid => Float.sqrt (sq (pt 10 10 - mid)) - Float.sqrt (sq (pt 0 0 - mid)) < eps
     | _ => false)
  | none => false

-- src/bspline.rs:575-611
#guard match mk 2 [0, 0, 0, 1, 1, 1] [pt 0 0, pt 10 10, pt 20 0] with
  | some c => c.knot_kind == .Clamped && allOk c && evalsTo c 0 (pt 0 0) && evalsTo c 1 (pt 20 0)
  | none => false

-- src/bspline.rs:614-653
#guard match mk 2 [0, 1, 2, 3, 4, 5] [pt 0 0, pt 10 10, pt 20 0] with
  | some c => c.knot_kind == .Unclamped && allOk c &&
    (match c.eval (2.5 : Float) with
     | .ok mid => Float.sqrt (sq (pt 10 10 - mid)) - Float.sqrt (sq (pt 0 0 - mid)) < eps
     | _ => false)
  | none => false

def ps5 : List Pt := [pt 0 1.77, pt 1.1 (-1), pt 4.3 3, pt 3.2 (-4), pt 2.3 1.77]

-- src/bspline.rs:656-704
#guard match mk 3 [0, 0, 0, 0, 1, 2, 2, 2, 2] ps5 with
  | some c => c.knot_kind == .Clamped && allOk c && violates c (-0.1) && violates c 2.1
    && evalsTo c 0 (pt 0 1.77) && evalsTo c 2 (pt 2.3 1.77)
  | none => false

-- src/bspline.rs:707-755
#guard match mk 3 [0, 1, 2, 3, 4, 5, 6, 7, 8] ps5 with
  | some c => c.knot_kind == .Unclamped && allOk c && violates c (-0.1) && violates c 8.1
    && (match c.knotDomain with | some (a, b) => a == 3 && b == 5 | none => false)
  | none => false

-- src/bspline.rs:758-808
#guard match mk 4 [0, 0, 0, 0, 0, 3, 3, 3, 3, 3] ps5 with
  | some c => c.knot_kind == .Clamped && allOk c && violates c (-0.1) && violates c 3.1
    && evalsTo c 0 (pt 0 1.77) && evalsTo c 3 (pt 2.3 1.77)
    && (match c.knotDomain with | some (a, b) => a == 0 && b == 3 | none => false)
  | none => false

-- src/bspline.rs:811-857
#guard match mk 4 [0, 1, 2, 3, 4, 5, 6, 7, 8, 9, 10] (ps5 ++ [pt 0 0]) with
  | some c => c.knot_kind == .Unclamped && allOk c && violates c (-0.1) && violates c 9.1
    && (match c.knotDomain with | some (a, b) => a == 4 && b == 6 | none => false)
  | none => false

-- not in the crate's tests: an unclamped degree-2 spline whose evaluation panics in its domain
#guard match mk 2 [0, 1, 2, 3, 4, 5, 6, 7, 8] (ps5 ++ [pt 0 0]) with
  | some c => match c.eval (5.5 : Float) with | .panic => true | _ => false
  | none => false

end Stroke.UnitTests
