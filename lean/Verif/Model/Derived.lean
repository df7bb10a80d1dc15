import Verif.Model.Segment
import Verif.Model.Bezier
import Verif.Model.BSpline

/-!
# Derived and small trait implementations

`#[derive(PartialEq)]` compares the fields in the order of declaration and, for an enum, requires
the same variant.
-/

namespace Stroke

section
variable {S P : Type} [Point S P]

/-- src/line.rs:8 `#[derive(PartialEq)]` on `LineSegment`. -/
def LineSegment.eq (a b : LineSegment P) : Bool :=
  Point.eq a.start b.start && Point.eq a.end_ b.end_

/-- src/quadratic_bezier.rs:5 `#[derive(PartialEq)]` on `QuadraticBezier`. -/
def QuadraticBezier.eq (a b : QuadraticBezier P) : Bool :=
  Point.eq a.start b.start && Point.eq a.ctrl b.ctrl && Point.eq a.end_ b.end_

/-- src/cubic_bezier.rs:10 `#[derive(PartialEq)]` on `CubicBezier`. -/
def CubicBezier.eq (a b : CubicBezier P) : Bool :=
  Point.eq a.start b.start && Point.eq a.ctrl1 b.ctrl1 && Point.eq a.ctrl2 b.ctrl2
    && Point.eq a.end_ b.end_

/-- src/bezier_segment.rs:7 `#[derive(PartialEq)]` on `BezierSegment`. -/
def BezierSegment.eq (a b : BezierSegment P) : Bool :=
  match a, b with
  | .linear a, .linear b => a.eq b
  | .quadratic a, .quadratic b => a.eq b
  | .cubic a, .cubic b => a.eq b
  | _, _ => false

end

/-- src/point_generic.rs:137-144 `IntoIterator for &mut PointN`: the loop
`for (i, x) in (&mut p).into_iter().enumerate() { *x = f(i, *x) }`. -/
def PointN.iterMut {S : Type} {n : Nat} (p : PointN S n) (f : Nat → S → S) : PointN S n :=
  ⟨fun i => f i.val (p.coords i)⟩

/-- src/spline.rs:5-7 `trait Spline<P>`; `none` is a panic. -/
class Spline (S P : outParam Type) (C : Type) where
  eval : C → S → Option P

/-- src/bezier.rs:27-34 `impl Spline<P> for Bezier<P, N>`: `self.eval(t)` is the inherent method, which
takes precedence over the method of the trait. -/
instance {S P : Type} [Scalar S] [Point S P] {N : Nat} : Spline S P (Bezier P N) where
  eval b t := b.eval t

end Stroke
