import Verif.Model.Cubic

/-!
# src/bezier_segment.rs
-/

namespace Stroke

/-- src/bezier_segment.rs:8-12 `BezierSegment`. -/
inductive BezierSegment (P : Type) where
  | linear (segment : LineSegment P)
  | quadratic (segment : QuadraticBezier P)
  | cubic (segment : CubicBezier P)

namespace BezierSegment

variable {S P : Type} [Scalar S] [Point S P]

/-- src/bezier_segment.rs:18-24 `eval`. -/
def eval (s : BezierSegment P) (t : S) : P :=
  match s with
  | linear segment => segment.eval t
  | quadratic segment => segment.eval t
  | cubic segment => segment.eval t

/-- src/bezier_segment.rs:26-32 `start`. -/
def start (s : BezierSegment P) : P :=
  match s with
  | linear segment => segment.start
  | quadratic segment => segment.start
  | cubic segment => segment.start

/-- src/bezier_segment.rs:35-41 `end`. -/
def end_ (s : BezierSegment P) : P :=
  match s with
  | linear segment => segment.end_
  | quadratic segment => segment.end_
  | cubic segment => segment.end_

/-- src/bezier_segment.rs:44-53 `is_linear`. -/
def isLinear (s : BezierSegment P) (tolerance : S) : Option Bool :=
  match s with
  | linear _ => some true
  | quadratic segment => segment.isLinear tolerance
  | cubic segment => segment.isLinear tolerance

/-- src/bezier_segment.rs:56-62 `baseline`. -/
def baseline (s : BezierSegment P) : LineSegment P :=
  match s with
  | linear segment => segment
  | quadratic segment => segment.baseline
  | cubic segment => segment.baseline

/-- src/bezier_segment.rs:65-83 `split`. -/
def split (s : BezierSegment P) (t : S) : BezierSegment P × BezierSegment P :=
  match s with
  | linear segment =>
    let (a, b) := segment.split t
    (linear a, linear b)
  | quadratic segment =>
    let (a, b) := segment.split t
    (quadratic a, quadratic b)
  | cubic segment =>
    let (a, b) := segment.split t
    (cubic a, cubic b)

/-- src/bezier_segment.rs:86-93 `From<LineSegment>`. -/
def ofLine (s : LineSegment P) : BezierSegment P := linear s

/-- src/bezier_segment.rs:95-102 `From<QuadraticBezier>`. -/
def ofQuadratic (s : QuadraticBezier P) : BezierSegment P := quadratic s

/-- src/bezier_segment.rs:104-111 `From<CubicBezier>`. -/
def ofCubic (s : CubicBezier P) : BezierSegment P := cubic s

end BezierSegment

end Stroke
