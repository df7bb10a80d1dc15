import Verif.Model.Point

/-!
# src/line.rs
-/

namespace Stroke

/-- src/line.rs:9-12 `LineSegment`. -/
structure LineSegment (P : Type) where
  start : P
  end_ : P

namespace LineSegment

variable {S P : Type} [Scalar S] [Point S P]

/-- src/line.rs:18-20 `new`. -/
def new (start end_ : P) : LineSegment P := ⟨start, end_⟩

/-- src/line.rs:22-24 `eval`. -/
def eval (l : LineSegment P) (t : S) : P :=
  l.start + (l.end_ - l.start) * t

/-- src/line.rs:26-40 `split` (note `start - end`, as in the source). -/
def split (l : LineSegment P) (t : S) : LineSegment P × LineSegment P :=
  let ctrl_ab := l.start + (l.start - l.end_) * t
  (⟨l.start, ctrl_ab⟩, ⟨ctrl_ab, l.end_⟩)

/-- src/line.rs:59-62: the loop computing the dot product of `v1` and `v2`. -/
def dotLoop (v1 v2 : P) : Option S :=
  forRange 0 (Point.iter v1).length (lit 0) fun i dot => do
    let a ← Point.axis v1 i
    let b ← Point.axis v2 i
    pure (dot + a * b)

/-- src/line.rs:51-79 `distance_to_point`. -/
def distanceToPoint (l : LineSegment P) (p : P) : Option S := do
  let l2 := Point.squaredLength (l.end_ - l.start)
  if Scalar.lt l2 Scalar.epsilon then
    pure (Scalar.sqrt (Point.squaredLength (l.start - p)))
  else
    let v1 := p - l.start
    let v2 := l.end_ - l.start
    let dot ← dotLoop v1 v2
    let t : S := lit 0
    let t := if Scalar.lt (dot / l2) (lit 1) then dot / l2 else t
    let t := if Scalar.lt t (lit 0) then lit 0 else t
    let projection := l.start + (l.end_ - l.start) * t
    pure (Scalar.sqrt (Point.squaredLength (p - projection)))

/-- src/line.rs:82-84 `axis`. -/
def axis (l : LineSegment P) (t : S) (axis : Nat) : Option S := do
  let s ← Point.axis l.start axis
  let e ← Point.axis l.end_ axis
  pure (s + (e - s) * t)

/-- src/line.rs:88-90 `derivative`. -/
def derivative (l : LineSegment P) : P := l.end_ - l.start

/-- src/line.rs:92-99 `root` (root of `a t + b`; capacity 1). -/
def root (_l : LineSegment P) (a b : S) : Option (List S) :=
  if Scalar.lt (Scalar.abs a) Scalar.epsilon then some []
  else avPush 1 [] (-b / a)

/-- src/line.rs:102-116 `bounding_box`. -/
def boundingBox (l : LineSegment P) : Option (Arr (S × S) (Point.dim P)) :=
  forRange 0 (Point.iter l.start).length (fun _ => (lit 0, lit 0)) fun i bounds => do
    let s ← Point.axis l.start i
    let e ← Point.axis l.end_ i
    if Scalar.lt s e then bounds.set? i (s, e)
    else bounds.set? i (e, s)

end LineSegment

end Stroke
