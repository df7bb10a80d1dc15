import Verif.Model.Scalar

/-!
# src/point.rs and src/point_generic.rs
-/

namespace Stroke

/-- The `Point` trait, src/point.rs:12-42: the operations of a point type `P`
with scalar type `S` the library relies on.
`iter` models the `IntoIterator` bound, of which the library only uses the
number of items (`for (i, _) in p.into_iter().enumerate()`).
`p * t` models both `Mul<Self::Scalar>` and `Mul<NativeFloat>`. -/
class Point (S : outParam Type) (P : Type) extends Add P, Sub P, HMul P S P where
  /-- `PartialEq::eq` -/
  eq : P → P → Bool
  /-- `Default::default()` -/
  default : P
  /-- `IntoIterator` -/
  iter : P → List S
  /-- `Point::DIM` -/
  dim : Nat
  /-- `Point::axis`; `none` = panic -/
  axis : P → Nat → Option S
  /-- `Point::squared_length` -/
  squaredLength : P → S

/-- src/point_generic.rs:16 `pub struct PointN<T, const N: usize>([T; N])`. -/
structure PointN (S : Type) (n : Nat) where
  coords : Arr S n

namespace PointN

variable {S : Type} [Scalar S] {n : Nat}

/-- src/point_generic.rs:19-21 `PointN::new`. -/
def new (array : Arr S n) : PointN S n := ⟨array⟩

/-- src/point_generic.rs:25-29 `Default`: every component `T::default()` (`0.0`). -/
def default : PointN S n := ⟨fun _ => lit 0⟩

/-- src/point_generic.rs:31-43 `PartialEq::eq`: loop over `0..N`, early exit on
the first differing component. -/
def eq (p q : PointN S n) : Bool :=
  (List.finRange n).all fun i => Scalar.eq (p.coords i) (q.coords i)

/-- src/point_generic.rs:45-58 `Add for PointN`.
Simplification (also for the four operators below): the loop over `i in 0..N`
writes each component once, with in-bounds indices, so it is a `map`. -/
def add (p q : PointN S n) : PointN S n := ⟨fun i => p.coords i + q.coords i⟩

/-- src/point_generic.rs:62-75 `Add<T> for PointN`. -/
def addScalar (p : PointN S n) (s : S) : PointN S n := ⟨fun i => p.coords i + s⟩

/-- src/point_generic.rs:77-90 `Sub for PointN`. -/
def sub (p q : PointN S n) : PointN S n := ⟨fun i => p.coords i - q.coords i⟩

/-- src/point_generic.rs:94-107 `Sub<T> for PointN`. -/
def subScalar (p : PointN S n) (s : S) : PointN S n := ⟨fun i => p.coords i - s⟩

/-- src/point_generic.rs:109-126 `Mul<U> for PointN`. -/
def mul (p : PointN S n) (s : S) : PointN S n := ⟨fun i => p.coords i * s⟩

/-- src/point_generic.rs:128-135 `IntoIterator for PointN`. -/
def iter (p : PointN S n) : List S := p.coords.toList

/-- src/point_generic.rs:164-167 `Point::axis`: `assert!(index <= N)` and then a
checked array access. -/
def axis (p : PointN S n) (index : Nat) : Option S :=
  if index ≤ n then p.coords.get? index else none

/-- src/point_generic.rs:169-175 `Point::squared_length`. -/
def squaredLength (p : PointN S n) : S :=
  (List.finRange n).foldl (fun sqr_dist i => sqr_dist + p.coords i * p.coords i) (lit 0)

/-- src/point_generic.rs:146-176 `impl Point for PointN`. -/
instance instPoint : Point S (PointN S n) where
  add := add
  sub := sub
  hMul := mul
  eq := eq
  default := default
  iter := iter
  dim := n
  axis := axis
  squaredLength := squaredLength

end PointN

end Stroke
