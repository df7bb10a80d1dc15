import Verif.Spec.Curves

/-!
# Specification of B-splines

None of these definitions mentions the model's spline type or methods.
-/

namespace Stroke

variable {P : Type} [Point ℝ P]

/-- Knot `i` of a knot vector (0 outside). -/
noncomputable def knotAt {K : ℕ} (knots : Fin K → ℝ) (i : ℕ) : ℝ :=
  if h : i < K then knots ⟨i, h⟩ else 0

/-- The Cox–de Boor basis function `N_{i,d}` of the knot sequence `u`, with the usual
convention that a term with denominator 0 is left out. -/
noncomputable def coxDeBoor (u : ℕ → ℝ) : ℕ → ℕ → ℝ → ℝ
  | 0, i, t => if u i ≤ t ∧ t < u (i + 1) then 1 else 0
  | d + 1, i, t =>
    (if u (i + d + 1) = u i then 0
      else (t - u i) / (u (i + d + 1) - u i) * coxDeBoor u d i t) +
    (if u (i + d + 2) = u (i + 1) then 0
      else (u (i + d + 2) - t) / (u (i + d + 2) - u (i + 1)) * coxDeBoor u d (i + 1) t)

/-- Coordinate `x` of the B-spline curve of degree `D` with the given knots and control
points, at `t`. -/
noncomputable def splineCoord {K C : ℕ} (D : ℕ) (knots : Fin K → ℝ) (ps : Fin C → P) (t : ℝ)
    (x : ℕ) : ℝ :=
  ∑ i : Fin C, coxDeBoor (knotAt knots) D i.val t * coord (ps i) x

/-- What the constructor documents as its requirements: more control points than the degree,
`K = C + D + 1`, knots in non-decreasing order. -/
def ValidSpline {K : ℕ} (C D : ℕ) (knots : Fin K → ℝ) : Prop :=
  D < C ∧ K = C + D + 1 ∧ ∀ i j : Fin K, i ≤ j → knots i ≤ knots j

/-- The first `D + 1` knots agree up to the machine epsilon. -/
def FrontClamped {K : ℕ} (D : ℕ) (knots : Fin K → ℝ) : Prop :=
  ∀ i : Fin K, i.val ≤ D → |knots i - knotAt knots 0| < eps

/-- The last `D + 1` knots agree up to the machine epsilon. -/
def BackClamped {K : ℕ} (D : ℕ) (knots : Fin K → ℝ) : Prop :=
  ∀ i : Fin K, K ≤ i.val + D + 1 → |knots i - knotAt knots (K - 1)| < eps

end Stroke
