import Verif.Spec.Exact
import Mathlib.MeasureTheory.Integral.IntervalIntegral.Basic
import Mathlib.Analysis.Calculus.Deriv.Basic

/-!
# Specification of the geometric notions

None of these definitions mentions the model's curve types or methods.
-/

namespace Stroke

variable {P : Type} [Point ℝ P]

/-- The `k`-th Bernstein polynomial of degree `n`. -/
noncomputable def bernstein (n k : ℕ) (t : ℝ) : ℝ :=
  (n.choose k : ℝ) * t ^ k * (1 - t) ^ (n - k)

/-- Coordinate `i` of the Bezier curve of degree `N - 1` with control points `ps`. -/
noncomputable def bezierCoord {N : ℕ} (ps : Fin N → P) (t : ℝ) (i : ℕ) : ℝ :=
  ∑ k : Fin N, bernstein (N - 1) k.val t * coord (ps k) i

/-- The distances from `p` to the points of the segment from `a` to `b`. -/
def segmentDistances (a b p : P) : Set ℝ :=
  {r | ∃ s : ℝ, 0 ≤ s ∧ s ≤ 1 ∧
    r = Real.sqrt (∑ i ∈ Finset.range (Point.dim P),
      ((1 - s) * coord a i + s * coord b i - coord p i) ^ 2)}

/-- `d` is the distance from `p` to the segment from `a` to `b`. -/
def IsSegmentDistance (a b p : P) (d : ℝ) : Prop := IsLeast (segmentDistances a b p) d

/-- `p` lies within `r` of the segment from `a` to `b`. -/
def NearSegment (a b p : P) (r : ℝ) : Prop := ∃ d ∈ segmentDistances a b p, d ≤ r

/-- `q` is a convex combination of the points `ps`, with weights `w`. -/
def IsConvexCombination {ι : Type} [Fintype ι] (w : ι → ℝ) (ps : ι → P) (q : P) : Prop :=
  (∀ k, 0 ≤ w k) ∧ ∑ k, w k = 1 ∧ ∀ i, coord q i = ∑ k, w k * coord (ps k) i

/-- `(lo, hi)` contains the values of `f` on [0, 1]. -/
def ContainsRange (f : ℝ → ℝ) (lo hi : ℝ) : Prop :=
  ∀ t, 0 ≤ t → t ≤ 1 → lo ≤ f t ∧ f t ≤ hi

/-- Both ends of `(lo, hi)` are values of `f` on [0, 1]. -/
def AttainsEnds (f : ℝ → ℝ) (lo hi : ℝ) : Prop :=
  (∃ t, 0 ≤ t ∧ t ≤ 1 ∧ f t = lo) ∧ (∃ t, 0 ≤ t ∧ t ≤ 1 ∧ f t = hi)

/-- The point-valued function `f` has derivative `v` (a tuple of coordinates) at `t`. -/
def HasPointDerivAt (f : ℝ → P) (v : ℕ → ℝ) (t : ℝ) : Prop :=
  ∀ i < Point.dim P, HasDerivAt (fun u => coord (f u) i) (v i) t

/-- Length of the polyline `f lo, f (lo+1), ..., f hi`. -/
noncomputable def polylineLength (f : ℕ → P) (lo hi : ℕ) : ℝ :=
  ∑ i ∈ Finset.Ico lo hi, pdist (f i) (f (i + 1))

/-- Arc length on [0, 1] of a curve with velocity `v t i` on axis `i`. -/
noncomputable def arcLength (dim : ℕ) (v : ℝ → ℕ → ℝ) : ℝ :=
  ∫ t in (0 : ℝ)..1, Real.sqrt (∑ i ∈ Finset.range dim, v t i ^ 2)

end Stroke
