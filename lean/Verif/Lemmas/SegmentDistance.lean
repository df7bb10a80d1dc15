import Verif.Spec.Curves
import Verif.Lemmas.Fill

/-!
# Distances to segments, in vector form
-/

namespace Stroke

variable {P : Type} [Point ℝ P] [LawfulPoint P]

omit [LawfulPoint P] in
theorem segmentDistances_eq (a b p : P) :
    segmentDistances a b p
      = {r | ∃ s : ℝ, 0 ≤ s ∧ s ≤ 1 ∧ r = ‖toE a + s • (toE b - toE a) - toE p‖} := by
  unfold segmentDistances
  ext r
  have : ∀ s : ℝ, Real.sqrt (∑ i ∈ Finset.range (Point.dim P),
      ((1 - s) * coord a i + s * coord b i - coord p i) ^ 2)
      = ‖toE a + s • (toE b - toE a) - toE p‖ := by
    intro s
    rw [EuclideanSpace.norm_eq,
      ← Fin.sum_univ_eq_sum_range (fun i => ((1 - s) * coord a i + s * coord b i - coord p i) ^ 2)]
    congr 1
    apply Finset.sum_congr rfl
    intro i _
    rw [Real.norm_eq_abs, sq_abs]
    congr 1
    simp; ring
  simp only [this]

/-- The squared distance to the point at parameter `s` of a segment. -/
theorem sq_dist_param {E : Type*} [NormedAddCommGroup E] [InnerProductSpace ℝ E] (w v : E) (s : ℝ) :
    ‖s • v - w‖ ^ 2 = ‖w‖ ^ 2 - 2 * s * inner ℝ w v + s ^ 2 * ‖v‖ ^ 2 := by
  rw [norm_sub_sq_real, norm_smul, inner_smul_left, mul_pow, Real.norm_eq_abs, sq_abs,
    real_inner_comm]
  simp; ring

/-- The value returned by `distance_to_point`, in closed form. -/
theorem distanceToPoint_eq (l : LineSegment P) (p : P) :
    l.distanceToPoint p = some
      (if pdist l.end_ l.start ^ 2 < eps then pdist l.start p
       else
        let r := (∑ i ∈ Finset.range (Point.dim P),
          (coord p i - coord l.start i) * (coord l.end_ i - coord l.start i))
            / pdist l.end_ l.start ^ 2
        let t := if r < 1 then max r 0 else 0
        pdist p (l.eval t)) := by
  unfold LineSegment.distanceToPoint
  simp only [dotLoop_eq, lt_real, epsilon_real, squaredLength_sub, decide_eq_true_eq]
  split
  · rw [← squaredLength_sub, sqrt_real, sqrt_squaredLength_sub]; rfl
  · show some _ = some _
    simp only [coord_sub, lit_real, Rat.cast_one, Rat.cast_zero, sqrt_real]
    rw [Real.sqrt_sq (pdist_nonneg _ _)]
    congr 1
    generalize (∑ i ∈ Finset.range (Point.dim P),
      (coord p i - coord l.start i) * (coord l.end_ i - coord l.start i))
        / pdist l.end_ l.start ^ 2 = r
    by_cases h1 : r < 1
    · rw [if_pos h1]
      rcases lt_or_ge r 0 with h | h
      · rw [if_pos h, max_eq_right h.le, if_pos h1]; rfl
      · rw [if_neg (not_lt.2 h), max_eq_left h, if_pos h1]; rfl
    · simp [h1, LineSegment.eval]

end Stroke
