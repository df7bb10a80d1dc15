import Verif.Lemmas.Exact

/-!
# Small real inequalities
-/

namespace Stroke

theorem abs_le_abs_of_sq_le {a b : ℝ} (h : a ^ 2 ≤ b ^ 2) (ha : 0 ≤ a) : a ≤ |b| := by
  have := abs_le_of_sq_le_sq h
  have h2 := sq_le_sq.1 h
  rwa [abs_of_nonneg ha] at h2

theorem sq_nonpos_iff {a : ℝ} : a ^ 2 ≤ 0 ↔ a = 0 := by
  constructor
  · intro h
    exact pow_eq_zero_iff (two_ne_zero) |>.1 (le_antisymm h (sq_nonneg a))
  · rintro rfl; simp

end Stroke
