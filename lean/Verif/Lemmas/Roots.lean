import Verif.Lemmas.Sort
import Mathlib.Tactic.LinearCombination
import Mathlib.Tactic.FieldSimp

/-!
# The root finders, in closed form over the reals
-/

namespace Stroke

theorem rootsSquare_eq (a b c : ℝ) : rootsSquare a b c = some
    (if |a| < eps then (if |b| < eps then [] else [-c / b])
     else if 0 < b * b - a * c * 4 then
       [(-b - Real.sqrt (b * b - a * c * 4)) / (a * 2), (-b + Real.sqrt (b * b - a * c * 4)) / (a * 2)]
     else if |b * b - a * c * 4| < eps then [-b / (a * 2)] else []) := by
  unfold rootsSquare
  simp only [lt_real, abs_real, epsilon_real, lit_real, sqrt_real, decide_eq_true_eq]
  norm_num
  by_cases ha : |a| < eps
  · rw [if_pos ha, if_pos ha]
    by_cases hb : |b| < eps
    · rw [if_pos hb, if_pos hb]
    · rw [if_neg hb, if_neg hb]; rfl
  · rw [if_neg ha, if_neg ha]
    by_cases hd : a * c * 4 < b * b
    · rw [if_pos hd, if_pos hd]; rfl
    · rw [if_neg hd, if_neg hd]
      by_cases hd' : |b * b - a * c * 4| < eps
      · rw [if_pos hd', if_pos hd']; rfl
      · rw [if_neg hd', if_neg hd']

theorem realRoots_eq {P : Type} [Point ℝ P] (q : QuadraticBezier P) (a b c : ℝ) :
    q.realRoots a b c = rootsSquare a b c := rfl

theorem ne_zero_of_eps_le {a : ℝ} (h : eps ≤ |a|) : a ≠ 0 := by
  rintro rfl
  have := eps_pos
  simp at h; linarith

/-- Real roots of a quadratic with positive discriminant. -/
theorem quadratic_roots_iff {a b c : ℝ} (ha : a ≠ 0) (hd : 0 < b * b - a * c * 4) (x : ℝ) :
    a * x ^ 2 + b * x + c = 0 ↔
      x = (-b - Real.sqrt (b * b - a * c * 4)) / (a * 2) ∨
      x = (-b + Real.sqrt (b * b - a * c * 4)) / (a * 2) := by
  set s := Real.sqrt (b * b - a * c * 4) with hs
  have hs2 : s ^ 2 = b * b - a * c * 4 := Real.sq_sqrt hd.le
  have key : 4 * a * (a * x ^ 2 + b * x + c) = (2 * a * x + b + s) * (2 * a * x + b - s) := by
    linear_combination hs2
  constructor
  · intro h
    rw [h, mul_zero] at key
    rcases mul_eq_zero.1 key.symm with h | h
    · left; field_simp; linarith
    · right; field_simp; linarith
  · intro h
    have : (2 * a * x + b + s) * (2 * a * x + b - s) = 0 := by
      rcases h with h | h
      · have : 2 * a * x + b + s = 0 := by rw [h]; field_simp; ring
        rw [this, zero_mul]
      · have : 2 * a * x + b - s = 0 := by rw [h]; field_simp; ring
        rw [this, mul_zero]
    rw [this] at key
    rcases mul_eq_zero.1 key with h | h
    · exact absurd h (by simpa using ha)
    · exact h

theorem quadratic_no_roots {a b c : ℝ} (hd : b * b - a * c * 4 < 0) (x : ℝ) :
    a * x ^ 2 + b * x + c ≠ 0 := by
  intro h
  have h2 : (2 * a * x + b) ^ 2 = b * b - a * c * 4 := by linear_combination (4 * a) * h
  have := sq_nonneg (2 * a * x + b)
  linarith

end Stroke
