import Verif.Spec.Curves
import Mathlib.Analysis.Calculus.LocalExtr.Basic
import Mathlib.Analysis.Calculus.Deriv.Mul
import Mathlib.Analysis.Calculus.Deriv.Add
import Mathlib.Topology.Order.Compact

/-!
# Bounding a function on [0, 1] by its values at 0, at 1 and at critical points
-/

namespace Stroke

/-- If the values at 0, at 1 and at every interior critical point are at most `hi`
(at least `lo`), so is the function on [0, 1]. -/
theorem containsRange_of_critical {f f' : ℝ → ℝ} (hf : ∀ t, HasDerivAt f (f' t) t) {lo hi : ℝ}
    (h0 : lo ≤ f 0 ∧ f 0 ≤ hi) (h1 : lo ≤ f 1 ∧ f 1 ≤ hi)
    (hc : ∀ t, 0 < t → t < 1 → f' t = 0 → lo ≤ f t ∧ f t ≤ hi) : ContainsRange f lo hi := by
  have hcont : ContinuousOn f (Set.Icc 0 1) := fun t _ => (hf t).continuousAt.continuousWithinAt
  have hne : (Set.Icc (0 : ℝ) 1).Nonempty := ⟨0, by simp⟩
  obtain ⟨m, hm, hmin⟩ := isCompact_Icc.exists_isMinOn hne hcont
  obtain ⟨M, hM, hmax⟩ := isCompact_Icc.exists_isMaxOn hne hcont
  have hint : ∀ x : ℝ, x ∈ Set.Icc (0 : ℝ) 1 → x ≠ 0 → x ≠ 1 → Set.Icc (0 : ℝ) 1 ∈ nhds x := by
    intro x hx hx0 hx1
    exact Icc_mem_nhds (lt_of_le_of_ne hx.1 hx0.symm) (lt_of_le_of_ne hx.2 hx1)
  have hlo : lo ≤ f m := by
    by_cases hm0 : m = 0
    · rw [hm0]; exact h0.1
    by_cases hm1 : m = 1
    · rw [hm1]; exact h1.1
    have hd := (hmin.isLocalMin (hint m hm hm0 hm1)).hasDerivAt_eq_zero (hf m)
    exact (hc m (lt_of_le_of_ne hm.1 (Ne.symm hm0)) (lt_of_le_of_ne hm.2 hm1) hd).1
  have hhi : f M ≤ hi := by
    by_cases hm0 : M = 0
    · rw [hm0]; exact h0.2
    by_cases hm1 : M = 1
    · rw [hm1]; exact h1.2
    have hd := (hmax.isLocalMax (hint M hM hm0 hm1)).hasDerivAt_eq_zero (hf M)
    exact (hc M (lt_of_le_of_ne hM.1 (Ne.symm hm0)) (lt_of_le_of_ne hM.2 hm1) hd).2
  intro t ht0 ht1
  exact ⟨hlo.trans (hmin ⟨ht0, ht1⟩), (hmax ⟨ht0, ht1⟩).trans hhi⟩

/-- Comparing a function with another one whose range is known. -/
theorem ContainsRange.mono {f : ℝ → ℝ} {lo hi lo' hi' : ℝ} (h : ContainsRange f lo hi)
    (h1 : lo' ≤ lo) (h2 : hi ≤ hi') : ContainsRange f lo' hi' :=
  fun t ht0 ht1 => ⟨h1.trans (h t ht0 ht1).1, (h t ht0 ht1).2.trans h2⟩

end Stroke
