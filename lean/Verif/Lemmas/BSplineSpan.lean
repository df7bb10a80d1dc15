import Verif.Lemmas.BSplineNew
import Verif.Lemmas.Sampling

/-!
# The knot span searches
-/

namespace Stroke

variable {K C D : ℕ}

/-- Binary search finds the span when there is one. -/
theorem spanLoop_spec {knots : Fin K → ℝ} (hm : ∀ i j : Fin K, i ≤ j → knots i ≤ knots j) (t : ℝ)
    (n : ℕ) : ∀ low high : ℕ, high + 1 - low ≤ n → high + 1 < K → knotAt knots low ≤ t →
      t < knotAt knots (high + 1) → low < K →
      ∃ k, BSpline.spanClampedLoop knots t low high = some (some k) ∧ low ≤ k ∧ k ≤ high ∧
        knotAt knots k ≤ t ∧ t < knotAt knots (k + 1) := by
  induction n with
  | zero =>
    intro low high hn hK hl hh hlK
    have := mono_knotAt hm (show high + 1 ≤ low by omega) hlK
    linarith
  | succ n ih =>
    intro low high hn hK hl hh hlK
    have hle : low ≤ high := by
      by_contra hlt
      have := mono_knotAt hm (show high + 1 ≤ low by omega) hlK
      linarith
    unfold BSpline.spanClampedLoop
    rw [if_pos hle]
    have hmid : (low + high) / 2 ≤ high := by omega
    have hmid' : low ≤ (low + high) / 2 := by omega
    generalize (low + high) / 2 = mid at *
    simp only []
    rw [get?_knot _ (show mid < K by omega)]
    simp only [Option.bind_eq_bind, Option.bind_some, le_real, lt_real]
    rw [get?_knot _ (show mid + 1 < K by omega)]
    simp only [Option.bind_some]
    by_cases h1 : knotAt knots mid ≤ t
    · simp only [h1, decide_true, if_true, Option.pure_def, Option.bind_some]
      by_cases h2 : t < knotAt knots (mid + 1)
      · exact ⟨mid, by simp [h2], hmid', hmid, h1, h2⟩
      · simp only [h2, decide_false, Bool.false_eq_true, if_false, not_lt.2 h1]
        obtain ⟨k, hk, h3, h4⟩ := ih (mid + 1) high (by omega) hK (not_lt.1 h2) hh (by omega)
        exact ⟨k, hk, by omega, h4⟩
    · simp only [h1, decide_false, Bool.false_eq_true, if_false, Option.pure_def,
        Option.bind_some, not_le.1 h1, decide_true, if_true]
      have h0 : mid ≠ 0 := by
        rintro rfl
        have : low = 0 := by omega
        subst this
        exact h1 hl
      rw [if_neg h0]
      obtain ⟨k, hk, h3, h4, h5⟩ := ih low (mid - 1) (by omega) (by omega) hl
        (by rw [Nat.sub_add_cancel (by omega)]; exact not_le.1 h1) hlK
      exact ⟨k, hk, h3, by omega, h5⟩

/-- The span containing `t` is unique. -/
theorem span_unique {knots : Fin K → ℝ} (hm : ∀ i j : Fin K, i ≤ j → knots i ≤ knots j) {t : ℝ}
    {i j : ℕ} (hi : i + 1 < K) (hj : j + 1 < K) (h1 : knotAt knots i ≤ t)
    (h2 : t < knotAt knots (i + 1)) (h3 : knotAt knots j ≤ t) (h4 : t < knotAt knots (j + 1)) :
    i = j := by
  rcases lt_trichotomy i j with h | h | h
  · have := mono_knotAt hm (show i + 1 ≤ j by omega) (by omega)
    linarith
  · exact h
  · have := mono_knotAt hm (show j + 1 ≤ i by omega) (by omega)
    linarith

/-- The search used for unclamped knot vectors only moves to the right; it returns the first
probe whose right end is above `t`. -/
theorem spanUnclamped_spec {knots : Fin K → ℝ}
    (hm : ∀ i j : Fin K, i ≤ j → knots i ≤ knots j) (hK : K = C + D + 1) (hD : 1 ≤ D) {t : ℝ}
    (ht : t < knotAt knots C) (n : ℕ) : ∀ first count : ℕ, count ≤ n → first + count = K →
      first + 1 ≤ C →
      ∃ k, BSpline.spanUnclampedLoop knots t first count = some (some k) ∧
        first + count / 2 ≤ k ∧ k + 1 < K ∧ t < knotAt knots (k + 1) := by
  induction n with
  | zero => intro first count hn h1 h2; omega
  | succ n ih =>
    intro first count hn h1 h2
    unfold BSpline.spanUnclampedLoop
    rw [if_pos (by omega)]
    have hit : first + count / 2 + 1 < K := by omega
    simp only []
    rw [get?_knot _ hit, usub_le (by omega)]
    simp only [Option.bind_eq_bind, Option.bind_some, le_real, lt_real, eq_real]
    by_cases h3 : t < knotAt knots (first + count / 2 + 1)
    · exact ⟨first + count / 2, by simp [h3], le_rfl, hit, h3⟩
    · have hlt : first + count / 2 + 1 < C := by
        by_contra hge
        have := mono_knotAt hm (show C ≤ first + count / 2 + 1 by omega) hit
        exact h3 (by linarith)
      have hne : (first + count / 2 + 1 == K - 2) = false := by
        simp only [beq_eq_false_iff_ne]; omega
      have h4 : knotAt knots (first + count / 2) ≤ t :=
        (mono_knotAt hm (Nat.le_succ _) hit).trans (not_lt.1 h3)
      simp only [h3, hne, Bool.false_and, Bool.or_false, decide_false, Bool.false_eq_true, if_false]
      rw [get?_knot _ (show first + count / 2 < K by omega)]
      simp only [Option.bind_some, h4, decide_true, if_true]
      obtain ⟨k, hk, h5, h6⟩ := ih (first + count / 2 + 1) (count - (count / 2 + 1)) (by omega)
        (by omega) (by omega)
      exact ⟨k, hk, by omega, h6⟩

end Stroke
