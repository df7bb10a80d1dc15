import Verif.Spec.Curves
import Verif.Lemmas.Exact
import Verif.Lemmas.Loops
import Verif.Lemmas.Sampling
import Mathlib.Analysis.InnerProductSpace.Calculus
import Mathlib.Analysis.Calculus.MeanValue
import Mathlib.Analysis.Calculus.ContDiff.Deriv
import Mathlib.MeasureTheory.Integral.IntervalIntegral.FundThmCalculus
import Mathlib.MeasureTheory.Integral.IntervalIntegral.IntegrationByParts

/-!
# Inscribed polylines and arc length
-/

namespace Stroke

open MeasureTheory

section Abstract

variable {E : Type*} [NormedAddCommGroup E] [NormedSpace ℝ E] [CompleteSpace E]

/-- A chord is at most as long as the arc, and falls short by at most second order. -/
theorem chord_arc {F F' : ℝ → E} (hF : ∀ t, HasDerivAt F (F' t) t) (hc : Continuous F') {M : ℝ}
    (hM : ∀ x ∈ Set.Icc (0 : ℝ) 1, ∀ y ∈ Set.Icc (0 : ℝ) 1, ‖F' y - F' x‖ ≤ M * |y - x|)
    {x y : ℝ} (hx : 0 ≤ x) (hxy : x ≤ y) (hy : y ≤ 1) :
    ‖F x - F y‖ ≤ ∫ t in x..y, ‖F' t‖ ∧
    (∫ t in x..y, ‖F' t‖) - 2 * M * (y - x) ^ 2 ≤ ‖F x - F y‖ := by
  have hint : F y - F x = ∫ t in x..y, F' t := by
    rw [intervalIntegral.integral_eq_sub_of_hasDerivAt (fun t _ => hF t)
      (hc.intervalIntegrable x y)]
  constructor
  · rw [norm_sub_rev, hint]
    exact intervalIntegral.norm_integral_le_integral_norm hxy
  · have hsub : ∀ t ∈ Set.Icc x y, t ∈ Set.Icc (0 : ℝ) 1 := fun t ht =>
      ⟨hx.trans ht.1, ht.2.trans hy⟩
    have hx' := hsub x ⟨le_rfl, hxy⟩
    have hM0 : 0 ≤ M := by
      have := hM 0 (by simp) 1 (by simp)
      simpa using (norm_nonneg _).trans this
    have hbd : ∀ t ∈ Set.Icc x y, ‖F' t - F' x‖ ≤ M * (y - x) := by
      intro t ht
      refine (hM x hx' t (hsub t ht)).trans ?_
      rw [abs_of_nonneg (by linarith [ht.1])]
      exact mul_le_mul_of_nonneg_left (by linarith [ht.2]) hM0
    have h1 : (∫ t in x..y, ‖F' t‖) ≤ (‖F' x‖ + M * (y - x)) * (y - x) := by
      have : (∫ t in x..y, ‖F' t‖) ≤ ∫ _ in x..y, (‖F' x‖ + M * (y - x)) := by
        apply intervalIntegral.integral_mono_on hxy (hc.norm.intervalIntegrable x y)
          (intervalIntegrable_const)
        intro t ht
        have := hbd t ht
        have h2 := norm_sub_norm_le (F' t) (F' x)
        linarith
      refine this.trans ?_
      rw [intervalIntegral.integral_const, smul_eq_mul, mul_comm]
    have h2 : ‖(F y - F x) - (y - x) • F' x‖ ≤ M * (y - x) * (y - x) := by
      have e : (F y - F x) - (y - x) • F' x = ∫ t in x..y, (F' t - F' x) := by
        rw [intervalIntegral.integral_sub (hc.intervalIntegrable x y) intervalIntegrable_const,
          intervalIntegral.integral_const, hint]
      rw [e]
      have := intervalIntegral.norm_integral_le_of_norm_le_const (a := x) (b := y)
        (f := fun t => F' t - F' x) (C := M * (y - x)) (by
          intro t ht
          rw [Set.uIoc_of_le hxy] at ht
          exact hbd t ⟨ht.1.le, ht.2⟩)
      rwa [abs_of_nonneg (by linarith)] at this
    have h3 : (y - x) * ‖F' x‖ - ‖F y - F x‖ ≤ M * (y - x) * (y - x) := by
      have : ‖(y - x) • F' x‖ = (y - x) * ‖F' x‖ := by
        rw [norm_smul, Real.norm_of_nonneg (by linarith)]
      rw [← this]
      refine le_trans ?_ h2
      rw [norm_sub_rev (F y - F x)]
      exact norm_sub_norm_le _ _
    rw [norm_sub_rev (F x)]
    nlinarith

/-- The inscribed polyline with `n` equal parameter steps. -/
theorem polyline_arc {F F' : ℝ → E} (hF : ∀ t, HasDerivAt F (F' t) t) (hc : Continuous F') {M : ℝ}
    (hM : ∀ x ∈ Set.Icc (0 : ℝ) 1, ∀ y ∈ Set.Icc (0 : ℝ) 1, ‖F' y - F' x‖ ≤ M * |y - x|)
    {n : ℕ} (hn : 1 ≤ n) (m : ℕ) (hm : m ≤ n) :
    (∑ i ∈ Finset.Ico m n, ‖F ((i : ℝ) / n) - F (((i + 1 : ℕ) : ℝ) / n)‖
      ≤ ∫ t in ((m : ℝ) / n)..1, ‖F' t‖) ∧
    (∫ t in ((m : ℝ) / n)..1, ‖F' t‖) - 2 * M / n
      ≤ ∑ i ∈ Finset.Ico m n, ‖F ((i : ℝ) / n) - F (((i + 1 : ℕ) : ℝ) / n)‖ := by
  have hn0 : (0 : ℝ) < n := by exact_mod_cast hn
  have hsum : (∫ t in ((m : ℝ) / n)..1, ‖F' t‖)
      = ∑ i ∈ Finset.Ico m n, ∫ t in ((i : ℝ) / n)..(((i + 1 : ℕ) : ℝ) / n), ‖F' t‖ := by
    rw [intervalIntegral.sum_integral_adjacent_intervals_Ico (a := fun i : ℕ => (i : ℝ) / n) hm
      (fun k _ => hc.norm.intervalIntegrable _ _), div_self hn0.ne']
  have hM0 : 0 ≤ M := by
    have := hM 0 (by simp) 1 (by simp)
    simpa using (norm_nonneg _).trans this
  have hstep : ∀ i ∈ Finset.Ico m n, _ := fun i hi => by
    have hi' := Finset.mem_Ico.1 hi
    have e : (((i + 1 : ℕ) : ℝ) / n) - (i : ℝ) / n = 1 / n := by push_cast; field_simp; ring
    have hle : (i : ℝ) / n ≤ ((i + 1 : ℕ) : ℝ) / n := by
      have : 0 < 1 / (n : ℝ) := by positivity
      linarith
    have h1 : ((i + 1 : ℕ) : ℝ) / n ≤ 1 := by
      rw [div_le_one hn0]; exact_mod_cast hi'.2
    have := chord_arc hF hc hM (x := (i : ℝ) / n) (y := ((i + 1 : ℕ) : ℝ) / n) (by positivity) hle h1
    rw [e] at this
    exact this
  rw [hsum]
  constructor
  · exact Finset.sum_le_sum fun i hi => (hstep i hi).1
  · have h2 : ∑ i ∈ Finset.Ico m n, ((∫ t in ((i : ℝ) / n)..(((i + 1 : ℕ) : ℝ) / n), ‖F' t‖)
        - 2 * M * (1 / n) ^ 2)
        ≤ ∑ i ∈ Finset.Ico m n, ‖F ((i : ℝ) / n) - F (((i + 1 : ℕ) : ℝ) / n)‖ :=
      Finset.sum_le_sum fun i hi => (hstep i hi).2
    rw [Finset.sum_sub_distrib, Finset.sum_const, Nat.card_Ico, nsmul_eq_mul] at h2
    have h3 : ((n - m : ℕ) : ℝ) * (2 * M * (1 / n) ^ 2) ≤ 2 * M / n := by
      have hle : ((n - m : ℕ) : ℝ) ≤ n := by exact_mod_cast Nat.sub_le n m
      have : ((n - m : ℕ) : ℝ) * (2 * M * (1 / n) ^ 2) ≤ n * (2 * M * (1 / n) ^ 2) :=
        mul_le_mul_of_nonneg_right hle (by positivity)
      refine this.trans (le_of_eq ?_)
      field_simp
    linarith

end Abstract

section Points

variable {P : Type} [Point ℝ P] [LawfulPoint P]

/-- The sampling loop of `arclen`, in closed form: the chords 1, …, n-1 (not 0). -/
theorem sampledArclen_eq (f : ℝ → P) (n : ℕ) :
    sampledArclen (fun t => some (f t)) n
      = some (polylineLength (fun i : ℕ => f ((i : ℝ) / n)) 1 n) := by
  unfold sampledArclen polylineLength
  simp only []
  rcases Nat.eq_zero_or_pos n with rfl | hn
  · rw [forRange_empty (by omega)]; simp
  obtain ⟨s', hs, hI⟩ := forRange_inv (m := Option) (lo := 1) (hi := n) (s := (lit 0 : ℝ))
    (body := fun i arclen => do
      let t := Scalar.ofUsize i * lit 1 / Scalar.ofUsize n
      let p1 ← some (f t)
      let p2 ← some (f (t + lit 1 / Scalar.ofUsize n))
      pure (arclen + Scalar.sqrt (Point.squaredLength (p1 - p2))))
    (fun i s => s = ∑ j ∈ Finset.Ico 1 i, pdist (f ((j : ℝ) / n)) (f (((j + 1 : ℕ) : ℝ) / n)))
    hn (by simp) (by
      intro i s hi hin hs
      refine ⟨_, rfl, ?_⟩
      rw [sqrt_real, sqrt_squaredLength_sub, Finset.sum_Ico_succ_top hi, ← hs]
      simp only [lit_real, ofUsize_real, Rat.cast_one, mul_one]
      congr 3
      have hn0 : (0 : ℝ) < n := by exact_mod_cast hn
      push_cast; field_simp)
  rw [hs, hI]; rfl

omit [LawfulPoint P] in
theorem hasDerivAt_toE {f : ℝ → P} {v : ℕ → ℝ} {t : ℝ} (h : HasPointDerivAt f v t) :
    HasDerivAt (fun u => toE (f u)) (WithLp.toLp 2 fun i : Fin (Point.dim P) => v i.val) t := by
  rw [hasDerivAt_iff_hasFDerivAt, ← hasFDerivWithinAt_univ, hasFDerivWithinAt_euclidean]
  intro i
  have := h i.val i.isLt
  rw [hasDerivAt_iff_hasFDerivAt] at this
  refine (this.congr_fderiv ?_).hasFDerivWithinAt
  ext; simp

omit [Point ℝ P] [LawfulPoint P] in
theorem norm_toLp_eq (dim : ℕ) (v : ℕ → ℝ) :
    ‖(WithLp.toLp 2 fun i : Fin dim => v i.val : EuclideanSpace ℝ (Fin dim))‖
      = Real.sqrt (∑ i ∈ Finset.range dim, v i ^ 2) := by
  rw [EuclideanSpace.norm_eq, ← Fin.sum_univ_eq_sum_range (fun i => v i ^ 2)]
  simp

omit [LawfulPoint P] in
/-- Bounds on the chord sum computed by `arclen`: it never exceeds the arc length and
falls short by at most a constant over n. -/
theorem arclen_bounds {f : ℝ → P} {v : ℝ → ℕ → ℝ} (hf : ∀ t, HasPointDerivAt f (v t) t)
    (hsmooth : ∀ i < Point.dim P, ContDiff ℝ 2 fun t => coord (f t) i) :
    ∃ K : ℝ, ∀ n : ℕ, 1 ≤ n →
      polylineLength (fun i : ℕ => f ((i : ℝ) / n)) 1 n ≤ arcLength (Point.dim P) v ∧
      arcLength (Point.dim P) v - K / n ≤ polylineLength (fun i : ℕ => f ((i : ℝ) / n)) 1 n := by
  set F : ℝ → EuclideanSpace ℝ (Fin (Point.dim P)) := fun t => toE (f t) with hFdef
  set F' : ℝ → EuclideanSpace ℝ (Fin (Point.dim P)) := fun t =>
    WithLp.toLp 2 fun i : Fin (Point.dim P) => v t i.val with hF'def
  have hF : ∀ t, HasDerivAt F (F' t) t := fun t => hasDerivAt_toE (hf t)
  have hC2 : ContDiff ℝ 2 F := contDiff_euclidean.2 fun i => hsmooth i.val i.isLt
  have hderiv : deriv F = F' := funext fun t => (hF t).deriv
  have hC1 : ContDiff ℝ 1 F' := by
    rw [← hderiv]
    exact (contDiff_succ_iff_deriv (n := 1)).1 hC2 |>.2.2
  have hc : Continuous F' := hC1.continuous
  have hd' : Continuous (deriv F') := hC1.continuous_deriv le_rfl
  obtain ⟨M, hM⟩ := isCompact_Icc.exists_bound_of_continuousOn (s := Set.Icc (0 : ℝ) 1)
    hd'.continuousOn
  have hLip : ∀ x ∈ Set.Icc (0 : ℝ) 1, ∀ y ∈ Set.Icc (0 : ℝ) 1, ‖F' y - F' x‖ ≤ M * |y - x| := by
    intro x hx y hy
    have := (convex_Icc (0 : ℝ) 1).norm_image_sub_le_of_norm_deriv_le (f := F') (C := M)
      (fun z _ => (hC1.differentiable one_ne_zero).differentiableAt) hM hx hy
    rwa [Real.norm_eq_abs] at this
  obtain ⟨L, hL⟩ := isCompact_Icc.exists_bound_of_continuousOn (s := Set.Icc (0 : ℝ) 1)
    hc.continuousOn
  have harc : arcLength (Point.dim P) v = ∫ t in (0 : ℝ)..1, ‖F' t‖ := by
    unfold arcLength
    congr 1
    funext t
    exact (norm_toLp_eq _ _).symm
  have hpoly : ∀ n : ℕ, polylineLength (fun i : ℕ => f ((i : ℝ) / n)) 1 n
      = ∑ i ∈ Finset.Ico 1 n, ‖F ((i : ℝ) / n) - F (((i + 1 : ℕ) : ℝ) / n)‖ := by
    intro n
    unfold polylineLength
    exact Finset.sum_congr rfl fun i _ => pdist_eq_norm _ _
  refine ⟨2 * M + L, fun n hn => ?_⟩
  have hn0 : (0 : ℝ) < n := by exact_mod_cast hn
  have hn1 : (1 : ℝ) / n ≤ 1 := by rw [div_le_one hn0]; exact_mod_cast hn
  have hn1' : 0 < (1 : ℝ) / n := by positivity
  obtain ⟨h1, h2⟩ := polyline_arc hF hc hLip hn 1 hn
  rw [Nat.cast_one] at h1 h2
  have hsplit : (∫ t in (0 : ℝ)..1, ‖F' t‖)
      = (∫ t in (0 : ℝ)..(1 / n), ‖F' t‖) + ∫ t in (1 / (n : ℝ))..1, ‖F' t‖ :=
    (intervalIntegral.integral_add_adjacent_intervals (hc.norm.intervalIntegrable _ _)
      (hc.norm.intervalIntegrable _ _)).symm
  have hfirst0 : 0 ≤ ∫ t in (0 : ℝ)..(1 / n), ‖F' t‖ :=
    intervalIntegral.integral_nonneg hn1'.le fun t _ => norm_nonneg _
  have hfirst : (∫ t in (0 : ℝ)..(1 / n), ‖F' t‖) ≤ L / n := by
    have := intervalIntegral.norm_integral_le_of_norm_le_const (a := 0) (b := 1 / (n : ℝ))
      (f := fun t => ‖F' t‖) (C := L) (by
        intro t ht
        rw [Set.uIoc_of_le hn1'.le] at ht
        rw [norm_norm]
        exact hL t ⟨ht.1.le, ht.2.trans hn1⟩)
    rw [Real.norm_of_nonneg hfirst0, sub_zero, abs_of_pos hn1'] at this
    calc _ ≤ _ := this
      _ = _ := by ring
  rw [harc, hpoly, hsplit]
  constructor
  · linarith
  · rw [add_div]; linarith

/-- Convergence from the bounds. -/
theorem tendsto_of_bounds {u : ℕ → ℝ} {L K : ℝ}
    (h : ∀ n : ℕ, 1 ≤ n → u n ≤ L ∧ L - K / n ≤ u n) :
    Filter.Tendsto u Filter.atTop (nhds L) := by
  have h0 : Filter.Tendsto (fun n : ℕ => L - K / n) Filter.atTop (nhds (L - 0)) :=
    tendsto_const_nhds.sub (tendsto_const_div_atTop_nhds_zero_nat K)
  rw [sub_zero] at h0
  refine tendsto_of_tendsto_of_tendsto_of_le_of_le' h0 tendsto_const_nhds ?_ ?_
  · filter_upwards [Filter.eventually_ge_atTop 1] with n hn using (h n hn).2
  · filter_upwards [Filter.eventually_ge_atTop 1] with n hn using (h n hn).1

end Points

end Stroke
