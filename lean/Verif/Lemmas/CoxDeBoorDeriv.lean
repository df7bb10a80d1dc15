import Verif.Lemmas.CoxDeBoor
import Mathlib.Analysis.Calculus.Deriv.Mul
import Mathlib.Analysis.Calculus.Deriv.Add

/-!
# Derivatives of the Cox–de Boor basis
-/

namespace Stroke

/-- The recursion without the case distinction (Lean's `x / 0 = 0` is the convention used). -/
theorem coxDeBoor_succ (u : ℕ → ℝ) (d i : ℕ) (t : ℝ) :
    coxDeBoor u (d + 1) i t
      = (t - u i) * (u (i + d + 1) - u i)⁻¹ * coxDeBoor u d i t
        + (u (i + d + 2) - t) * (u (i + d + 2) - u (i + 1))⁻¹ * coxDeBoor u d (i + 1) t := by
  simp only [coxDeBoor]
  congr 1
  · split_ifs with h
    · rw [h, sub_self, inv_zero, mul_zero, zero_mul]
    · rw [div_eq_mul_inv]
  · split_ifs with h
    · rw [h, sub_self, inv_zero, mul_zero, zero_mul]
    · rw [div_eq_mul_inv]

theorem coxDeBoor_shift (u : ℕ → ℝ) (d i : ℕ) (t : ℝ) :
    coxDeBoor (fun j => u (j + 1)) d i t = coxDeBoor u d (i + 1) t := by
  induction d generalizing i with
  | zero => simp only [coxDeBoor]
  | succ d ih =>
    rw [coxDeBoor_succ, coxDeBoor_succ, ih, ih]
    rw [show i + 1 + d + 1 = i + d + 1 + 1 by omega, show i + 1 + d + 2 = i + d + 2 + 1 by omega]

theorem coxDeBoor_congr {u w : ℕ → ℝ} {K : ℕ} (huw : ∀ i < K, u i = w i) (d i : ℕ)
    (hi : i + d + 1 < K) (t : ℝ) : coxDeBoor u d i t = coxDeBoor w d i t := by
  induction d generalizing i with
  | zero => simp only [coxDeBoor]; rw [huw i (by omega), huw (i + 1) (by omega)]
  | succ d ih =>
    rw [coxDeBoor_succ, coxDeBoor_succ, ih i (by omega), ih (i + 1) (by omega), huw i (by omega),
      huw (i + 1) (by omega), huw (i + d + 1) (by omega), huw (i + d + 2) (by omega)]

section
variable {u : ℕ → ℝ} {K k : ℕ} {t : ℝ}

/-- Inside a span the basis functions of degree 0 do not change. -/
theorem hasDerivAt_coxDeBoor_zero (hm : ∀ i j, i ≤ j → j < K → u i ≤ u j) (hk : k + 1 < K)
    (h1 : u k < t) (h2 : t < u (k + 1)) (i : ℕ) (hi : i + 1 < K) :
    HasDerivAt (fun t => coxDeBoor u 0 i t) 0 t := by
  have hmem : Set.Ioo (u k) (u (k + 1)) ∈ nhds t := Ioo_mem_nhds h1 h2
  have hconst : ∀ s ∈ Set.Ioo (u k) (u (k + 1)), coxDeBoor u 0 i s = if i = k then 1 else 0 := by
    intro s hs
    by_cases hik : i = k
    · subst hik
      simp only [coxDeBoor]
      rw [if_pos ⟨hs.1.le, hs.2⟩, if_pos trivial]
    · rw [if_neg hik]
      exact coxDeBoor_eq_zero hm hk hs.1.le hs.2 0 i (by omega) (by omega)
  refine (hasDerivAt_const t (if i = k then (1 : ℝ) else 0)).congr_of_eventuallyEq ?_
  filter_upwards [hmem] with s hs
  exact hconst s hs

theorem hasDerivAt_coxDeBoor_step {d i : ℕ} {v1 v2 : ℝ}
    (e1 : HasDerivAt (fun t => coxDeBoor u d i t) v1 t)
    (e2 : HasDerivAt (fun t => coxDeBoor u d (i + 1) t) v2 t) :
    HasDerivAt (fun t => coxDeBoor u (d + 1) i t)
      ((u (i + d + 1) - u i)⁻¹ * coxDeBoor u d i t
        - (u (i + d + 2) - u (i + 1))⁻¹ * coxDeBoor u d (i + 1) t
        + (t - u i) * (u (i + d + 1) - u i)⁻¹ * v1
        + (u (i + d + 2) - t) * (u (i + d + 2) - u (i + 1))⁻¹ * v2) t := by
  have hf : (fun t => coxDeBoor u (d + 1) i t) = fun t =>
      (t - u i) * (u (i + d + 1) - u i)⁻¹ * coxDeBoor u d i t
        + (u (i + d + 2) - t) * (u (i + d + 2) - u (i + 1))⁻¹ * coxDeBoor u d (i + 1) t :=
    funext fun t => coxDeBoor_succ u d i t
  rw [hf]
  have a1 : HasDerivAt (fun t => (t - u i) * (u (i + d + 1) - u i)⁻¹)
      ((u (i + d + 1) - u i)⁻¹) t := by
    have := ((hasDerivAt_id t).sub_const (u i)).mul_const (u (i + d + 1) - u i)⁻¹
    simpa using this
  have a2 : HasDerivAt (fun t => (u (i + d + 2) - t) * (u (i + d + 2) - u (i + 1))⁻¹)
      (-(u (i + d + 2) - u (i + 1))⁻¹) t := by
    have := ((hasDerivAt_id t).const_sub (u (i + d + 2))).mul_const
      (u (i + d + 2) - u (i + 1))⁻¹
    simpa using this
  refine ((a1.mul e1).add (a2.mul e2)).congr_deriv ?_
  ring

/-- The derivative of a basis function inside a span. -/
theorem hasDerivAt_coxDeBoor (hm : ∀ i j, i ≤ j → j < K → u i ≤ u j) (hk : k + 1 < K)
    (h1 : u k < t) (h2 : t < u (k + 1)) (d i : ℕ) (hi : i + d + 2 < K) :
    HasDerivAt (fun t => coxDeBoor u (d + 1) i t)
      ((d + 1 : ℝ) * ((u (i + d + 1) - u i)⁻¹ * coxDeBoor u d i t
        - (u (i + d + 2) - u (i + 1))⁻¹ * coxDeBoor u d (i + 1) t)) t := by
  induction d generalizing i with
  | zero =>
    refine (hasDerivAt_coxDeBoor_step
      (hasDerivAt_coxDeBoor_zero hm hk h1 h2 i (by omega))
      (hasDerivAt_coxDeBoor_zero hm hk h1 h2 (i + 1) (by omega))).congr_deriv ?_
    push_cast
    ring
  | succ d ih =>
    refine (hasDerivAt_coxDeBoor_step (ih i (by omega)) (ih (i + 1) (by omega))).congr_deriv ?_
    rw [coxDeBoor_succ u d i, coxDeBoor_succ u d (i + 1)]
    rw [show i + 1 + d + 1 = i + d + 2 by omega, show i + 1 + d + 2 = i + d + 3 by omega,
      show i + (d + 1) + 1 = i + d + 2 by omega, show i + (d + 1) + 2 = i + d + 3 by omega,
      show i + 1 + 1 = i + 2 by omega]
    have m1 := hm i (i + 1) (by omega) (by omega)
    have m2 := hm (i + 1) (i + d + 2) (by omega) (by omega)
    have m3 := hm (i + d + 2) (i + d + 3) (by omega) (by omega)
    -- the two normalisations agree where the middle basis function lives
    have key : (u (i + d + 2) - u (i + 1))⁻¹ * ((u (i + d + 2) - u i)⁻¹ * (u (i + d + 2) - u i))
        = (u (i + d + 2) - u (i + 1))⁻¹
          * ((u (i + d + 3) - u (i + 1))⁻¹ * (u (i + d + 3) - u (i + 1))) := by
      rcases eq_or_lt_of_le m2 with h | h
      · rw [← h, sub_self, inv_zero, zero_mul, zero_mul]
      · rw [inv_mul_cancel₀ (by linarith), inv_mul_cancel₀ (by linarith)]
    push_cast
    linear_combination (-(d + 1 : ℝ) * coxDeBoor u d (i + 1) t) * key

/-- The derivative of a combination of basis functions, with the control points of the
derivative curve. -/
theorem hasDerivAt_spline (hm : ∀ i j, i ≤ j → j < K → u i ≤ u j) {C d : ℕ}
    (hK : K = C + (d + 1) + 1) (hdC : d + 1 < C) (hDk : d + 1 ≤ k) (hkC : k < C) (h1 : u k < t)
    (h2 : t < u (k + 1)) (x : ℕ → ℝ) :
    HasDerivAt (fun t => ∑ i ∈ Finset.range C, coxDeBoor u (d + 1) i t * x i)
      (∑ i ∈ Finset.range (C - 1), coxDeBoor u d (i + 1) t
        * ((x (i + 1) - x i) * ((d + 1 : ℝ) / (u (i + (d + 1) + 1) - u (i + 1))))) t := by
  have h : HasDerivAt (fun t => ∑ i ∈ Finset.range C, coxDeBoor u (d + 1) i t * x i)
      (∑ i ∈ Finset.range C, ((d + 1 : ℝ) * ((u (i + d + 1) - u i)⁻¹ * coxDeBoor u d i t
        - (u (i + d + 2) - u (i + 1))⁻¹ * coxDeBoor u d (i + 1) t)) * x i) t := by
    refine HasDerivAt.fun_sum fun i hi => ?_
    have := Finset.mem_range.1 hi
    exact (hasDerivAt_coxDeBoor hm (by omega) h1 h2 d i (by omega)).mul_const _
  refine h.congr_deriv ?_
  obtain ⟨n, rfl⟩ : ∃ n, C = n + 1 := ⟨C - 1, by omega⟩
  simp only [Nat.add_sub_cancel]
  have z0 : coxDeBoor u d 0 t = 0 :=
    coxDeBoor_eq_zero hm (by omega) h1.le h2 d 0 (by omega) (by omega)
  have zC : coxDeBoor u d (n + 1) t = 0 :=
    coxDeBoor_eq_zero hm (by omega) h1.le h2 d (n + 1) (by omega) (by omega)
  set g : ℕ → ℝ := fun i => (u (i + d + 1) - u i)⁻¹ * coxDeBoor u d i t with hg
  have hg1 : ∀ i, (u (i + d + 2) - u (i + 1))⁻¹ * coxDeBoor u d (i + 1) t = g (i + 1) := by
    intro i
    simp only [hg]
    rw [show i + 1 + d + 1 = i + d + 2 by omega]
  have hL : ∑ i ∈ Finset.range (n + 1), ((d + 1 : ℝ) * ((u (i + d + 1) - u i)⁻¹ * coxDeBoor u d i t
        - (u (i + d + 2) - u (i + 1))⁻¹ * coxDeBoor u d (i + 1) t)) * x i
      = (d + 1 : ℝ) * (∑ i ∈ Finset.range (n + 1), g i * x i
        - ∑ i ∈ Finset.range (n + 1), g (i + 1) * x i) := by
    rw [← Finset.sum_sub_distrib, Finset.mul_sum]
    apply Finset.sum_congr rfl
    intro i _
    rw [hg1]
    simp only [hg]
    ring
  rw [hL, Finset.sum_range_succ' (fun i => g i * x i),
    Finset.sum_range_succ (fun i => g (i + 1) * x i)]
  have hg0 : g 0 = 0 := by simp only [hg]; rw [z0, mul_zero]
  have hgC : g (n + 1) = 0 := by simp only [hg]; rw [zC, mul_zero]
  rw [hg0, hgC, zero_mul, zero_mul, add_zero, add_zero, ← Finset.sum_sub_distrib, Finset.mul_sum]
  apply Finset.sum_congr rfl
  intro i _
  rw [← hg1, show i + (d + 1) + 1 = i + d + 2 by omega, div_eq_mul_inv]
  ring

end

end Stroke
