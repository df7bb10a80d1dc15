import Verif.Lemmas.CoxDeBoorDeriv
import Mathlib.Topology.Order.OrderClosed
import Mathlib.Topology.Algebra.Order.Field

/-!
# Continuity of the Cox-de Boor basis functions at knots of any multiplicity
-/

open Filter Topology

namespace Stroke

variable {u : ℕ → ℝ} {K : ℕ}

/-- A basis function whose first `q + 1` knots coincide. -/
theorem coxDeBoor_lead (q : ℕ) : ∀ (i : ℕ) (x y : ℝ), (∀ j ≤ q, u (i + j) = x) →
    u (i + q + 1) = y → x < y → ∀ t, t < y →
    coxDeBoor u q i t = if x ≤ t then ((y - t) / (y - x)) ^ q else 0 := by
  induction q with
  | zero =>
    intro i x y h1 h2 hxy t ht
    have e0 : u i = x := h1 0 le_rfl
    have e1 : u (i + 1) = y := h2
    simp only [coxDeBoor, e0, e1, ht, and_true, pow_zero]
  | succ q ih =>
    intro i x y h1 h2 hxy t ht
    have e0 : u i = x := h1 0 (by omega)
    have e1 : u (i + q + 1) = x := h1 (q + 1) le_rfl
    have e2 : u (i + 1) = x := h1 1 (by omega)
    have e3 : u (i + q + 2) = y := h2
    rw [coxDeBoor_succ, e0, e1, e2, e3, ih (i + 1) x y (fun j hj => by
      rw [show i + 1 + j = i + (j + 1) by omega]; exact h1 _ (by omega))
      (by rw [show i + 1 + q + 1 = i + q + 2 by omega]; exact e3) hxy t ht]
    rw [sub_self, inv_zero, mul_zero, zero_mul, zero_add]
    split_ifs
    · rw [pow_succ, div_eq_mul_inv]; ring
    · ring

/-- A basis function whose last `q + 1` knots coincide. -/
theorem coxDeBoor_trail (q : ℕ) : ∀ (i : ℕ) (x y : ℝ), (∀ j, 1 ≤ j → j ≤ q + 1 → u (i + j) = x) →
    u i = y → y < x → ∀ t, y ≤ t →
    coxDeBoor u q i t = if x ≤ t then 0 else ((t - y) / (x - y)) ^ q := by
  induction q with
  | zero =>
    intro i x y h1 h2 hxy t ht
    have e1 : u (i + 1) = x := h1 1 le_rfl le_rfl
    simp only [coxDeBoor, h2, e1, ht, true_and, pow_zero]
    by_cases h : x ≤ t
    · rw [if_pos h, if_neg (not_lt.2 h)]
    · rw [if_neg h, if_pos (not_le.1 h)]
  | succ q ih =>
    intro i x y h1 h2 hxy t ht
    have e1 : u (i + q + 1) = x := h1 (q + 1) (by omega) (by omega)
    have e2 : u (i + 1) = x := h1 1 (by omega) (by omega)
    have e3 : u (i + q + 2) = x := h1 (q + 2) (by omega) (by omega)
    rw [coxDeBoor_succ, h2, e1, e2, e3, ih i x y (fun j a b => h1 j a (by omega)) h2 hxy t ht]
    rw [sub_self, inv_zero, mul_zero, zero_mul, add_zero]
    split_ifs
    · ring
    · rw [pow_succ, div_eq_mul_inv]; ring

theorem continuousAt_ite {f g : ℝ → ℝ} (x : ℝ) (hf : Continuous f) (hg : Continuous g)
    (hfg : f x = g x) : ContinuousAt (fun t => if x ≤ t then f t else g t) x := by
  refine (Continuous.if_le hf hg continuous_const continuous_id ?_).continuousAt
  rintro t rfl
  exact hfg

/-- A basis function of degree `q` is continuous at `x` unless `x` is a knot of multiplicity at
least `q + 1` of its own knots. -/
theorem coxDeBoor_continuousAt_of (hm : ∀ i j, i ≤ j → j < K → u i ≤ u j) (x : ℝ) (q : ℕ) :
    ∀ i, i + q + 1 < K → ¬ (u i = x ∧ u (i + q) = x) → ¬ (u (i + 1) = x ∧ u (i + q + 1) = x) →
    ContinuousAt (coxDeBoor u q i) x := by
  induction q with
  | zero =>
    intro i hi h1 h2
    have n1 : u i ≠ x := fun h => h1 ⟨h, h⟩
    have n2 : u (i + 1) ≠ x := fun h => h2 ⟨h, h⟩
    refine (continuousAt_const (y := coxDeBoor u 0 i x)).congr ?_
    have a1 : ∀ᶠ t in 𝓝 x, (u i ≤ t ↔ u i ≤ x) := by
      rcases lt_or_gt_of_ne n1 with h | h
      · filter_upwards [lt_mem_nhds h] with t ht
        exact ⟨fun _ => h.le, fun _ => ht.le⟩
      · filter_upwards [gt_mem_nhds h] with t ht
        exact ⟨fun e => by linarith, fun e => by linarith⟩
    have a2 : ∀ᶠ t in 𝓝 x, (t < u (i + 1) ↔ x < u (i + 1)) := by
      rcases lt_or_gt_of_ne n2 with h | h
      · filter_upwards [lt_mem_nhds h] with t ht
        exact ⟨fun e => by linarith, fun e => by linarith⟩
      · filter_upwards [gt_mem_nhds h] with t ht
        exact ⟨fun _ => h, fun _ => ht⟩
    filter_upwards [a1, a2] with t b1 b2
    simp only [coxDeBoor, b1, b2]
  | succ q ih =>
    intro i hi h1 h2
    have sq : ∀ a b j : ℕ, a ≤ j → j ≤ b → b < K → u a = x → u b = x → u j = x := by
      intro a b j haj hjb hb ea eb
      have := hm a j haj (by omega)
      have := hm j b hjb hb
      rw [ea] at *
      rw [eb] at *
      linarith
    have efun : coxDeBoor u (q + 1) i = fun t =>
        (t - u i) * (u (i + q + 1) - u i)⁻¹ * coxDeBoor u q i t
        + (u (i + q + 2) - t) * (u (i + q + 2) - u (i + 1))⁻¹ * coxDeBoor u q (i + 1) t := by
      funext t; exact coxDeBoor_succ u q i t
    rw [efun]
    by_cases cB : u (i + 1) = x ∧ u (i + q + 1) = x
    · have l1 : u i < x := lt_of_le_of_ne (by rw [← cB.1]; exact hm _ _ (by omega) (by omega))
        (fun h => h1 ⟨h, cB.2⟩)
      have l2 : x < u (i + q + 2) := lt_of_le_of_ne
        (by rw [← cB.2]; exact hm _ _ (by omega) (by omega)) (fun h => h2 ⟨cB.1, h.symm⟩)
      refine (continuousAt_ite (f := fun t => ((u (i + q + 2) - t) / (u (i + q + 2) - x)) ^ (q + 1))
        (g := fun t => ((t - u i) / (x - u i)) ^ (q + 1)) x (by fun_prop) (by fun_prop) ?_).congr ?_
      · rw [div_self (by linarith), div_self (by linarith)]
      · filter_upwards [lt_mem_nhds l1, gt_mem_nhds l2] with t b1 b2
        rw [coxDeBoor_trail q i x (u i) (fun j ja jb => sq (i + 1) (i + q + 1) (i + j) (by omega)
            (by omega) (by omega) cB.1 cB.2) rfl l1 t b1.le,
          coxDeBoor_lead q (i + 1) x (u (i + q + 2)) (fun j ja => sq (i + 1) (i + q + 1) (i + 1 + j)
            (by omega) (by omega) (by omega) cB.1 cB.2)
            (by rw [show i + 1 + q + 1 = i + q + 2 by omega]) l2 t b2, cB.1, cB.2]
        split_ifs
        · rw [pow_succ, div_eq_mul_inv]; ring
        · rw [pow_succ, div_eq_mul_inv]; ring
    · refine ContinuousAt.add ?_ ?_
      · by_cases cA : u i = x ∧ u (i + q) = x
        · have l2 : x < u (i + q + 1) := lt_of_le_of_ne
            (by rw [← cA.2]; exact hm _ _ (by omega) (by omega)) (fun h => h1 ⟨cA.1, h.symm⟩)
          refine (continuousAt_ite (f := fun t => (t - x) * (u (i + q + 1) - x)⁻¹
              * ((u (i + q + 1) - t) / (u (i + q + 1) - x)) ^ q)
            (g := fun _ => 0) x (by fun_prop) continuous_const (by simp)).congr ?_
          filter_upwards [gt_mem_nhds l2] with t b2
          rw [coxDeBoor_lead q i x _ (fun j ja => sq i (i + q) (i + j) (by omega) (by omega)
            (by omega) cA.1 cA.2) rfl l2 t b2, cA.1]
          split_ifs
          · rfl
          · ring
        · exact ContinuousAt.mul (by fun_prop) (ih i (by omega) cA cB)
      · by_cases cC : u (i + 2) = x ∧ u (i + q + 2) = x
        · have l1 : u (i + 1) < x := lt_of_le_of_ne
            (by rw [← cC.1]; exact hm _ _ (by omega) (by omega)) (fun h => h2 ⟨h, cC.2⟩)
          refine (continuousAt_ite (f := fun _ => 0) (g := fun t => (x - t) * (x - u (i + 1))⁻¹
              * ((t - u (i + 1)) / (x - u (i + 1))) ^ q)
            x continuous_const (by fun_prop) (by simp)).congr ?_
          filter_upwards [lt_mem_nhds l1] with t b1
          rw [coxDeBoor_trail q (i + 1) x _ (fun j ja jb => sq (i + 2) (i + q + 2) (i + 1 + j)
            (by omega) (by omega) (by omega) cC.1 cC.2) rfl l1 t b1.le, cC.2]
          split_ifs
          · ring
          · rfl
        · refine ContinuousAt.mul (by fun_prop) (ih (i + 1) (by omega) ?_ ?_)
          · rw [show i + 1 + q = i + q + 1 by omega]; exact cB
          · rw [show i + 1 + 1 = i + 2 by omega, show i + 1 + q + 1 = i + q + 2 by omega]; exact cC

/-- Basis functions are continuous from the right. -/
theorem coxDeBoor_continuousWithinAt (x : ℝ) (q : ℕ) : ∀ i,
    ContinuousWithinAt (coxDeBoor u q i) (Set.Ici x) x := by
  induction q with
  | zero =>
    intro i
    refine (continuousWithinAt_const (b := coxDeBoor u 0 i x)).congr_of_eventuallyEq ?_ rfl
    have a1 : ∀ᶠ t in 𝓝[Set.Ici x] x, (u i ≤ t ↔ u i ≤ x) := by
      by_cases h : u i ≤ x
      · filter_upwards [self_mem_nhdsWithin] with t ht
        exact ⟨fun _ => h, fun _ => h.trans ht⟩
      · filter_upwards [mem_nhdsWithin_of_mem_nhds (gt_mem_nhds (not_le.1 h))] with t ht
        exact ⟨fun e => absurd (e.trans_lt ht) (lt_irrefl _), fun e => absurd e h⟩
    have a2 : ∀ᶠ t in 𝓝[Set.Ici x] x, (t < u (i + 1) ↔ x < u (i + 1)) := by
      by_cases h : x < u (i + 1)
      · filter_upwards [mem_nhdsWithin_of_mem_nhds (gt_mem_nhds h)] with t ht
        exact ⟨fun _ => h, fun _ => ht⟩
      · filter_upwards [self_mem_nhdsWithin] with t ht
        exact ⟨fun e => absurd (lt_of_le_of_lt ht e) h, fun e => absurd e h⟩
    filter_upwards [a1, a2] with t b1 b2
    simp only [coxDeBoor, b1, b2]
  | succ q ih =>
    intro i
    have efun : coxDeBoor u (q + 1) i = fun t =>
        (t - u i) * (u (i + q + 1) - u i)⁻¹ * coxDeBoor u q i t
        + (u (i + q + 2) - t) * (u (i + q + 2) - u (i + 1))⁻¹ * coxDeBoor u q (i + 1) t := by
      funext t; exact coxDeBoor_succ u q i t
    rw [efun]
    exact ((ContinuousWithinAt.mul (by fun_prop) (ih i)).add
      (ContinuousWithinAt.mul (by fun_prop) (ih (i + 1))))

/-- Basis functions do not depend on the units of the parameter. -/
theorem coxDeBoor_reparam {r : ℝ} (hr : 0 < r) (c : ℝ) (d : ℕ) : ∀ (i : ℕ) (t : ℝ),
    coxDeBoor (fun j => r * u j + c) d i (r * t + c) = coxDeBoor u d i t := by
  induction d with
  | zero =>
    intro i t
    simp only [coxDeBoor, add_le_add_iff_right, add_lt_add_iff_right, mul_le_mul_iff_right₀ hr,
      mul_lt_mul_iff_right₀ hr]
  | succ d ih =>
    intro i t
    rw [coxDeBoor_succ, coxDeBoor_succ, ih, ih]
    have e : ∀ a b : ℝ, r * a + c - (r * b + c) = r * (a - b) := fun a b => by ring
    have e2 : ∀ a b : ℝ, r * a * (r * b)⁻¹ = a * b⁻¹ := by
      intro a b
      rw [mul_inv, show r * a * (r⁻¹ * b⁻¹) = (r * r⁻¹) * (a * b⁻¹) by ring,
        mul_inv_cancel₀ hr.ne', one_mul]
    rw [e, e, e, e, e2, e2]

end Stroke
