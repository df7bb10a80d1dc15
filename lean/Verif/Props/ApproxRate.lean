import Verif.Props.Graphs
import Mathlib.Analysis.SpecialFunctions.Bernstein
import Mathlib.Analysis.Calculus.MeanValue

set_option linter.unusedSectionVars false

/-!
# How fast curves through samples of a function tend to it (C155)

`C155_approximation` says that Bezier curves with control points from the graph of a continuous function tend to
it.  Here is the rate: `L / (2 √n)` for a function with the Lipschitz constant `L`, `M / (4 n)` for a function whose
derivative has the Lipschitz constant `M`.  For B-splines the error is at most `M` times the square of the width
of the knots around the parameter.
-/

namespace Stroke

section Curves
variable {P : Type} [Point ℝ P] [LawfulPoint P]

theorem bernstein_eq (n k : ℕ) (x : unitInterval) : _root_.bernstein n k x = bernstein n k x := by
  rw [bernstein_apply, bernstein]

theorem bernstein_mass (n : ℕ) (t : ℝ) : ∑ i : Fin (n + 1), bernstein n i.val t = 1 := by
  rw [Fin.sum_univ_eq_sum_range (fun k => bernstein n k t) (n + 1)]
  exact bernstein_sum n t

theorem bernstein_variance {n : ℕ} (hn : n ≠ 0) {t : ℝ} (h0 : 0 ≤ t) (h1 : t ≤ 1) :
    ∑ i : Fin (n + 1), bernstein n i.val t * (i.val / n - t) ^ 2 = t * (1 - t) / n := by
  have h := bernstein.variance hn ⟨t, h0, h1⟩
  simp only [bernstein_eq, bernstein.z] at h
  rw [← h]
  refine Finset.sum_congr rfl fun i _ => ?_
  ring

theorem bernstein_deviation {n : ℕ} (hn : n ≠ 0) {t : ℝ} (h0 : 0 ≤ t) (h1 : t ≤ 1) :
    ∑ i : Fin (n + 1), bernstein n i.val t * |i.val / n - t| ≤ 1 / (2 * √n) := by
  have hn' : (0 : ℝ) < n := by positivity
  have cs := Finset.sum_mul_sq_le_sq_mul_sq Finset.univ (fun i : Fin (n + 1) => √(bernstein n i.val t))
    (fun i : Fin (n + 1) => √(bernstein n i.val t) * |i.val / n - t|)
  have e : ∀ i : Fin (n + 1), √(bernstein n i.val t) ^ 2 = bernstein n i.val t := fun i =>
    Real.sq_sqrt (bernstein_nonneg h0 h1)
  simp only [mul_pow, e, sq_abs, ← mul_assoc, ← pow_two] at cs
  rw [bernstein_mass, bernstein_variance hn h0 h1, one_mul] at cs
  have q : t * (1 - t) / n ≤ (1 / (2 * √n)) ^ 2 := by
    rw [div_pow, mul_pow, Real.sq_sqrt hn'.le, one_pow, div_le_div_iff₀ hn' (by positivity)]
    nlinarith [sq_nonneg (2 * t - 1)]
  exact abs_le_of_sq_le_sq' (cs.trans q) (by positivity) |>.2

theorem taylor_remainder {f f' : ℝ → ℝ} {x0 x1 M : ℝ} (hd : ∀ t, x0 ≤ t → t ≤ x1 → HasDerivAt f (f' t) t)
    (hf : ∀ s t, x0 ≤ s → s ≤ x1 → x0 ≤ t → t ≤ x1 → |f' s - f' t| ≤ M * |s - t|) (hM : 0 ≤ M) {t : ℝ}
    (h0 : x0 ≤ t) (h1 : t ≤ x1) {s : ℝ} (s0 : x0 ≤ s) (s1 : s ≤ x1) :
    |f s - f t - f' t * (s - t)| ≤ M * (s - t) ^ 2 := by
  have key : ∀ x, x ∈ Set.uIcc t s → ‖f' x - f' t‖ ≤ M * |s - t| := by
    intro x hx
    rw [Set.mem_uIcc] at hx
    have hx0 : x0 ≤ x := by rcases hx with h | h <;> linarith [h.1]
    have hx1 : x ≤ x1 := by rcases hx with h | h <;> linarith [h.2]
    refine (hf x t hx0 hx1 h0 h1).trans (mul_le_mul_of_nonneg_left ?_ hM)
    rcases hx with h | h
    · rw [abs_of_nonneg (by linarith), abs_of_nonneg (by linarith)]; linarith
    · rw [abs_of_nonpos (by linarith), abs_of_nonpos (by linarith)]; linarith
  have mv := Convex.norm_image_sub_le_of_norm_hasDerivWithin_le
    (f := fun x => f x - f' t * x) (f' := fun x => f' x - f' t * 1) (s := Set.uIcc t s)
    (x := t) (y := s) (C := M * |s - t|)
    (fun x hx => by
      rw [Set.mem_uIcc] at hx
      have hx0 : x0 ≤ x := by rcases hx with h | h <;> linarith [h.1]
      have hx1 : x ≤ x1 := by rcases hx with h | h <;> linarith [h.2]
      exact ((hd x hx0 hx1).sub ((hasDerivAt_id x).const_mul (f' t))).hasDerivWithinAt)
    (fun x hx => by rw [mul_one]; exact key x hx) (convex_uIcc t s) Set.left_mem_uIcc Set.right_mem_uIcc
  rw [Real.norm_eq_abs, Real.norm_eq_abs, mul_assoc, ← pow_two, sq_abs] at mv
  refine le_of_eq_of_le ?_ mv
  congr 1
  ring

/-- **C155**: if `f` has the Lipschitz constant `L`, the curve of degree `n` with control values `f(i/n)` is within
`L / (2 √n)` of `f`. -/
theorem C155_lipschitz {n : ℕ} (hn : n ≠ 0) {f : ℝ → ℝ} {c : ℕ} {L : ℝ}
    (hf : ∀ s t, 0 ≤ s → s ≤ 1 → 0 ≤ t → t ≤ 1 → |f s - f t| ≤ L * |s - t|)
    {b : Bezier P (n + 1)} (hb : ∀ i, coord (b.control_points i) c = f (i.val / n))
    {t : ℝ} (h0 : 0 ≤ t) (h1 : t ≤ 1) :
    ∃ q, b.eval t = some q ∧ |coord q c - f t| ≤ L / (2 * √n) := by
  have hn' : (0 : ℝ) < n := by positivity
  obtain ⟨q, hq, e⟩ := C30_eval b (by omega) t
  refine ⟨q, hq, ?_⟩
  have hL : 0 ≤ L := by
    have := (abs_nonneg _).trans (hf 1 0 (by norm_num) le_rfl le_rfl (by norm_num))
    simpa using this
  have d : coord q c - f t
      = ∑ i : Fin (n + 1), bernstein n i.val t * (f (i.val / n) - f t) := by
    simp only [mul_sub, Finset.sum_sub_distrib, ← Finset.sum_mul, bernstein_mass, one_mul, e, bezierCoord,
      Bezier.controlPoints, hb, Nat.add_sub_cancel]
  rw [d]
  calc |∑ i : Fin (n + 1), bernstein n i.val t * (f (i.val / n) - f t)|
      ≤ ∑ i : Fin (n + 1), L * (bernstein n i.val t * |i.val / n - t|) := by
        refine (Finset.abs_sum_le_sum_abs _ _).trans (Finset.sum_le_sum fun i _ => ?_)
        rw [abs_mul, abs_of_nonneg (bernstein_nonneg h0 h1), mul_left_comm]
        refine mul_le_mul_of_nonneg_left (hf _ _ (by positivity) ?_ h0 h1) (bernstein_nonneg h0 h1)
        rw [div_le_one hn']
        exact_mod_cast Nat.lt_succ_iff.1 i.isLt
    _ ≤ L * (1 / (2 * √n)) := by
        rw [← Finset.mul_sum]
        exact mul_le_mul_of_nonneg_left (bernstein_deviation hn h0 h1) hL
    _ = L / (2 * √n) := by ring

/-- **C155**: if the derivative of `f` has the Lipschitz constant `M`, the curve is within `M / (4 n)` of `f`. -/
theorem C155_smooth {n : ℕ} (hn : n ≠ 0) {f : ℝ → ℝ} {c : ℕ} {f' : ℝ → ℝ} {M : ℝ}
    (hd : ∀ t, 0 ≤ t → t ≤ 1 → HasDerivAt f (f' t) t)
    (hf : ∀ s t, 0 ≤ s → s ≤ 1 → 0 ≤ t → t ≤ 1 → |f' s - f' t| ≤ M * |s - t|)
    {b : Bezier P (n + 1)} (hb : ∀ i, coord (b.control_points i) c = f (i.val / n))
    {t : ℝ} (h0 : 0 ≤ t) (h1 : t ≤ 1) :
    ∃ q, b.eval t = some q ∧ |coord q c - f t| ≤ M / (4 * n) := by
  have hn' : (0 : ℝ) < n := by positivity
  obtain ⟨q, hq, e⟩ := C30_eval b (by omega) t
  refine ⟨q, hq, ?_⟩
  have hM : 0 ≤ M := by
    have := (abs_nonneg _).trans (hf 1 0 (by norm_num) le_rfl le_rfl (by norm_num))
    simpa using this
  have mean : ∑ i : Fin (n + 1), bernstein n i.val t * ((i.val : ℝ) / n - t) = 0 := by
    have e2 := bernstein_linear n t
    rw [← Fin.sum_univ_eq_sum_range (fun k => bernstein n k t * (k : ℝ)) (n + 1)] at e2
    have : ∑ i : Fin (n + 1), bernstein n i.val t * ((i.val : ℝ) / n - t)
        = (∑ i : Fin (n + 1), bernstein n i.val t * (i.val : ℝ)) / n
          - (∑ i : Fin (n + 1), bernstein n i.val t) * t := by
      rw [Finset.sum_div, Finset.sum_mul, ← Finset.sum_sub_distrib]
      exact Finset.sum_congr rfl fun i _ => by ring
    rw [this, e2, bernstein_mass]
    field_simp
    ring
  have d : coord q c - f t = ∑ i : Fin (n + 1),
      bernstein n i.val t * (f (i.val / n) - f t - f' t * (i.val / n - t)) := by
    have : ∑ i : Fin (n + 1), bernstein n i.val t * (f' t * ((i.val : ℝ) / n - t)) = 0 := by
      rw [← mul_zero (f' t), ← mean, Finset.mul_sum]
      exact Finset.sum_congr rfl fun i _ => by ring
    simp only [mul_sub (bernstein n _ t), Finset.sum_sub_distrib, ← Finset.sum_mul, bernstein_mass, one_mul, e,
      bezierCoord, Bezier.controlPoints, hb, Nat.add_sub_cancel]
    rw [this, sub_zero]
  rw [d]
  calc |∑ i : Fin (n + 1), bernstein n i.val t * (f (i.val / n) - f t - f' t * (i.val / n - t))|
      ≤ ∑ i : Fin (n + 1), M * (bernstein n i.val t * (i.val / n - t) ^ 2) := by
        refine (Finset.abs_sum_le_sum_abs _ _).trans (Finset.sum_le_sum fun i _ => ?_)
        rw [abs_mul, abs_of_nonneg (bernstein_nonneg h0 h1), mul_left_comm]
        refine mul_le_mul_of_nonneg_left (taylor_remainder hd hf hM h0 h1 (by positivity) ?_) (bernstein_nonneg h0 h1)
        rw [div_le_one hn']
        exact_mod_cast Nat.lt_succ_iff.1 i.isLt
    _ = M * (t * (1 - t)) / n := by rw [← Finset.mul_sum, bernstein_variance hn h0 h1]; ring
    _ ≤ M / (4 * n) := by
        rw [div_le_div_iff₀ hn' (by positivity)]
        have : M * (t * (1 - t)) ≤ M * (1 / 4) :=
          mul_le_mul_of_nonneg_left (by nlinarith [sq_nonneg (2 * t - 1)]) hM
        nlinarith

end Curves

section Splines
variable {P : Type} [Point ℝ P] [LawfulPoint P] {K C D c k : ℕ} {t : ℝ}
variable {knots : Arr ℝ K} {ps : Arr P C} {b : BSpline ℝ P K C D}

theorem splineCoord_smooth_error (v : ValidSpline C D knots) (hD : 1 ≤ D) {f f' : ℝ → ℝ} {M : ℝ}
    (hp : ∀ i, coord (ps i) c = f (knotAverage D knots i.val)) (hDk : D ≤ k) (hkC : k < C)
    (k1 : knotAt knots k ≤ t) (k2 : t < knotAt knots (k + 1))
    (hd : ∀ y, knotAt knots (k - D + 1) ≤ y → y ≤ knotAt knots (k + D) → HasDerivAt f (f' y) y)
    (hf : ∀ x y, knotAt knots (k - D + 1) ≤ x → x ≤ knotAt knots (k + D) → knotAt knots (k - D + 1) ≤ y →
      y ≤ knotAt knots (k + D) → |f' x - f' y| ≤ M * |x - y|) :
    |splineCoord D knots ps t c - f t| ≤ M * (knotAt knots (k + D) - knotAt knots (k - D + 1)) ^ 2 := by
  obtain ⟨v1, v2, v3⟩ := id v
  have hm := fun i j (hij : i ≤ j) (hj : j < K) => mono_knotAt v3 hij hj
  have h1 : knotAt knots D ≤ t := (hm D k hDk (by omega)).trans k1
  have h2 : t < knotAt knots C := k2.trans_le (hm (k + 1) C hkC (by omega))
  have t1 : knotAt knots (k - D + 1) ≤ t := (hm _ k (by omega) (by omega)).trans k1
  have t2 : t ≤ knotAt knots (k + D) := k2.le.trans (hm _ _ (by omega) (by omega))
  have lt : knotAt knots (k - D + 1) < knotAt knots (k + D) :=
    (t1.trans_lt k2).trans_le (hm _ _ (by omega) (by omega))
  have hM : 0 ≤ M := by
    have := (abs_nonneg _).trans (hf _ _ lt.le le_rfl le_rfl lt.le)
    exact nonneg_of_mul_nonneg_left this (abs_pos.2 (sub_ne_zero.2 lt.ne'))
  have one := basis_sum_one hm v2 v1 h1 h2
  have lin := basis_greville hm v2 hD v1 h1 h2
  rw [Finset.sum_range] at one lin
  have lin' : ∑ i : Fin C, coxDeBoor (knotAt knots) D i.val t * knotAverage D knots i.val = t := lin
  have e' : splineCoord D knots ps t c - f t = ∑ i : Fin C, coxDeBoor (knotAt knots) D i.val t *
      (f (knotAverage D knots i.val) - f t - f' t * (knotAverage D knots i.val - t)) := by
    have z : ∑ i : Fin C, coxDeBoor (knotAt knots) D i.val t * (f' t * (knotAverage D knots i.val - t)) = 0 := by
      have : ∀ i : Fin C, coxDeBoor (knotAt knots) D i.val t * (f' t * (knotAverage D knots i.val - t))
          = f' t * (coxDeBoor (knotAt knots) D i.val t * knotAverage D knots i.val)
            - f' t * t * coxDeBoor (knotAt knots) D i.val t := fun i => by ring
      simp only [this, Finset.sum_sub_distrib, ← Finset.mul_sum]
      rw [lin', one]
      ring
    simp only [mul_sub (coxDeBoor _ _ _ _), Finset.sum_sub_distrib]
    rw [z, ← Finset.sum_mul, one, one_mul, sub_zero]
    unfold splineCoord
    simp only [hp]
  rw [e']
  calc |∑ i : Fin C, coxDeBoor (knotAt knots) D i.val t *
        (f (knotAverage D knots i.val) - f t - f' t * (knotAverage D knots i.val - t))|
      ≤ ∑ i : Fin C, coxDeBoor (knotAt knots) D i.val t
          * (M * (knotAt knots (k + D) - knotAt knots (k - D + 1)) ^ 2) := by
        refine (Finset.abs_sum_le_sum_abs _ _).trans (Finset.sum_le_sum fun i _ => ?_)
        have nn := coxDeBoor_nonneg (t := t) hm D i.val (by omega)
        rw [abs_mul, abs_of_nonneg nn]
        by_cases hi : k ≤ i.val + D ∧ i.val ≤ k
        · obtain ⟨a1, a2⟩ := knotAverage_mem v hD hDk hkC hi.1 hi.2
          refine mul_le_mul_of_nonneg_left ((taylor_remainder hd hf hM t1 t2 a1 a2).trans
            (mul_le_mul_of_nonneg_left (sq_le_sq' ?_ ?_) hM)) nn <;> linarith
        · rw [coxDeBoor_eq_zero hm (by omega) k1 k2 D i.val (by omega) (by omega)]
          simp
    _ = M * (knotAt knots (k + D) - knotAt knots (k - D + 1)) ^ 2 := by rw [← Finset.sum_mul, one, one_mul]

/-- **C155** for the repaired program: control points taken from the graph of a function whose derivative has the
Lipschitz constant `M` give a point whose distance from the graph is at most `M` times the square of the width of
the knots around `t`. -/
theorem C155_repaired_smooth (h : BSpline.new knots ps = .ok b) (hD : 1 ≤ D) {f f' : ℝ → ℝ} {M : ℝ}
    (hp : ∀ i, coord (ps i) c = f (knotAverage D knots i.val)) (hDk : D ≤ k) (hkC : k < C)
    (k1 : knotAt knots k ≤ t) (k2 : t < knotAt knots (k + 1))
    (hd : ∀ y, knotAt knots (k - D + 1) ≤ y → y ≤ knotAt knots (k + D) → HasDerivAt f (f' y) y)
    (hf : ∀ x y, knotAt knots (k - D + 1) ≤ x → x ≤ knotAt knots (k + D) → knotAt knots (k - D + 1) ≤ y →
      y ≤ knotAt knots (k + D) → |f' x - f' y| ≤ M * |x - y|) :
    ∃ q, b.evalFixed t = .ok q ∧
      |coord q c - f t| ≤ M * (knotAt knots (k + D) - knotAt knots (k - D + 1)) ^ 2 := by
  have v := ((new_ok_iff _ _ _).1 h).1
  obtain ⟨v1, v2, v3⟩ := id v
  obtain ⟨q, hq, e⟩ := C121_bspline h ((mono_knotAt v3 hDk (by omega)).trans k1)
    (k2.trans_le (mono_knotAt v3 (show k + 1 ≤ C by omega) (by omega)))
  exact ⟨q, hq, by rw [e]; exact splineCoord_smooth_error v hD hp hDk hkC k1 k2 hd hf⟩

/-- **C155** with the calls of this version: the same for the points of the detour of C136. -/
theorem C155_detour_smooth (v : ValidSpline C D knots) (hc : FrontClamped D knots ∨ BackClamped D knots)
    (ps : Arr P C) (hD : 1 ≤ D) {f f' : ℝ → ℝ} {M : ℝ}
    (hp : ∀ i, coord (ps i) c = f (knotAverage D knots i.val)) (hDk : D ≤ k) (hkC : k < C)
    (k1 : knotAt knots k ≤ t) (k2 : t < knotAt knots (k + 1))
    (heps : ∀ i : Fin K, knots i < t → eps ≤ t - knots i)
    (hd : ∀ y, knotAt knots (k - D + 1) ≤ y → y ≤ knotAt knots (k + D) → HasDerivAt f (f' y) y)
    (hf : ∀ x y, knotAt knots (k - D + 1) ≤ x → x ≤ knotAt knots (k + D) → knotAt knots (k - D + 1) ≤ y →
      y ≤ knotAt knots (k + D) → |f' x - f' y| ≤ M * |x - y|) :
    ∃ (b : BSpline ℝ P K C D) (q : P), BSpline.new knots (fun i => ps i - ps ⟨k, hkC⟩) = .ok b ∧
      b.eval t = .ok q ∧ |coord (q + ps ⟨k, hkC⟩) c - f t|
        ≤ M * (knotAt knots (k + D) - knotAt knots (k - D + 1)) ^ 2 := by
  obtain ⟨b, q, hb, hq, e⟩ := C136_bspline v hc ps hDk hkC k1 k2 heps
  exact ⟨b, q, hb, hq, by rw [e]; exact splineCoord_smooth_error v hD hp hDk hkC k1 k2 hd hf⟩

end Splines

/-! ### The hypotheses can be met -/

/-- Hypotheses of `C155_lipschitz` and `C155_smooth`, for every degree: the samples of `x ^ 2`. -/
example {n : ℕ} : let b : Bezier (PointN ℝ 1) (n + 1) := Bezier.new fun i => PointN.new fun _ => ((i.val : ℝ) / n) ^ 2
    (∀ i, coord (b.control_points i) 0 = (fun x : ℝ => x ^ 2) (i.val / n)) ∧
    (∀ s t : ℝ, 0 ≤ s → s ≤ 1 → 0 ≤ t → t ≤ 1 → |s ^ 2 - t ^ 2| ≤ 2 * |s - t|) ∧
    (∀ t : ℝ, 0 ≤ t → t ≤ 1 → HasDerivAt (fun x : ℝ => x ^ 2) (2 * t) t) ∧
    (∀ s t : ℝ, 0 ≤ s → s ≤ 1 → 0 ≤ t → t ≤ 1 → |2 * s - 2 * t| ≤ 2 * |s - t|) := by
  refine ⟨fun i => ?_, fun s t s0 s1 t0 t1 => ?_, fun t _ _ => ?_, fun s t _ _ _ _ => ?_⟩
  · simp [Bezier.new, coord, Point.axis, PointN.new, PointN.axis, Arr.get?]
  · rw [show s ^ 2 - t ^ 2 = (s + t) * (s - t) by ring, abs_mul, abs_of_nonneg (by linarith)]
    exact mul_le_mul_of_nonneg_right (by linarith) (abs_nonneg _)
  · simpa using hasDerivAt_pow 2 t
  · rw [← mul_sub, abs_mul, abs_of_nonneg (by norm_num : (0 : ℝ) ≤ 2)]

/-- Hypotheses of the theorems about splines, for every valid knot vector: control values from `x ^ 2`. -/
example {K C D : ℕ} {knots : Arr ℝ K} (v : ValidSpline C D knots) :
    ∃ (ps : Arr (PointN ℝ 1) C) (b : BSpline ℝ (PointN ℝ 1) K C D), BSpline.new knots ps = .ok b ∧
      (∀ i, coord (ps i) 0 = (fun x : ℝ => x ^ 2) (knotAverage D knots i.val)) ∧
      (∀ y, HasDerivAt (fun x : ℝ => x ^ 2) (2 * y) y) ∧ ∀ x y : ℝ, |2 * x - 2 * y| ≤ 2 * |x - y| := by
  obtain ⟨b, hb⟩ := (C43_accepts (D := D) knots
    (fun i => (PointN.new fun _ => knotAverage D knots i.val ^ 2 : PointN ℝ 1))).2 v
  refine ⟨_, b, hb, fun i => ?_, fun y => ?_, fun x y => ?_⟩
  · simp [coord, Point.axis, PointN.new, PointN.axis, Arr.get?]
  · simpa using hasDerivAt_pow 2 y
  · rw [← mul_sub, abs_mul, abs_of_nonneg (by norm_num : (0 : ℝ) ≤ 2)]

end Stroke
