import Verif.Props.FloatSplit
import Verif.Props.FloatPropagation
import Verif.Props.Distance
import Verif.Props.Lipschitz
import Verif.Lemmas.Concrete

/-!
# Rounding errors of `squared_length` and of the distances (C88)

`squared_length` in floating point, the distance of two points, and `distance_to_point` of the
three Bezier types compared with the exact curve.
-/

set_option linter.unusedSectionVars false

namespace Stroke

open Fl

variable {F : FloatFormat} {n : ℕ}

/-- The point with the same coordinates as real numbers. -/
noncomputable def PointN.real (p : PointN (Fl F) n) : PointN ℝ n :=
  ⟨fun i => (p.coords i).toReal⟩

/-! ### Sums of squares -/

/-- The exact sum of the squares of the coordinates with indices in `l`. -/
noncomputable def sqSum (p : PointN (Fl F) n) (l : List (Fin n)) : ℝ :=
  (l.map fun i => (p.coords i).toReal ^ 2).sum

theorem sqSum_nonneg (p : PointN (Fl F) n) (l : List (Fin n)) : 0 ≤ sqSum p l := by
  unfold sqSum
  apply List.sum_nonneg
  intro x hx
  obtain ⟨i, _, rfl⟩ := List.mem_map.1 hx
  exact sq_nonneg _

theorem sqSum_finRange (p : PointN (Fl F) n) :
    sqSum p (List.finRange n) = ∑ i, (p.coords i).toReal ^ 2 := by
  unfold sqSum
  rw [← List.ofFn_eq_map, List.sum_ofFn]

/-- One step of the loop. -/
theorem sq_step {s x S : ℝ} {j : ℕ} (hS : 0 ≤ S)
    (hs : |s - S| ≤ ((1 + F.u) ^ (j + 1) - 1) * S + 2 * j * (1 + F.u) ^ j * F.eta) :
    |F.rnd (s + F.rnd (x * x)) - (S + x ^ 2)|
      ≤ ((1 + F.u) ^ (j + 1 + 1) - 1) * (S + x ^ 2)
        + 2 * (j + 1 : ℕ) * (1 + F.u) ^ (j + 1) * F.eta := by
  have u0 := F.u_nonneg
  have e0 := F.eta_nonneg
  have g := one_le_g (F := F) j
  have h1 := F.rnd_err (x * x)
  have h2 := F.rnd_err (s + F.rnd (x * x))
  rw [abs_of_nonneg (mul_self_nonneg x)] at h1
  have h3 := abs_add_le (F.rnd (s + F.rnd (x * x)) - (s + F.rnd (x * x)))
    ((s - S) + (F.rnd (x * x) - x * x))
  have h4 := abs_add_le (s - S) (F.rnd (x * x) - x * x)
  have h5 := abs_add_le (S + x * x) ((s - S) + (F.rnd (x * x) - x * x))
  rw [show S + x * x + ((s - S) + (F.rnd (x * x) - x * x)) = s + F.rnd (x * x) by ring,
    abs_of_nonneg (show 0 ≤ S + x * x by nlinarith [mul_self_nonneg x])] at h5
  rw [show F.rnd (s + F.rnd (x * x)) - (s + F.rnd (x * x)) + ((s - S) + (F.rnd (x * x) - x * x))
    = F.rnd (s + F.rnd (x * x)) - (S + x ^ 2) by ring] at h3
  have h6 : F.u * |s + F.rnd (x * x)| ≤ F.u * (S + x * x + (|s - S| + |F.rnd (x * x) - x * x|)) :=
    mul_le_mul_of_nonneg_left (h5.trans (by linarith)) u0
  have h7 : (1 + F.u) * (|s - S| + |F.rnd (x * x) - x * x|) ≤ (1 + F.u)
      * (((1 + F.u) ^ (j + 1) - 1) * S + 2 * j * (1 + F.u) ^ j * F.eta + (F.u * (x * x) + F.eta)) :=
    mul_le_mul_of_nonneg_left (by linarith) (by linarith)
  set G := (1 + F.u) ^ j with hG
  have e1 : (1 + F.u) ^ (j + 1) = G * (1 + F.u) := pow_succ _ _
  have e2 : (1 + F.u) ^ (j + 1 + 1) = G * (1 + F.u) * (1 + F.u) := by rw [pow_succ, e1]
  rw [e1] at h7
  rw [e1, e2]
  push_cast
  have q1 : 0 ≤ (G - 1) * (1 + F.u) ^ 2 * (x * x) :=
    mul_nonneg (mul_nonneg (by linarith) (by positivity)) (mul_self_nonneg x)
  have q2 : 0 ≤ (G - 1) * (1 + F.u) * F.eta :=
    mul_nonneg (mul_nonneg (by linarith) (by linarith)) e0
  have q3 : 0 ≤ F.u * F.eta := mul_nonneg u0 e0
  nlinarith

theorem fold_finite (p : PointN (Fl F) n) : ∀ (l : List (Fin n)) (d : Fl F),
    (l.foldl (fun d i => d + p.coords i * p.coords i) d : Fl F).IsFinite → d.IsFinite := by
  intro l
  induction l with
  | nil => exact fun d h => h
  | cons k l ih => exact fun d h => (Reflects.finite.add _ _ (ih _ h)).1

/-- If the loop ends with a finite value, the error is bounded. -/
theorem sq_loop (p : PointN (Fl F) n) : ∀ (l : List (Fin n)) (s S : ℝ) (j : ℕ)
    (hs : s ∈ F.grid ∧ |s| ≤ F.max), 0 ≤ S → 0 ≤ s →
    |s - S| ≤ ((1 + F.u) ^ (j + 1) - 1) * S + 2 * j * (1 + F.u) ^ j * F.eta →
    ((l.foldl (fun d i => d + p.coords i * p.coords i) (fin s hs) : Fl F).IsFinite ∨
      ((∀ i ∈ l, (p.coords i).IsFinite) ∧ (1 + F.u) ^ (j + 1 + l.length) * (S + sqSum p l)
        + 2 * (j + l.length : ℕ) * (1 + F.u) ^ (j + l.length) * F.eta ≤ F.max)) →
    ∃ r h, (l.foldl (fun d i => d + p.coords i * p.coords i) (fin s hs) : Fl F) = fin r h ∧ 0 ≤ r ∧
      |r - (S + sqSum p l)| ≤ ((1 + F.u) ^ (j + 1 + l.length) - 1) * (S + sqSum p l)
        + 2 * (j + l.length : ℕ) * (1 + F.u) ^ (j + l.length) * F.eta := by
  intro l
  induction l with
  | nil =>
    intro s S j hs hS s0 herr _
    refine ⟨s, hs, rfl, s0, ?_⟩
    simpa [sqSum] using herr
  | cons i l ih =>
    intro s S j hs hS s0 herr hfin
    have u0 := F.u_nonneg
    have e0 := F.eta_nonneg
    simp only [List.foldl_cons] at hfin ⊢
    have hx : (p.coords i).IsFinite := by
      rcases hfin with hfin | hfin
      · exact (Reflects.finite.mul _ _ (Reflects.finite.add _ _ (fold_finite p _ _ hfin)).2).1
      · exact hfin.1 i (by simp)
    obtain ⟨x, hx', ex⟩ := isFinite_iff.1 hx
    have hstep := sq_step (x := x) hS herr
    have hsum : S + sqSum p (i :: l) = S + x ^ 2 + sqSum p l := by
      simp only [sqSum, List.map_cons, List.sum_cons, ex, toReal_fin]; ring
    have hlen : j + (i :: l).length = j + 1 + l.length := by simp only [List.length_cons]; omega
    have hlen' : j + 1 + (i :: l).length = j + 1 + 1 + l.length := by
      simp only [List.length_cons]; omega
    have hn := sqSum_nonneg p l
    have hx2 := sq_nonneg x
    rw [hsum, hlen, hlen'] at hfin ⊢
    rw [ex] at hfin ⊢
    rw [fin_mul] at hfin ⊢
    have h1 : |F.rnd (x * x)| ≤ F.max := by
      rcases hfin with hfin | hfin
      · by_contra hc
        have : F.round (x * x) = inf (decide (x * x < 0)) := by
          unfold FloatFormat.round; rw [dif_neg hc]
        rw [this] at hfin
        exact (Reflects.finite.add _ _ (fold_finite p _ _ hfin)).2
      · refine le_trans ?_ hfin.2
        have a1 := F.rnd_err (x * x)
        have a2 := abs_add_le (x * x) (F.rnd (x * x) - x * x)
        rw [add_sub_cancel, abs_of_nonneg (mul_self_nonneg x)] at a2
        rw [abs_of_nonneg (mul_self_nonneg x)] at a1
        have a3 : (1 + F.u) * (x * x) ≤ (1 + F.u) ^ (j + 1 + 1 + l.length)
            * (S + x ^ 2 + sqSum p l) := by
          have b1 : (1 + F.u) ^ 1 ≤ (1 + F.u) ^ (j + 1 + 1 + l.length) :=
            pow_le_pow_right₀ (by linarith) (by omega)
          rw [pow_one] at b1
          exact mul_le_mul b1 (by nlinarith) (mul_self_nonneg x) (by positivity)
        have a4 : F.eta ≤ 2 * (j + 1 + l.length : ℕ) * (1 + F.u) ^ (j + 1 + l.length) * F.eta := by
          have b1 : (1 : ℝ) ≤ (j + 1 + l.length : ℕ) := by exact_mod_cast (by omega)
          have b2 := one_le_g (F := F) (j + 1 + l.length)
          have b3 : 1 ≤ 2 * (j + 1 + l.length : ℕ) * (1 + F.u) ^ (j + 1 + l.length) := by nlinarith
          nlinarith
        linarith
    rw [F.round_of_rnd_le h1, fin_add] at hfin ⊢
    have h2 : |F.rnd (s + F.rnd (x * x))| ≤ F.max := by
      rcases hfin with hfin | hfin
      · by_contra hc
        have : F.round (s + F.rnd (x * x)) = inf (decide (s + F.rnd (x * x) < 0)) := by
          unfold FloatFormat.round; rw [dif_neg hc]
        rw [this] at hfin
        exact fold_finite p _ _ hfin
      · refine le_trans ?_ hfin.2
        have a2 := abs_add_le (S + x ^ 2) (F.rnd (s + F.rnd (x * x)) - (S + x ^ 2))
        rw [add_sub_cancel, abs_of_nonneg (show 0 ≤ S + x ^ 2 by positivity)] at a2
        have a3 : (1 + F.u) ^ (j + 1 + 1) * (S + x ^ 2) ≤ (1 + F.u) ^ (j + 1 + 1 + l.length)
            * (S + x ^ 2 + sqSum p l) :=
          mul_le_mul (pow_le_pow_right₀ (by linarith) (by omega)) (by linarith) (by positivity)
            (by positivity)
        have a4 : 2 * (j + 1 : ℕ) * (1 + F.u) ^ (j + 1) * F.eta
            ≤ 2 * (j + 1 + l.length : ℕ) * (1 + F.u) ^ (j + 1 + l.length) * F.eta := by
          apply mul_le_mul_of_nonneg_right _ e0
          apply mul_le_mul _ (pow_le_pow_right₀ (by linarith) (by omega)) (by positivity)
            (by positivity)
          apply mul_le_mul_of_nonneg_left _ (by norm_num)
          exact_mod_cast (by omega)
        linarith
    rw [F.round_of_rnd_le h2] at hfin ⊢
    refine ih _ (S + x ^ 2) (j + 1) _ (by positivity)
      (F.rnd_nonneg (add_nonneg s0 (F.rnd_nonneg (mul_self_nonneg x)))) hstep ?_
    rcases hfin with hfin | hfin
    · exact Or.inl hfin
    · exact Or.inr ⟨fun k hk => hfin.1 k (by simp [hk]), hfin.2⟩

/-- **C88**, `Point::squared_length`: if the result is finite — and it is finite unless the
rounded sum exceeds the largest float — it is non-negative and differs from the exact sum of
squares by the relative error `(1+u)^(n+1) - 1`, plus underflow. -/
theorem C88_squared_length (p : PointN (Fl F) n)
    (h : (Point.squaredLength p : Fl F).IsFinite ∨
      ((∀ i, (p.coords i).IsFinite) ∧ (1 + F.u) ^ (n + 1) * ∑ i, (p.coords i).toReal ^ 2
        + 2 * n * (1 + F.u) ^ n * F.eta ≤ F.max)) :
    (Point.squaredLength p : Fl F).IsFinite ∧ 0 ≤ (Point.squaredLength p : Fl F).toReal ∧
    |(Point.squaredLength p : Fl F).toReal - ∑ i, (p.coords i).toReal ^ 2|
      ≤ ((1 + F.u) ^ (n + 1) - 1) * ∑ i, (p.coords i).toReal ^ 2
        + 2 * n * (1 + F.u) ^ n * F.eta := by
  have e : (Point.squaredLength p : Fl F) = (List.finRange n).foldl
      (fun d i => d + p.coords i * p.coords i) (fin 0 F.zero_ok) := by
    rw [← lit_zero]; rfl
  have len : (List.finRange n).length = n := List.length_finRange
  rw [e] at h ⊢
  obtain ⟨r, hr, er, r0, dr⟩ := sq_loop p (List.finRange n) 0 0 0 F.zero_ok le_rfl le_rfl (by simp)
    (by
      rcases h with h | h
      · exact Or.inl h
      · refine Or.inr ⟨fun i _ => h.1 i, ?_⟩
        rw [len, zero_add, sqSum_finRange, zero_add, zero_add, add_comm 1 n]
        exact h.2)
  rw [er]
  refine ⟨trivial, r0, ?_⟩
  rw [len, zero_add, sqSum_finRange, zero_add, zero_add, add_comm 1 n] at dr
  exact dr

/-! ### Distances of points -/

/-- Vectors with coordinates `x`. -/
noncomputable def vec (x : Fin n → ℝ) : EuclideanSpace ℝ (Fin n) := WithLp.toLp 2 x

theorem norm_vec (x : Fin n → ℝ) : ‖vec x‖ = Real.sqrt (∑ i, x i ^ 2) := by
  rw [EuclideanSpace.norm_eq]
  simp [vec]

theorem norm_vec_mono {x y : Fin n → ℝ} (h : ∀ i, |x i| ≤ y i) : ‖vec x‖ ≤ ‖vec y‖ := by
  rw [norm_vec, norm_vec]
  apply Real.sqrt_le_sqrt
  apply Finset.sum_le_sum
  intro i _
  rw [← sq_abs (x i)]
  exact pow_le_pow_left₀ (abs_nonneg _) (h i) 2

theorem norm_vec_add (x y : Fin n → ℝ) : ‖vec fun i => x i + y i‖ ≤ ‖vec x‖ + ‖vec y‖ :=
  norm_add_le (vec x) (vec y)

theorem norm_vec_const (e : ℝ) (he : 0 ≤ e) : ‖vec fun _ : Fin n => e‖ = Real.sqrt n * e := by
  rw [norm_vec]
  simp only [Finset.sum_const, Finset.card_univ, Fintype.card_fin, nsmul_eq_mul]
  rw [Real.sqrt_mul (by positivity), Real.sqrt_sq he]

theorem norm_vec_abs_smul (c : ℝ) (hc : 0 ≤ c) (x : Fin n → ℝ) :
    ‖vec fun i => c * |x i|‖ = c * ‖vec x‖ := by
  rw [norm_vec, norm_vec, ← Real.sqrt_sq hc, ← Real.sqrt_mul (by positivity), Real.sqrt_sq hc,
    Finset.mul_sum]
  congr 1
  apply Finset.sum_congr rfl
  intro i _
  rw [mul_pow, sq_abs]

/-- The distance of two points with real coordinates. -/
theorem pdist_vec (p q : PointN ℝ n) : pdist p q = ‖vec fun i => p.coords i - q.coords i‖ := by
  rw [norm_vec]
  unfold pdist
  congr 1
  rw [show Point.dim (PointN ℝ n) = n from rfl,
    ← Fin.sum_univ_eq_sum_range (fun i => (coord p i - coord q i) ^ 2)]
  apply Finset.sum_congr rfl
  intro i _
  rw [show coord p i = p.coords i from coord_pn n p.coords i,
    show coord q i = q.coords i from coord_pn n q.coords i]

/-- The part of the error of a computed distance that is due to underflow. -/
noncomputable def distTiny (F : FloatFormat) (n : ℕ) : ℝ :=
  (1 + F.u) ^ (n + 2) * (Real.sqrt n * F.eta)
    + (1 + F.u) * Real.sqrt (2 * n * (1 + F.u) ^ n * F.eta) + F.eta

/-- Square roots of perturbed squares. -/
theorem sqrt_perturb {s D g c : ℝ} (hs : 0 ≤ s) (hD : 0 ≤ D) (hg : 1 ≤ g) (hc : 0 ≤ c)
    (h : |s - D ^ 2| ≤ (g - 1) * D ^ 2 + c) :
    |Real.sqrt s - D| ≤ (g - 1) * D + Real.sqrt c := by
  rw [abs_le] at h
  have h0 := Real.sqrt_nonneg c
  have hc2 := Real.sq_sqrt hc
  rw [abs_le]
  constructor
  · by_cases hlt : D - ((g - 1) * D + Real.sqrt c) ≤ 0
    · have := Real.sqrt_nonneg s
      linarith
    · have : D - ((g - 1) * D + Real.sqrt c) ≤ Real.sqrt s := by
        apply Real.le_sqrt_of_sq_le
        push Not at hlt
        have hg2 : 0 ≤ 2 - g := by
          by_contra hneg
          push Not at hneg
          nlinarith
        have k1 : D - ((g - 1) * D + Real.sqrt c) = (2 - g) * D - Real.sqrt c := by ring
        rw [k1] at hlt ⊢
        have k2 : ((2 - g) * D - Real.sqrt c) ^ 2 ≤ ((2 - g) * D) ^ 2 - Real.sqrt c ^ 2 := by
          nlinarith
        have k3 : ((2 - g) * D) ^ 2 ≤ (2 - g) * D ^ 2 := by
          have : (2 - g) * (2 - g) ≤ (2 - g) * 1 := mul_le_mul_of_nonneg_left (by linarith) hg2
          nlinarith [sq_nonneg D]
        linarith
      linarith
  · have : Real.sqrt s ≤ g * D + Real.sqrt c := by
      apply Real.sqrt_le_iff.2
      refine ⟨by positivity, ?_⟩
      have k1 : g * D ^ 2 ≤ (g * D) ^ 2 := by
        have : g * 1 ≤ g * g := mul_le_mul_of_nonneg_left hg (by linarith)
        nlinarith [sq_nonneg D]
      have k2 : 0 ≤ g * D * Real.sqrt c := by positivity
      nlinarith
    linarith

/-- **C88**, distance of two points, computed as `sqrt` of the `squared_length` of the difference
as in `arclen` and `distance_to_point`: if the squared length is finite, so are both points and
the result, and it differs from the Euclidean distance by the relative error `(1+u)^(n+3) - 1`,
plus underflow. -/
theorem C88_point_distance (p q : PointN (Fl F) n)
    (h : (Point.squaredLength (p - q) : Fl F).IsFinite) :
    (∀ i, (p.coords i).IsFinite ∧ (q.coords i).IsFinite) ∧
    (Scalar.sqrt (Point.squaredLength (p - q) : Fl F)).IsFinite ∧
    0 ≤ (Scalar.sqrt (Point.squaredLength (p - q) : Fl F)).toReal ∧
    |(Scalar.sqrt (Point.squaredLength (p - q) : Fl F)).toReal - pdist p.real q.real|
      ≤ ((1 + F.u) ^ (n + 3) - 1) * pdist p.real q.real + distTiny F n := by
  have u0 := F.u_nonneg
  have e0 := F.eta_nonneg
  obtain ⟨_, s0, hs⟩ := C88_squared_length (p - q) (Or.inl h)
  have hd := (C74_squared_length (p - q)).1 h
  have hpq : ∀ i, (p.coords i).IsFinite ∧ (q.coords i).IsFinite := fun i =>
    Reflects.finite.sub _ _ (hd i)
  obtain ⟨s, hs', es⟩ := isFinite_iff.1 h
  rw [es, toReal_fin] at hs s0
  rw [es]
  have hsmax : |Real.sqrt s| ≤ F.max := by
    rw [abs_of_nonneg (Real.sqrt_nonneg s)]
    have h1 : s ≤ F.max := (le_abs_self s).trans hs'.2
    have h2 := F.max_ge
    apply Real.sqrt_le_iff.2
    exact ⟨by linarith, by nlinarith⟩
  have er : (Scalar.sqrt (fin s hs' : Fl F))
      = fin (F.rnd (Real.sqrt s)) ⟨F.rnd_mem _, F.abs_rnd_le F.max_mem hsmax⟩ := by
    show (if s < 0 then nan else F.round (Real.sqrt s)) = _
    rw [if_neg (not_lt.2 s0), F.round_of_le hsmax]
  rw [er]
  refine ⟨hpq, trivial, F.rnd_nonneg (Real.sqrt_nonneg s), ?_⟩
  rw [toReal_fin]
  -- the exact and the computed difference
  set d : Fin n → ℝ := fun i => (p.coords i).toReal - (q.coords i).toReal with hddef
  set dh : Fin n → ℝ := fun i => ((p - q).coords i).toReal with hdh
  have hpd : pdist p.real q.real = ‖vec d‖ := pdist_vec _ _
  rw [hpd]
  have hdiff : ∀ i, |dh i - d i| ≤ F.u * |d i| + F.eta := by
    intro i
    obtain ⟨a, ha, ea⟩ := isFinite_iff.1 (hpq i).1
    obtain ⟨b, hb, eb⟩ := isFinite_iff.1 (hpq i).2
    have hfin := hd i
    rw [coords_sub, ea, eb, fin_sub] at hfin
    have hr : |F.rnd (a - b)| ≤ F.max := by
      by_contra hc
      have : F.round (a - b) = inf (decide (a - b < 0)) := by
        unfold FloatFormat.round; rw [dif_neg hc]
      rw [this] at hfin
      exact hfin
    simp only [hdh, hddef]
    rw [coords_sub, ea, eb, fin_sub, F.round_of_rnd_le hr]
    exact F.rnd_err (a - b)
  have hn : ‖vec dh - vec d‖ ≤ F.u * ‖vec d‖ + Real.sqrt n * F.eta := by
    have h1 : ‖vec dh - vec d‖ ≤ ‖vec fun i => F.u * |d i| + F.eta‖ :=
      norm_vec_mono (x := fun i => dh i - d i) hdiff
    have h2 := norm_vec_add (fun i => F.u * |d i|) (fun _ : Fin n => F.eta)
    rw [norm_vec_abs_smul _ u0, norm_vec_const _ e0] at h2
    exact h1.trans h2
  have hDh : Real.sqrt (∑ i, dh i ^ 2) = ‖vec dh‖ := (norm_vec dh).symm
  have hDh2 : ∑ i, dh i ^ 2 = ‖vec dh‖ ^ 2 := by
    rw [← hDh, Real.sq_sqrt (Finset.sum_nonneg fun i _ => sq_nonneg _)]
  rw [hDh2] at hs
  have g1 := one_le_g (F := F) (n + 1)
  have hq := sqrt_perturb s0 (norm_nonneg _) g1 (by positivity) hs
  have hr := F.rnd_err (Real.sqrt s)
  rw [abs_of_nonneg (Real.sqrt_nonneg s)] at hr
  -- combine
  set D := ‖vec d‖
  set Dh := ‖vec dh‖
  have D0 : 0 ≤ D := norm_nonneg _
  have hD : |Dh - D| ≤ F.u * D + Real.sqrt n * F.eta := (abs_norm_sub_norm_le _ _).trans hn
  set R := Real.sqrt s
  set c := Real.sqrt (2 * n * (1 + F.u) ^ n * F.eta) with hcdef
  set z := Real.sqrt n * F.eta
  have c0 : 0 ≤ c := Real.sqrt_nonneg _
  have eg : (1 + F.u) ^ (n + 3) = (1 + F.u) ^ (n + 1) * (1 + F.u) * (1 + F.u) := by ring
  have eg2 : (1 + F.u) ^ (n + 2) = (1 + F.u) ^ (n + 1) * (1 + F.u) := by ring
  unfold distTiny
  rw [eg, eg2]
  set g := (1 + F.u) ^ (n + 1)
  have t1 := abs_add_le (F.rnd R - R) (R - Dh)
  have t2 := abs_add_le (F.rnd R - R + (R - Dh)) (Dh - D)
  rw [show F.rnd R - R + (R - Dh) + (Dh - D) = F.rnd R - D by ring] at t2
  have b1 : Dh ≤ (1 + F.u) * D + z := by linarith [le_abs_self (Dh - D)]
  have b2 : R ≤ g * Dh + c := by linarith [le_abs_self (R - Dh)]
  have b3 : F.u * R ≤ F.u * (g * Dh + c) := mul_le_mul_of_nonneg_left b2 u0
  have b4 : (g - 1 + F.u * g) * Dh ≤ (g - 1 + F.u * g) * ((1 + F.u) * D + z) :=
    mul_le_mul_of_nonneg_left b1 (by nlinarith)
  linarith

/-! ### The search of `distance_to_point` -/

theorem round_val {x y : ℝ} (h : x = y) (hy : y ∈ F.grid ∧ |y| ≤ F.max) :
    F.round x = fin y hy := by
  rw [h, F.round_of_mem hy]

/-- The multiples of `1/4096` in [-1, 1] and the number 4096 are values of the format (true of
binary32 and binary64). -/
structure HasSamples (F : FloatFormat) : Prop where
  sample : ∀ k : ℤ, |k| ≤ 4096 → (k : ℝ) / 4096 ∈ F.grid
  steps : (4096 : ℝ) ∈ F.grid
  max : (4096 : ℝ) ≤ F.max

theorem HasSamples.ok (hF : HasSamples F) (k : ℤ) (hk : |k| ≤ 4096) :
    (k : ℝ) / 4096 ∈ F.grid ∧ |(k : ℝ) / 4096| ≤ F.max := by
  refine ⟨hF.sample k hk, ?_⟩
  have h1 : |(k : ℝ)| ≤ 4096 := by exact_mod_cast hk
  have h2 := F.max_ge
  rw [abs_div, abs_of_pos (show (0 : ℝ) < 4096 by norm_num), div_le_iff₀ (by norm_num)]
  nlinarith

/-- A squared length is NaN, `+∞` or a non-negative number. -/
theorem squaredLength_cases (p : PointN (Fl F) n) :
    (Point.squaredLength p : Fl F) = nan ∨ (Point.squaredLength p : Fl F) = inf false ∨
    (Point.squaredLength p : Fl F).IsFinite := by
  have round_cases : ∀ x : ℝ, 0 ≤ x → F.round x = inf false ∨ ∃ r h, 0 ≤ r ∧ F.round x = fin r h := by
    intro x hx
    unfold FloatFormat.round
    split_ifs with h
    · exact Or.inr ⟨_, ⟨F.rnd_mem x, h⟩, F.rnd_nonneg hx, rfl⟩
    · left; rw [decide_eq_false (not_lt.2 hx)]
  have sq : ∀ x : Fl F, x * x = nan ∨ x * x = inf false ∨ ∃ r h, 0 ≤ r ∧ x * x = fin r h := by
    intro x
    cases x with
    | nan => exact Or.inl rfl
    | inf s => right; left; show inf (s != s) = _; simp
    | fin r h => right; exact round_cases _ (mul_self_nonneg r)
  have key : ∀ (l : List (Fin n)) (d : Fl F),
      (d = nan ∨ d = inf false ∨ ∃ r h, 0 ≤ r ∧ d = fin r h) →
      let e := (l.foldl (fun d i => d + p.coords i * p.coords i) d : Fl F)
      e = nan ∨ e = inf false ∨ ∃ r h, 0 ≤ r ∧ e = fin r h := by
    intro l
    induction l with
    | nil => exact fun d h => h
    | cons i l ih =>
      intro d hd
      apply ih
      beta_reduce
      rcases hd with rfl | rfl | ⟨r, h, r0, rfl⟩
      · exact Or.inl rfl
      · rcases sq (p.coords i) with e | e | ⟨y, hy, y0, e⟩ <;> rw [e]
        · exact Or.inl rfl
        · right; left; show (if false = false then inf false else nan) = _; simp
        · exact Or.inr (Or.inl rfl)
      · rcases sq (p.coords i) with e | e | ⟨y, hy, y0, e⟩ <;> rw [e]
        · exact Or.inl rfl
        · exact Or.inr (Or.inl rfl)
        · right; rw [fin_add]; exact round_cases _ (add_nonneg r0 y0)
  have := key (List.finRange n) (lit 0) (Or.inr (Or.inr ⟨0, F.zero_ok, le_rfl, lit_zero⟩))
  rcases this with h | h | ⟨r, h, _, e⟩
  · exact Or.inl h
  · exact Or.inr (Or.inl h)
  · right; right
    show ((List.finRange n).foldl _ (lit 0) : Fl F).IsFinite
    rw [e]; trivial

/-- A squared length below a finite value is finite. -/
theorem squaredLength_lt_finite {p : PointN (Fl F) n} {x : Fl F} (hx : x.IsFinite)
    (h : Scalar.lt (Point.squaredLength p : Fl F) x = true) :
    (Point.squaredLength p : Fl F).IsFinite := by
  rcases squaredLength_cases p with e | e | e
  · rw [e] at h; exact absurd h (by simp)
  · obtain ⟨r, hr, rfl⟩ := isFinite_iff.1 hx
    rw [e] at h
    have : decide ((⊤ : EReal) < (r : EReal)) = true := h
    simp at this
  · exact e

/-- The state of the two passes: the best squared distance so far is the one computed for the
first control point or for a sample. -/
def Sampled (f : Fl F → PointN (Fl F) n) (first p : PointN (Fl F) n) (s : Fl F) : Prop :=
  s.IsFinite ∧ (s = Point.squaredLength (p - first) ∨
    ∃ k : ℤ, -1953 ≤ k ∧ k ≤ 4032 ∧ s = Point.squaredLength (f (F.round ((k : ℝ) / 4096)) - p))

theorem coarse_float (hF : HasSamples F) (f : Fl F → PointN (Fl F) n) (first p : PointN (Fl F) n)
    (h0 : (Point.squaredLength (p - first) : Fl F).IsFinite) :
    ∃ s, coarsePass (fun t => some (f t)) p (lit (1 / 2), Point.squaredLength (p - first)) = some s ∧
      (∀ i : ℕ, i < 64 →
        (Point.squaredLength (f (F.round ((i : ℝ) / 64)) - p) : Fl F).IsFinite →
        s.2.toReal ≤ (Point.squaredLength (f (F.round ((i : ℝ) / 64)) - p) : Fl F).toReal) ∧
      Sampled f first p s.2 ∧ ∃ k : ℤ, 0 ≤ k ∧ k ≤ 4032 ∧ s.1 = F.round ((k : ℝ) / 4096) := by
  unfold coarsePass
  have et : ∀ i : ℕ, i < 64 → (Scalar.ofUsize i * lit 1 / Scalar.ofUsize nstepsDistance : Fl F)
      = F.round ((i : ℝ) / 64) := by
    intro i hi
    have hi' := F.int_ok i (by rw [Nat.abs_cast]; exact_mod_cast (by omega))
    have h64 := F.int_ok 64 (by norm_num)
    have e1 : (Scalar.ofUsize i : Fl F) = fin ((i : ℤ) : ℝ) hi' := by
      show F.round ((i : ℕ) : ℝ) = _
      exact round_val (by push_cast; rfl) _
    have e2 : (Scalar.ofUsize nstepsDistance : Fl F) = fin ((64 : ℤ) : ℝ) h64 := by
      show F.round ((64 : ℕ) : ℝ) = _
      exact round_val (by push_cast; rfl) _
    rw [e1, e2, mul_litOne (show (fin _ hi' : Fl F).IsFinite from trivial), fin_div (by norm_num)]
    push_cast; rfl
  obtain ⟨s, hs, h⟩ := forRange_inv (m := Option) (lo := 0) (hi := nstepsDistance)
    (s := ((lit (1 / 2) : Fl F), Point.squaredLength (p - first)))
    (body := fun i s => do
      let t := Scalar.ofUsize i * lit 1 / Scalar.ofUsize nstepsDistance
      let candidate ← some (f t)
      if Scalar.lt (Point.squaredLength (candidate - p)) s.2 then
        pure (t, Point.squaredLength (candidate - p))
      else pure s)
    (fun j s => (∀ i : ℕ, i < j →
        (Point.squaredLength (f (F.round ((i : ℝ) / 64)) - p) : Fl F).IsFinite →
        s.2.toReal ≤ (Point.squaredLength (f (F.round ((i : ℝ) / 64)) - p) : Fl F).toReal) ∧
      Sampled f first p s.2 ∧ ∃ k : ℤ, 0 ≤ k ∧ k ≤ 4032 ∧ s.1 = F.round ((k : ℝ) / 4096))
    (Nat.zero_le _)
    ⟨by omega, ⟨h0, Or.inl rfl⟩, 2048, by norm_num, by norm_num, by
      show F.round _ = _; congr 1; push_cast; norm_num⟩
    (by
      intro i s _ hi ⟨h1, h2, h3⟩
      have hi' : i < 64 := hi
      simp only [Option.bind_eq_bind, Option.bind_some, et i hi']
      split_ifs with hlt
      · have hfin := squaredLength_lt_finite h2.1 hlt
        refine ⟨_, rfl, fun j hj hjf => ?_, ⟨hfin, Or.inr ⟨64 * i, by omega, by omega, ?_⟩⟩,
          64 * i, by omega, by omega, ?_⟩
        · rcases Nat.lt_succ_iff_lt_or_eq.1 hj with hj | rfl
          · refine le_trans ?_ (h1 j hj hjf)
            obtain ⟨a, ha, ea⟩ := isFinite_iff.1 hfin
            obtain ⟨b, hb, eb⟩ := isFinite_iff.1 h2.1
            rw [ea, eb] at hlt
            simp only [ea, eb, toReal_fin]
            exact (lt_fin.1 hlt).le
          · exact le_rfl
        · rw [show ((64 * i : ℤ) : ℝ) / 4096 = (i : ℝ) / 64 by push_cast; ring]
        · show F.round _ = _
          congr 1; push_cast; ring
      · refine ⟨_, rfl, fun j hj hjf => ?_, h2, h3⟩
        rcases Nat.lt_succ_iff_lt_or_eq.1 hj with hj | rfl
        · exact h1 j hj hjf
        · obtain ⟨a, ha, ea⟩ := isFinite_iff.1 hjf
          obtain ⟨b, hb, eb⟩ := isFinite_iff.1 h2.1
          rw [ea, eb] at hlt
          simp only [ea, eb, toReal_fin]
          exact not_lt.1 fun hc => hlt (lt_fin.2 hc))
  exact ⟨s, hs, h⟩

theorem fine_float (hF : HasSamples F) (f : Fl F → PointN (Fl F) n) (first p : PointN (Fl F) n)
    (s0 : Fl F × Fl F) (h0 : Sampled f first p s0.2)
    (h1 : ∃ k : ℤ, 0 ≤ k ∧ k ≤ 4032 ∧ s0.1 = F.round ((k : ℝ) / 4096)) :
    ∃ s, finePass (fun t => some (f t)) p s0 = some s ∧ s.2.toReal ≤ s0.2.toReal ∧
      Sampled f first p s.2 := by
  unfold finePass
  have et : ∀ (i : ℕ) (hi : i < 64),
      (Scalar.ofUsize i * lit 1 / Scalar.ofUsize (nstepsDistance * nstepsDistance) : Fl F)
      = fin (((i : ℤ) : ℝ) / 4096) (hF.ok i (by rw [abs_le]; constructor <;> omega)) := by
    intro i hi
    have hi' := F.int_ok i (by rw [Nat.abs_cast]; exact_mod_cast (by omega))
    have h64 : (4096 : ℝ) ∈ F.grid ∧ |(4096 : ℝ)| ≤ F.max :=
      ⟨hF.steps, by rw [abs_of_pos (by norm_num)]; exact hF.max⟩
    have e1 : (Scalar.ofUsize i : Fl F) = fin ((i : ℤ) : ℝ) hi' := by
      show F.round ((i : ℕ) : ℝ) = _
      exact round_val (by push_cast; rfl) _
    have e2 : (Scalar.ofUsize (nstepsDistance * nstepsDistance) : Fl F) = fin 4096 h64 := by
      show F.round ((64 * 64 : ℕ) : ℝ) = _
      exact round_val (by norm_num) _
    rw [e1, e2, mul_litOne (show (fin _ hi' : Fl F).IsFinite from trivial), fin_div (by norm_num)]
    exact round_val rfl _
  have e32 : (Scalar.ofUsize nstepsDistance / lit 2 : Fl F) = fin ((32 : ℤ) : ℝ)
      (F.int_ok 32 (by norm_num)) := by
    have e2 : (Scalar.ofUsize nstepsDistance : Fl F) = fin ((64 : ℤ) : ℝ)
        (F.int_ok 64 (by norm_num)) := by
      show F.round ((64 : ℕ) : ℝ) = _
      exact round_val (by push_cast; rfl) _
    have e3 : (lit 2 : Fl F) = fin ((2 : ℤ) : ℝ) (F.int_ok 2 (by norm_num)) := by
      show F.round _ = _
      exact round_val (by push_cast; rfl) _
    rw [e2, e3, fin_div (by norm_num)]
    exact round_val (by norm_num) _
  have ep : ∀ (i : ℕ) (k : ℤ), i < 64 → 0 ≤ k → k ≤ 4032 → ∀ x : Fl F,
      x = F.round ((k : ℝ) / 4096) →
      x + Scalar.ofUsize i * lit 1 / Scalar.ofUsize (nstepsDistance * nstepsDistance)
        - Scalar.ofUsize i * lit 1 / Scalar.ofUsize (nstepsDistance * nstepsDistance)
          * (Scalar.ofUsize nstepsDistance / lit 2)
      = F.round (((k - 31 * i : ℤ) : ℝ) / 4096) := by
    intro i k hi k0 k1 x hx
    have hk := hF.ok k (by rw [abs_le]; constructor <;> linarith)
    have hki := hF.ok (k + i) (by rw [abs_le]; constructor <;> omega)
    have h32i := hF.ok (32 * i) (by rw [abs_le]; constructor <;> omega)
    rw [hx, et i hi, e32, F.round_of_mem hk, fin_add, fin_mul,
      round_val (y := ((k + i : ℤ) : ℝ) / 4096) (by push_cast; ring) hki,
      round_val (y := ((32 * i : ℤ) : ℝ) / 4096) (by push_cast; ring) h32i, fin_sub]
    congr 1
    push_cast; ring
  obtain ⟨s, hs, h⟩ := forRange_inv (m := Option) (lo := 0) (hi := nstepsDistance) (s := s0)
    (body := fun i s => do
      let t := Scalar.ofUsize i * lit 1 / Scalar.ofUsize (nstepsDistance * nstepsDistance)
      let candidate ← some (f (s.1 + t - t * (Scalar.ofUsize nstepsDistance / lit 2)))
      if Scalar.lt (Point.squaredLength (candidate - p)) s.2 then
        pure (t, Point.squaredLength (candidate - p))
      else pure s)
    (fun _ s => s.2.toReal ≤ s0.2.toReal ∧ Sampled f first p s.2 ∧
      ∃ k : ℤ, 0 ≤ k ∧ k ≤ 4032 ∧ s.1 = F.round ((k : ℝ) / 4096))
    (Nat.zero_le _) ⟨le_rfl, h0, h1⟩
    (by
      intro i s _ hi ⟨h1, h2, k, k0, k1, hk⟩
      have hi' : i < 64 := hi
      simp only [Option.bind_eq_bind, Option.bind_some]
      rw [ep i k hi' k0 k1 s.1 hk]
      split_ifs with hlt
      · have hfin := squaredLength_lt_finite h2.1 hlt
        refine ⟨_, rfl, le_trans ?_ h1, ⟨hfin, Or.inr ⟨k - 31 * i, by omega, by omega, rfl⟩⟩,
          i, by omega, by omega, ?_⟩
        · obtain ⟨a, ha, ea⟩ := isFinite_iff.1 hfin
          obtain ⟨b, hb, eb⟩ := isFinite_iff.1 h2.1
          rw [ea, eb] at hlt
          simp only [ea, eb, toReal_fin]
          exact (lt_fin.1 hlt).le
        · show _ = _
          rw [et i hi']
          exact (F.round_of_mem _).symm
      · exact ⟨_, rfl, h1, h2, k, k0, k1, hk⟩)
  exact ⟨s, hs, h.1, h.2.1⟩

/-- The distance of bounded points does not overflow. -/
theorem sq_finite_of_bounded {p q : PointN (Fl F) n} {B : ℝ} (hu : F.u ≤ 1 / 1024)
    (he : F.eta ≤ 1 / 1024) (hp : BoundedBy B p) (hq : BoundedBy B q) (hB : 0 ≤ B)
    (hB1 : 5 / 2 * B + 1 ≤ F.max)
    (hmax : (1 + F.u) ^ (n + 1) * (n * (5 / 2 * B + 1) ^ 2) + 2 * n * (1 + F.u) ^ n * F.eta
      ≤ F.max) : (Point.squaredLength (p - q) : Fl F).IsFinite := by
  have u0 := F.u_nonneg
  have e0 := F.eta_nonneg
  have key : ∀ i, ((p - q).coords i).IsFinite ∧ |((p - q).coords i).toReal| ≤ 5 / 2 * B + 1 := by
    intro i
    obtain ⟨a, ha, ea⟩ := isFinite_iff.1 (hp i).1
    obtain ⟨b, hb, eb⟩ := isFinite_iff.1 (hq i).1
    have h1 := (hp i).2
    have h2 := (hq i).2
    rw [ea, toReal_fin] at h1
    rw [eb, toReal_fin] at h2
    have h3 : |a - b| ≤ 2 * B := (abs_sub _ _).trans (by linarith)
    have h4 := F.rnd_err (a - b)
    have h5 := abs_add_le (a - b) (F.rnd (a - b) - (a - b))
    rw [add_sub_cancel] at h5
    have h6 : F.u * |a - b| ≤ 1 / 1024 * (2 * B) :=
      mul_le_mul hu h3 (abs_nonneg _) (by norm_num)
    have h7 : |F.rnd (a - b)| ≤ 5 / 2 * B + 1 := by linarith
    rw [coords_sub, ea, eb, fin_sub, F.round_of_rnd_le (h7.trans hB1)]
    exact ⟨trivial, h7⟩
  refine (C88_squared_length (p - q) (Or.inr ⟨fun i => (key i).1, le_trans ?_ hmax⟩)).1
  have : ∑ i, ((p - q).coords i).toReal ^ 2 ≤ n * (5 / 2 * B + 1) ^ 2 := by
    calc ∑ i, ((p - q).coords i).toReal ^ 2 ≤ ∑ _i : Fin n, (5 / 2 * B + 1) ^ 2 := by
          apply Finset.sum_le_sum
          intro i _
          rw [← sq_abs]
          exact pow_le_pow_left₀ (abs_nonneg _) (key i).2 2
      _ = n * (5 / 2 * B + 1) ^ 2 := by simp
  have g : (0 : ℝ) ≤ (1 + F.u) ^ (n + 1) := by positivity
  have := mul_le_mul_of_nonneg_left this g
  linarith

/-- `distance_to_point` in floating point, for an evaluation method `f` with coordinate errors
of at most `E` at the samples of the exact curve `c`. -/
theorem search_float (hF : HasSamples F) (hu : F.u ≤ 1 / 1024) (he : F.eta ≤ 1 / 1024)
    (f : Fl F → PointN (Fl F) n) (first p : PointN (Fl F) n) (c : ℝ → PointN ℝ n) {B E V : ℝ}
    (hB : 0 ≤ B) (hE : 0 ≤ E) (hfirst : BoundedBy B first) (hp : BoundedBy B p)
    (hf : ∀ i : ℕ, i < 64 → BoundedBy B (f (F.round ((i : ℝ) / 64))) ∧
      ∀ j, |((f (F.round ((i : ℝ) / 64))).coords j).toReal - (c ((i : ℝ) / 64)).coords j| ≤ E)
    (hV : ∀ x y : ℝ, 0 ≤ x → x ≤ y → y ≤ 1 → pdist (c x) (c y) ≤ V * (y - x))
    (hB1 : 5 / 2 * B + 1 ≤ F.max)
    (hmax : (1 + F.u) ^ (n + 1) * (n * (5 / 2 * B + 1) ^ 2) + 2 * n * (1 + F.u) ^ n * F.eta
      ≤ F.max) :
    ∃ r, searchDistance (fun t => some (f t)) first p = some r ∧ r.IsFinite ∧ 0 ≤ r.toReal ∧
      (∀ t, 0 ≤ t → t ≤ 1 → r.toReal
        ≤ (1 + F.u) ^ (n + 3) * (pdist (c t) p.real + V / 64 + Real.sqrt n * E) + distTiny F n) ∧
      ∃ q, (q = first ∨ ∃ k : ℤ, -1953 ≤ k ∧ k ≤ 4032 ∧ q = f (F.round ((k : ℝ) / 4096))) ∧
        |r.toReal - pdist q.real p.real|
          ≤ ((1 + F.u) ^ (n + 3) - 1) * pdist q.real p.real + distTiny F n := by
  have hp0 : (Point.squaredLength (p - first) : Fl F).IsFinite :=
    sq_finite_of_bounded hu he hp hfirst hB hB1 hmax
  obtain ⟨s1, h1, hmin, hS1, hk1⟩ := coarse_float hF f first p hp0
  obtain ⟨s2, h2, hle, hS2⟩ := fine_float hF f first p s1 hS1 hk1
  -- the computed distance for a squared length
  have root : ∀ a b : PointN (Fl F) n, ∀ x y : Fl F, x.IsFinite → 0 ≤ x.toReal →
      y = Point.squaredLength (a - b) → y.IsFinite → x.toReal ≤ y.toReal →
      (Scalar.sqrt x).toReal ≤ (Scalar.sqrt y).toReal := by
    intro a b x y hx x0 hy hyf hxy
    obtain ⟨v, hv, rfl⟩ := isFinite_iff.1 hx
    obtain ⟨w, hw, rfl⟩ := isFinite_iff.1 hyf
    simp only [toReal_fin] at x0 hxy
    have hm : ∀ z, 0 ≤ z → ∀ hz : z ∈ F.grid ∧ |z| ≤ F.max,
        (Scalar.sqrt (fin z hz : Fl F)).toReal = F.rnd (Real.sqrt z) := by
      intro z z0 hz
      have hsm : |Real.sqrt z| ≤ F.max := by
        rw [abs_of_nonneg (Real.sqrt_nonneg z)]
        have h1 : z ≤ F.max := (le_abs_self z).trans hz.2
        have h2 := F.max_ge
        exact Real.sqrt_le_iff.2 ⟨by linarith, by nlinarith⟩
      show (if z < 0 then nan else F.round (Real.sqrt z) : Fl F).toReal = _
      rw [if_neg (not_lt.2 z0), F.round_of_le hsm, toReal_fin]
    rw [hm v x0, hm w (x0.trans hxy)]
    exact F.rnd_mono (Real.sqrt_le_sqrt hxy)
  have hres : searchDistance (fun t => some (f t)) first p = some (Scalar.sqrt s2.2) := by
    unfold searchDistance
    simp only []
    rw [h1]
    simp only [Option.bind_eq_bind, Option.bind_some]
    rw [h2]; rfl
  -- the sample realising the result
  obtain ⟨q, hq, hqs⟩ : ∃ q, (q = first ∨ ∃ k : ℤ, -1953 ≤ k ∧ k ≤ 4032 ∧
      q = f (F.round ((k : ℝ) / 4096))) ∧
      (s2.2 = Point.squaredLength (p - q) ∨ s2.2 = Point.squaredLength (q - p)) := by
    rcases hS2.2 with h | ⟨k, k0, k1, h⟩
    · exact ⟨first, Or.inl rfl, Or.inl h⟩
    · exact ⟨_, Or.inr ⟨k, k0, k1, rfl⟩, Or.inr h⟩
  have hdist : (Scalar.sqrt s2.2).IsFinite ∧ 0 ≤ (Scalar.sqrt s2.2).toReal ∧
      |(Scalar.sqrt s2.2).toReal - pdist q.real p.real|
        ≤ ((1 + F.u) ^ (n + 3) - 1) * pdist q.real p.real + distTiny F n := by
    rcases hqs with h | h
    · have := C88_point_distance p q (by rw [← h]; exact hS2.1)
      rw [← h, pdist_comm] at this
      exact this.2
    · have := C88_point_distance q p (by rw [← h]; exact hS2.1)
      rw [← h] at this
      exact this.2
  have s20 : 0 ≤ s2.2.toReal := by
    rcases hqs with h | h <;> rw [h]
    · exact (C88_squared_length _ (Or.inl (by rw [← h]; exact hS2.1))).2.1
    · exact (C88_squared_length _ (Or.inl (by rw [← h]; exact hS2.1))).2.1
  refine ⟨_, hres, hdist.1, hdist.2.1, fun t t0 t1 => ?_, q, hq, hdist.2.2⟩
  have gpos : (0 : ℝ) < (1 + F.u) ^ (n + 3) := by
    have := F.u_nonneg
    positivity
  have hsamp : ∀ i : ℕ, i < 64 →
      ((Scalar.sqrt s2.2).toReal - distTiny F n) / (1 + F.u) ^ (n + 3) - Real.sqrt n * E
        ≤ pdist (c ((i : ℝ) / 64)) p.real := by
    intro i hi
    obtain ⟨hb, hj⟩ := hf i hi
    have hfi : (Point.squaredLength (f (F.round ((i : ℝ) / 64)) - p) : Fl F).IsFinite :=
      sq_finite_of_bounded hu he hb hp hB hB1 hmax
    have hr := root _ _ s2.2 _ hS2.1 s20 rfl hfi (hle.trans (hmin i hi hfi))
    have hd := (C88_point_distance _ _ hfi).2.2.2
    have hup := le_abs_self ((Scalar.sqrt (Point.squaredLength
      (f (F.round ((i : ℝ) / 64)) - p) : Fl F)).toReal
        - pdist (f (F.round ((i : ℝ) / 64))).real p.real)
    have htri := pdist_triangle (f (F.round ((i : ℝ) / 64))).real (c ((i : ℝ) / 64)) p.real
    have herr : pdist (f (F.round ((i : ℝ) / 64))).real (c ((i : ℝ) / 64)) ≤ Real.sqrt n * E := by
      rw [pdist_vec, ← norm_vec_const E hE]
      exact norm_vec_mono hj
    have : ((Scalar.sqrt s2.2).toReal - distTiny F n) / (1 + F.u) ^ (n + 3)
        ≤ pdist (f (F.round ((i : ℝ) / 64))).real p.real := by
      rw [div_le_iff₀ gpos]
      linarith
    linarith
  have := searchDistance_upper (f := c) (p := p.real) hsamp hV t0 t1
  rw [sub_le_iff_le_add, div_le_iff₀ gpos] at this
  linarith

/-! ### The three curve types -/

/-- The curve with the same control points as real numbers. -/
noncomputable def QuadraticBezier.real (q : QuadraticBezier (PointN (Fl F) n)) :
    QuadraticBezier (PointN ℝ n) := ⟨q.start.real, q.ctrl.real, q.end_.real⟩

/-- The curve with the same control points as real numbers. -/
noncomputable def CubicBezier.real (c : CubicBezier (PointN (Fl F) n)) :
    CubicBezier (PointN ℝ n) := ⟨c.start.real, c.ctrl1.real, c.ctrl2.real, c.end_.real⟩

/-- The curve with the same control points as real numbers. -/
noncomputable def Bezier.real {N : ℕ} (b : Bezier (PointN (Fl F) n) N) :
    Bezier (PointN ℝ n) N := ⟨fun k => (b.control_points k).real⟩

theorem quadratic_real_eval (q : QuadraticBezier (PointN (Fl F) n)) (t : ℝ) (i : Fin n) :
    (q.real.eval t).coords i = (1 - t) ^ 2 * (q.start.coords i).toReal
        + 2 * t * (1 - t) * (q.ctrl.coords i).toReal + t ^ 2 * (q.end_.coords i).toReal := by
  simp only [QuadraticBezier.eval, QuadraticBezier.real, PointN.real, coords_add, coords_mul,
    lit_real]
  push_cast
  ring

theorem cubic_real_eval (q : CubicBezier (PointN (Fl F) n)) (t : ℝ) (i : Fin n) :
    (q.real.eval t).coords i = (1 - t) ^ 3 * (q.start.coords i).toReal
        + 3 * t * (1 - t) ^ 2 * (q.ctrl1.coords i).toReal
        + 3 * t ^ 2 * (1 - t) * (q.ctrl2.coords i).toReal + t ^ 3 * (q.end_.coords i).toReal := by
  simp only [CubicBezier.eval, CubicBezier.real, PointN.real, coords_add, coords_mul,
    lit_real]
  push_cast
  ring

theorem HasSamples.coarse (hF : HasSamples F) {i : ℕ} (hi : i < 64) :
    (i : ℝ) / 64 ∈ F.grid ∧ |(i : ℝ) / 64| ≤ F.max := by
  have := hF.ok (64 * i) (by rw [abs_le]; constructor <;> omega)
  rwa [show ((64 * i : ℤ) : ℝ) / 4096 = (i : ℝ) / 64 by push_cast; ring] at this

theorem sample_unit {i : ℕ} (hi : i < 64) : 0 ≤ (i : ℝ) / 64 ∧ (i : ℝ) / 64 ≤ 1 := by
  have : (i : ℝ) ≤ 64 := by exact_mod_cast hi.le
  exact ⟨by positivity, by rw [div_le_one (by norm_num)]; exact this⟩

/-- **C88**, `QuadraticBezier::distance_to_point`. -/
theorem C88_quadratic (hF : HasSamples F) (hu : F.u ≤ 1 / 1024) (he : F.eta ≤ 1 / 1024)
    (q : QuadraticBezier (PointN (Fl F) n)) (p : PointN (Fl F) n) {M D : ℝ} (hM : 0 ≤ M)
    (hs : BoundedBy M q.start) (hc : BoundedBy M q.ctrl) (hd : BoundedBy M q.end_)
    (hp : BoundedBy M p)
    (h1 : pdist q.start.real q.ctrl.real ≤ D) (h2 : pdist q.ctrl.real q.end_.real ≤ D)
    (hmax : 5 * M + 4 ≤ F.max)
    (hmax' : (1 + F.u) ^ (n + 1) * (n * (5 * M + 4) ^ 2) + 2 * n * (1 + F.u) ^ n * F.eta
      ≤ F.max) :
    ∃ r, q.distanceToPoint p = some r ∧ r.IsFinite ∧ 0 ≤ r.toReal ∧
      (∀ t, 0 ≤ t → t ≤ 1 → r.toReal
        ≤ (1 + F.u) ^ (n + 3) * (pdist (q.real.eval t) p.real + 2 * D / 64
          + Real.sqrt n * (((1 + F.u) ^ 6 - 1) * M + (13 * M + 11) * F.eta)) + distTiny F n) ∧
      ∃ x, (x = q.start ∨ ∃ k : ℤ, -1953 ≤ k ∧ k ≤ 4032 ∧ x = q.eval (F.round ((k : ℝ) / 4096))) ∧
        |r.toReal - pdist x.real p.real|
          ≤ ((1 + F.u) ^ (n + 3) - 1) * pdist x.real p.real + distTiny F n := by
  have u0 := F.u_nonneg
  have e0 := F.eta_nonneg
  have g6 := g_pow_le hu 6 (by norm_num)
  have g6' := one_le_g (F := F) 6
  have hE : 0 ≤ ((1 + F.u) ^ 6 - 1) * M + (13 * M + 11) * F.eta :=
    add_nonneg (mul_nonneg (by linarith) hM) (by positivity)
  have hEM : ((1 + F.u) ^ 6 - 1) * M + (13 * M + 11) * F.eta ≤ M + 1 := by
    have a1 : ((1 + F.u) ^ 6 - 1) * M ≤ 1 / 32 * M :=
      mul_le_mul_of_nonneg_right (by linarith) hM
    have a2 : (13 * M + 11) * F.eta ≤ (13 * M + 11) * (1 / 1024) :=
      mul_le_mul_of_nonneg_left he (by positivity)
    linarith
  have wk : ∀ {x : PointN (Fl F) n}, BoundedBy M x → BoundedBy (2 * M + 1) x := fun h i =>
    ⟨(h i).1, (h i).2.trans (by linarith)⟩
  rw [quadratic_distance_eq]
  refine search_float hF hu he (fun t => q.eval t) q.start p (fun t => q.real.eval t)
    (B := 2 * M + 1) (by linarith) hE (wk hs) (wk hp) (fun i hi => ?_) (fun x y hx hxy hy => ?_)
    (by linarith) (le_trans ?_ hmax')
  · have key := fun j => C67_quadratic_eval q (hF.coarse hi) (sample_unit hi).1 (sample_unit hi).2
      hu he hs hc hd (by linarith) j
    rw [F.round_of_mem (hF.coarse hi)]
    refine ⟨fun j => ⟨(key j).1, ?_⟩, fun j => ?_⟩
    · refine (bounded_of_error (key j).2 (M := M) ?_).trans (by linarith)
      obtain ⟨t0, t1⟩ := sample_unit hi
      have := abs_lerp_le t0 t1 (abs_lerp_le t0 t1 (hs j).2 (hc j).2)
        (abs_lerp_le t0 t1 (hc j).2 (hd j).2)
      convert this using 2
      ring
    · rw [quadratic_real_eval]
      exact (key j).2
  · exact (C73_specialised ⟨q.real.start, q.real.start⟩ q.real
      ⟨q.real.start, q.real.start, q.real.start, q.real.start⟩ x y hx hxy hy).2.1 D h1 h2
  · have : (5 / 2 * (2 * M + 1) + 1) ^ 2 ≤ (5 * M + 4) ^ 2 :=
      pow_le_pow_left₀ (by positivity) (by linarith) 2
    gcongr

/-- **C88**, `CubicBezier::distance_to_point`. -/
theorem C88_cubic (hF : HasSamples F) (hu : F.u ≤ 1 / 1024) (he : F.eta ≤ 1 / 1024)
    (c : CubicBezier (PointN (Fl F) n)) (p : PointN (Fl F) n) {M D : ℝ} (hM : 0 ≤ M)
    (hs : BoundedBy M c.start) (hc : BoundedBy M c.ctrl1) (hc' : BoundedBy M c.ctrl2)
    (hd : BoundedBy M c.end_) (hp : BoundedBy M p)
    (h1 : pdist c.start.real c.ctrl1.real ≤ D) (h2 : pdist c.ctrl1.real c.ctrl2.real ≤ D)
    (h3 : pdist c.ctrl2.real c.end_.real ≤ D)
    (hmax : 5 * M + 4 ≤ F.max)
    (hmax' : (1 + F.u) ^ (n + 1) * (n * (5 * M + 4) ^ 2) + 2 * n * (1 + F.u) ^ n * F.eta
      ≤ F.max) :
    ∃ r, c.distanceToPoint p = some r ∧ r.IsFinite ∧ 0 ≤ r.toReal ∧
      (∀ t, 0 ≤ t → t ≤ 1 → r.toReal
        ≤ (1 + F.u) ^ (n + 3) * (pdist (c.real.eval t) p.real + 3 * D / 64
          + Real.sqrt n * (((1 + F.u) ^ 9 - 1) * M + (54 * M + 10) * F.eta)) + distTiny F n) ∧
      ∃ x, (x = c.start ∨ ∃ k : ℤ, -1953 ≤ k ∧ k ≤ 4032 ∧ x = c.eval (F.round ((k : ℝ) / 4096))) ∧
        |r.toReal - pdist x.real p.real|
          ≤ ((1 + F.u) ^ (n + 3) - 1) * pdist x.real p.real + distTiny F n := by
  have u0 := F.u_nonneg
  have e0 := F.eta_nonneg
  have g6 := g_pow_le hu 9 (by norm_num)
  have g6' := one_le_g (F := F) 9
  have hE : 0 ≤ ((1 + F.u) ^ 9 - 1) * M + (54 * M + 10) * F.eta :=
    add_nonneg (mul_nonneg (by linarith) hM) (by positivity)
  have hEM : ((1 + F.u) ^ 9 - 1) * M + (54 * M + 10) * F.eta ≤ M + 1 := by
    have a1 : ((1 + F.u) ^ 9 - 1) * M ≤ 1 / 32 * M :=
      mul_le_mul_of_nonneg_right (by linarith) hM
    have a2 : (54 * M + 10) * F.eta ≤ (54 * M + 10) * (1 / 1024) :=
      mul_le_mul_of_nonneg_left he (by positivity)
    linarith
  have wk : ∀ {x : PointN (Fl F) n}, BoundedBy M x → BoundedBy (2 * M + 1) x := fun h i =>
    ⟨(h i).1, (h i).2.trans (by linarith)⟩
  rw [cubic_distance_eq]
  refine search_float hF hu he (fun t => c.eval t) c.start p (fun t => c.real.eval t)
    (B := 2 * M + 1) (by linarith) hE (wk hs) (wk hp) (fun i hi => ?_) (fun x y hx hxy hy => ?_)
    (by linarith) (le_trans ?_ hmax')
  · have key := fun j => C67_cubic_eval c (hF.coarse hi) (sample_unit hi).1 (sample_unit hi).2
      hu he hs hc hc' hd (by linarith) j
    rw [F.round_of_mem (hF.coarse hi)]
    refine ⟨fun j => ⟨(key j).1, ?_⟩, fun j => ?_⟩
    · refine (bounded_of_error (key j).2 (M := M) ?_).trans (by linarith)
      obtain ⟨t0, t1⟩ := sample_unit hi
      have m1 := abs_lerp_le t0 t1 (hs j).2 (hc j).2
      have m2 := abs_lerp_le t0 t1 (hc j).2 (hc' j).2
      have m3 := abs_lerp_le t0 t1 (hc' j).2 (hd j).2
      have := abs_lerp_le t0 t1 (abs_lerp_le t0 t1 m1 m2) (abs_lerp_le t0 t1 m2 m3)
      convert this using 2
      ring
    · rw [cubic_real_eval]
      exact (key j).2
  · exact (C73_specialised ⟨c.real.start, c.real.start⟩
      ⟨c.real.start, c.real.start, c.real.start⟩ c.real x y hx hxy hy).2.2 D h1 h2 h3
  · have : (5 / 2 * (2 * M + 1) + 1) ^ 2 ≤ (5 * M + 4) ^ 2 :=
      pow_le_pow_left₀ (by positivity) (by linarith) 2
    gcongr

/-- **C88**, `Bezier::distance_to_point`, any number of control points; `E` is the error bound of
`eval` (C62). -/
theorem C88_bezier {N : ℕ} (hN : 1 ≤ N) (hF : HasSamples F) (hu : F.u ≤ 1 / 1024)
    (he : F.eta ≤ 1 / 1024)
    (b : Bezier (PointN (Fl F) n) N) (p : PointN (Fl F) n) {M D E : ℝ} (hM : 0 ≤ M)
    (hb : ∀ k, BoundedBy M (b.control_points k)) (hp : BoundedBy M p)
    (hD : ∀ k (hk : k + 1 < N), pdist (b.control_points ⟨k, by omega⟩).real
      (b.control_points ⟨k + 1, hk⟩).real ≤ D)
    (hE : E = ((1 + F.u) ^ 2 * (1 + F.u + F.eta)) ^ (N - 1)
      * (M + (N - 1 : ℕ) * (3 * (1 + F.u) * F.eta)) - M)
    (hmax : 5 / 2 * (M + E) + 1 ≤ F.max)
    (hmax' : (1 + F.u) ^ (n + 1) * (n * (5 / 2 * (M + E) + 1) ^ 2)
      + 2 * n * (1 + F.u) ^ n * F.eta ≤ F.max) :
    ∃ r, b.distanceToPoint p = some r ∧ r.IsFinite ∧ 0 ≤ r.toReal ∧
      (∀ t x, 0 ≤ t → t ≤ 1 → b.real.eval t = some x → r.toReal
        ≤ (1 + F.u) ^ (n + 3) * (pdist x p.real + (N - 1 : ℕ) * D / 64
          + Real.sqrt n * E) + distTiny F n) ∧
      ∃ x, (x = b.control_points ⟨0, hN⟩ ∨ ∃ k : ℤ, -1953 ≤ k ∧ k ≤ 4032 ∧
          b.eval (F.round ((k : ℝ) / 4096)) = some x) ∧
        |r.toReal - pdist x.real p.real|
          ≤ ((1 + F.u) ^ (n + 3) - 1) * pdist x.real p.real + distTiny F n := by
  have u0 := F.u_nonneg
  have e0 := F.eta_nonneg
  have hbound : casBound F M 0 ≤ casBound F M (N - 1) := casBound_mono hM (Nat.zero_le _)
  have hE0 : 0 ≤ E := by
    have h0 : casBound F M 0 = M := by simp [casBound]
    have h1 : E = casBound F M (N - 1) - M := hE
    linarith
  have wk : ∀ {x : PointN (Fl F) n}, BoundedBy M x → BoundedBy (M + E) x := fun h i =>
    ⟨(h i).1, (h i).2.trans (by linarith)⟩
  have hev : b.eval = fun t => some (cas (extend b.control_points) t (N - 1) 0) :=
    funext fun t => bezier_eval_cas b hN t
  have hevR : b.real.eval = fun t => some (cas (extend b.real.control_points) t (N - 1) 0) :=
    funext fun t => bezier_eval_cas b.real hN t
  have hsam : ∀ i : ℕ, i < 64 →
      BoundedBy (M + E) (cas (extend b.control_points) (F.round ((i : ℝ) / 64)) (N - 1) 0) ∧
      ∀ j, |((cas (extend b.control_points) (F.round ((i : ℝ) / 64)) (N - 1) 0).coords j).toReal
        - (cas (extend b.real.control_points) ((i : ℝ) / 64) (N - 1) 0).coords j| ≤ E := by
    intro i hi
    obtain ⟨q, hq, key⟩ := C62_bezier_error hN b (hF.coarse hi) (sample_unit hi).1
      (sample_unit hi).2 (fun k j => (hb k j).1) (fun k j => (hb k j).2) hM (by linarith)
    rw [hev] at hq
    have hq' := Option.some.inj hq
    rw [F.round_of_mem (hF.coarse hi)]
    simp only [hq']
    obtain ⟨w, hw, hw1, hw2, hco⟩ := C36_bezier b.real hN ((i : ℝ) / 64) (sample_unit hi).1
      (sample_unit hi).2
    rw [hevR] at hw
    have hw' := Option.some.inj hw
    simp only [hw']
    have hcoord : ∀ j : Fin n, w.coords j = ∑ k : Fin N, bernstein (N - 1) k ((i : ℝ) / 64)
        * ((b.control_points k).coords j).toReal := by
      intro j
      have := hco j
      rw [show coord w j = w.coords j from coord_pn n w.coords j] at this
      rw [this]
      apply Finset.sum_congr rfl
      intro k _
      rw [show coord (b.real.controlPoints k) j = ((b.control_points k).coords j).toReal from
        coord_pn n (b.real.controlPoints k).coords j]
    refine ⟨fun j => ⟨(key j).1, bounded_of_error (by rw [hE]; exact (key j).2) ?_⟩, fun j => ?_⟩
    · calc |∑ k : Fin N, bernstein (N - 1) k ((i : ℝ) / 64)
            * ((b.control_points k).coords j).toReal|
          ≤ ∑ k : Fin N, |bernstein (N - 1) k ((i : ℝ) / 64)
            * ((b.control_points k).coords j).toReal| := Finset.abs_sum_le_sum_abs _ _
        _ ≤ ∑ k : Fin N, bernstein (N - 1) k ((i : ℝ) / 64) * M := by
            apply Finset.sum_le_sum
            intro k _
            rw [abs_mul, abs_of_nonneg (hw1 k)]
            exact mul_le_mul_of_nonneg_left (hb k j).2 (hw1 k)
        _ = M := by rw [← Finset.sum_mul, hw2, one_mul]
    · rw [hcoord, hE]
      exact (key j).2
  have hlip : ∀ x y : ℝ, 0 ≤ x → x ≤ y → y ≤ 1 →
      pdist (cas (extend b.real.control_points) x (N - 1) 0)
        (cas (extend b.real.control_points) y (N - 1) 0) ≤ (N - 1 : ℕ) * D * (y - x) := by
    intro x y hx hxy hy
    obtain ⟨v, w, hv, hw, h⟩ := C73_bezier b.real hN D hD x y hx hxy hy
    rw [hevR] at hv hw
    cases hv
    cases hw
    exact h
  obtain ⟨r, hr, h1, h2, h3, x, hx, h4⟩ := search_float hF hu he
    (fun t => cas (extend b.control_points) t (N - 1) 0) (b.control_points ⟨0, hN⟩) p
    (fun t => cas (extend b.real.control_points) t (N - 1) 0)
    (B := M + E) (E := E) (V := (N - 1 : ℕ) * D) (by linarith) hE0 (wk (hb _)) (wk hp)
    hsam hlip hmax hmax'
  refine ⟨r, ?_, h1, h2, fun t y t0 t1 hy => ?_, x, ?_, h4⟩
  · rw [bezier_distance_eq, Arr.get?_lt _ hN]
    simp only [Option.bind_some]
    rw [hev]
    exact hr
  · rw [hevR] at hy
    cases hy
    exact h3 t t0 t1
  · rw [hev]
    rcases hx with hx | ⟨k, k0, k1, hx⟩
    · exact Or.inl hx
    · exact Or.inr ⟨k, k0, k1, by rw [hx]⟩

/-! ### binary64 -/

section Binary64
variable (cosI acosI : ℝ → ℝ) (powI : ℝ → ℝ → ℝ)

theorem binary64_samples : HasSamples (binary64 cosI acosI powI) where
  sample k hk := by
    refine ⟨k, -12, ?_, by norm_num, ?_⟩
    · exact hk.trans (by norm_num)
    · rw [show (2 : ℝ) ^ (-12 : ℤ) = 1 / 4096 by norm_num]; ring
  steps := ⟨1, 12, by norm_num, by norm_num, by norm_num⟩
  max := by
    show (4096 : ℝ) ≤ (2 ^ 53 - 1) * 2 ^ 971
    generalize hX : (2 : ℝ) ^ 971 = X
    have : (1 : ℝ) ≤ X := by rw [← hX]; exact one_le_pow₀ (by norm_num)
    clear hX
    norm_num
    linarith

theorem binary64_max : (10 : ℝ) ^ 60 ≤ (binary64 cosI acosI powI).max := by
  show (10 : ℝ) ^ 60 ≤ (2 ^ 53 - 1) * 2 ^ 971
  generalize hX : (2 : ℝ) ^ 971 = X
  have : (2 : ℝ) ^ 200 ≤ X := by rw [← hX]; exact pow_le_pow_right₀ (by norm_num) (by norm_num)
  have h2 : (10 : ℝ) ^ 60 ≤ 2 ^ 200 := by norm_num
  clear hX
  norm_num at this ⊢
  linarith

theorem binary64_eta : (binary64 cosI acosI powI).eta ≤ 1 / 10 ^ 60 := by
  show (2 : ℝ) ^ ((-1074 : ℤ) - 1) ≤ _
  calc (2 : ℝ) ^ ((-1074 : ℤ) - 1) ≤ 2 ^ (-200 : ℤ) :=
        zpow_le_zpow_right₀ (by norm_num) (by norm_num)
    _ ≤ _ := by norm_num

theorem cubic_numbers {F : FloatFormat} (hsamp : HasSamples F)
    (hu : F.u = 2 ^ (-(53 : ℕ) : ℤ)) (heta : F.eta ≤ 1 / 10 ^ 60) (hmx : 10 ^ 60 ≤ F.max)
    (c : CubicBezier (PointN (Fl F) 2))
    (p : PointN (Fl F) 2) {M D : ℝ} (hM : 0 ≤ M) (hM' : M ≤ 10 ^ 9)
    (hs : BoundedBy M c.start) (hc : BoundedBy M c.ctrl1) (hc' : BoundedBy M c.ctrl2)
    (hd : BoundedBy M c.end_) (hp : BoundedBy M p)
    (h1 : pdist c.start.real c.ctrl1.real ≤ D) (h2 : pdist c.ctrl1.real c.ctrl2.real ≤ D)
    (h3 : pdist c.ctrl2.real c.end_.real ≤ D) :
    ∃ r, c.distanceToPoint p = some r ∧ r.IsFinite ∧ 0 ≤ r.toReal ∧
      ∀ t, 0 ≤ t → t ≤ 1 → r.toReal
        ≤ (1 + 1 / 10 ^ 15) * (pdist (c.real.eval t) p.real + 3 * D / 64) + 1 / 10 ^ 14 * M
          + 1 / 10 ^ 25 := by
  have e0 := F.eta_nonneg
  have u0 := F.u_nonneg
  have g5 : (1 + F.u) ^ (2 + 3) ≤ 1 + 1 / 10 ^ 15 := by rw [hu]; norm_num
  have g4 : (1 + F.u) ^ (2 + 2) ≤ 2 := by rw [hu]; norm_num
  have g3 : (1 + F.u) ^ (2 + 1) ≤ 2 := by rw [hu]; norm_num
  have g2 : (1 + F.u) ^ 2 ≤ 2 := by rw [hu]; norm_num
  have g1 : 1 + F.u ≤ 2 := by rw [hu]; norm_num
  have g9 : (1 + F.u) ^ 9 - 1 ≤ 1 / 10 ^ 15 := by rw [hu]; norm_num
  have g9' := one_le_g (F := F) 9
  have hsq2 : Real.sqrt ((2 : ℕ) : ℝ) ≤ 3 / 2 := by
    apply Real.sqrt_le_iff.2; norm_num
  have hM2 : (5 * M + 4) ^ 2 ≤ 10 ^ 20 := by
    calc (5 * M + 4) ^ 2 ≤ (10 ^ 10) ^ 2 :=
          pow_le_pow_left₀ (by positivity) (by norm_num at hM' ⊢; linarith) 2
      _ = 10 ^ 20 := by norm_num
  obtain ⟨r, hr, rf, r0, hup, _⟩ := C88_cubic hsamp (by rw [hu]; norm_num)
    (heta.trans (by norm_num)) c p hM hs hc hc' hd hp h1 h2 h3
    (by
      have : (10 : ℝ) ^ 10 ≤ 10 ^ 60 := by norm_num
      norm_num at hM' this hmx ⊢
      linarith)
    (by
      have a1 : (1 + F.u) ^ (2 + 1) * (((2 : ℕ) : ℝ) * (5 * M + 4) ^ 2) ≤ 2 * (2 * 10 ^ 20) := by
        apply mul_le_mul g3 _ (by positivity) (by norm_num)
        push_cast
        linarith
      have a2 : 2 * ((2 : ℕ) : ℝ) * (1 + F.u) ^ 2 * F.eta ≤ 8 * 1 := by
        apply mul_le_mul _ (heta.trans (by norm_num)) e0 (by norm_num)
        push_cast
        linarith
      have : (2 : ℝ) * (2 * 10 ^ 20) + 8 * 1 ≤ 10 ^ 60 := by norm_num
      linarith)
  refine ⟨r, hr, rf, r0, fun t t0 t1 => (hup t t0 t1).trans ?_⟩
  have hD : 0 ≤ D := (pdist_nonneg _ _).trans h1
  have hX : 0 ≤ pdist (c.real.eval t) p.real + 3 * D / 64 := by
    have := pdist_nonneg (c.real.eval t) p.real
    positivity
  set X := pdist (c.real.eval t) p.real + 3 * D / 64
  -- the evaluation error
  have hE : Real.sqrt ((2 : ℕ) : ℝ) * (((1 + F.u) ^ 9 - 1) * M + (54 * M + 10) * F.eta)
      ≤ 3 / 2 * (1 / 10 ^ 15 * M + (54 * M + 10) * (1 / 10 ^ 60)) := by
    apply mul_le_mul hsq2 _ (add_nonneg (mul_nonneg (by linarith) hM) (by positivity)) (by norm_num)
    apply add_le_add
    · exact mul_le_mul_of_nonneg_right g9 hM
    · exact mul_le_mul_of_nonneg_left heta (by positivity)
  have hE0 : 0 ≤ Real.sqrt ((2 : ℕ) : ℝ) * (((1 + F.u) ^ 9 - 1) * M + (54 * M + 10) * F.eta) :=
    mul_nonneg (Real.sqrt_nonneg _)
      (add_nonneg (mul_nonneg (by linarith) hM) (by positivity))
  set Y := Real.sqrt ((2 : ℕ) : ℝ) * (((1 + F.u) ^ 9 - 1) * M + (54 * M + 10) * F.eta)
  have hT : distTiny F 2 ≤ 1 / 10 ^ 26 := by
    unfold distTiny
    have a1 : (1 + F.u) ^ (2 + 2) * (Real.sqrt ((2 : ℕ) : ℝ) * F.eta)
        ≤ 2 * (3 / 2 * (1 / 10 ^ 60)) :=
      mul_le_mul g4 (mul_le_mul hsq2 heta e0 (by norm_num)) (by positivity) (by norm_num)
    have a2 : Real.sqrt (2 * ((2 : ℕ) : ℝ) * (1 + F.u) ^ 2 * F.eta) ≤ 1 / 10 ^ 28 := by
      apply Real.sqrt_le_iff.2
      refine ⟨by positivity, ?_⟩
      have : 2 * ((2 : ℕ) : ℝ) * (1 + F.u) ^ 2 * F.eta ≤ 8 * (1 / 10 ^ 60) := by
        apply mul_le_mul _ heta e0 (by norm_num)
        push_cast
        linarith
      exact this.trans (by norm_num)
    have a3 : (1 + F.u) * Real.sqrt (2 * ((2 : ℕ) : ℝ) * (1 + F.u) ^ 2 * F.eta)
        ≤ 2 * (1 / 10 ^ 28) := mul_le_mul g1 a2 (Real.sqrt_nonneg _) (by norm_num)
    have : (2 : ℝ) * (3 / 2 * (1 / 10 ^ 60)) + 2 * (1 / 10 ^ 28) + 1 / 10 ^ 60
        ≤ 1 / 10 ^ 26 := by norm_num
    linarith
  have hXY : (1 + F.u) ^ (2 + 3) * (X + Y) ≤ (1 + 1 / 10 ^ 15) * (X + Y) :=
    mul_le_mul_of_nonneg_right g5 (by linarith)
  have hY2 : (1 + 1 / 10 ^ 15) * Y ≤ 1 / 10 ^ 14 * M + 1 / 10 ^ 26 := by
    have : (1 + 1 / 10 ^ 15 : ℝ) * Y ≤ 2 * (3 / 2 * (1 / 10 ^ 15 * M
        + (54 * M + 10) * (1 / 10 ^ 60))) :=
      mul_le_mul (by norm_num) hE hE0 (by norm_num)
    refine this.trans ?_
    have b1 : (54 * M) * (1 / 10 ^ 60) ≤ 1 / 10 ^ 15 * M := by
      have : (54 : ℝ) * (1 / 10 ^ 60) ≤ 1 / 10 ^ 15 := by norm_num
      nlinarith
    have b2 : (10 : ℝ) * (1 / 10 ^ 60) ≤ 1 / 10 ^ 40 := by norm_num
    have b3 : (3 : ℝ) * (1 / 10 ^ 40) ≤ 1 / 10 ^ 26 := by norm_num
    have b4 : (6 : ℝ) * (1 / 10 ^ 15) * M ≤ 1 / 10 ^ 14 * M :=
      mul_le_mul_of_nonneg_right (by norm_num) hM
    linarith
  have : (2 : ℝ) * (1 / 10 ^ 26) ≤ 1 / 10 ^ 25 := by norm_num
  linarith

/-- **C88** in numbers: for `f64` curves in the plane with coordinates up to `M ≤ 10^9` the
result of `CubicBezier::distance_to_point` is a finite number that exceeds the distance to any
point of the curve by at most the resolution `3D/64` of the search, a relative error of `10⁻¹⁵`,
and `10⁻¹⁴ M + 10⁻²⁵`. -/
theorem C88_cubic_binary64 (c : CubicBezier (PointN (Fl (binary64 cosI acosI powI)) 2))
    (p : PointN (Fl (binary64 cosI acosI powI)) 2) {M D : ℝ} (hM : 0 ≤ M) (hM' : M ≤ 10 ^ 9)
    (hs : BoundedBy M c.start) (hc : BoundedBy M c.ctrl1) (hc' : BoundedBy M c.ctrl2)
    (hd : BoundedBy M c.end_) (hp : BoundedBy M p)
    (h1 : pdist c.start.real c.ctrl1.real ≤ D) (h2 : pdist c.ctrl1.real c.ctrl2.real ≤ D)
    (h3 : pdist c.ctrl2.real c.end_.real ≤ D) :
    ∃ r, c.distanceToPoint p = some r ∧ r.IsFinite ∧ 0 ≤ r.toReal ∧
      ∀ t, 0 ≤ t → t ≤ 1 → r.toReal
        ≤ (1 + 1 / 10 ^ 15) * (pdist (c.real.eval t) p.real + 3 * D / 64) + 1 / 10 ^ 14 * M
          + 1 / 10 ^ 25 :=
  cubic_numbers (binary64_samples cosI acosI powI) rfl (binary64_eta cosI acosI powI)
    (binary64_max cosI acosI powI) c p hM hM' hs hc hc' hd hp h1 h2 h3

/-- The hypotheses are satisfiable: any plane curve with small integer coordinates. -/
example : ∃ (c : CubicBezier (PointN (Fl (binary64 cosI acosI powI)) 2))
    (p : PointN (Fl (binary64 cosI acosI powI)) 2), BoundedBy 10 c.start ∧ BoundedBy 10 c.ctrl1 ∧
    BoundedBy 10 c.ctrl2 ∧ BoundedBy 10 c.end_ ∧ BoundedBy 10 p ∧ c.start ≠ c.end_ := by
  have ok : ∀ k : ℤ, |k| ≤ 10 → ((k : ℝ) ∈ (binary64 cosI acosI powI).grid ∧
      |(k : ℝ)| ≤ (binary64 cosI acosI powI).max) := fun k hk =>
    FloatFormat.int_ok _ k (hk.trans (by norm_num))
  have bd : ∀ k : ℤ, ∀ hk : |k| ≤ 10, BoundedBy 10
      (⟨fun _ => fin (k : ℝ) (ok k hk)⟩ : PointN (Fl (binary64 cosI acosI powI)) 2) := by
    intro k hk i
    refine ⟨trivial, ?_⟩
    show |(k : ℝ)| ≤ 10
    exact_mod_cast hk
  refine ⟨⟨⟨fun _ => fin ((1 : ℤ) : ℝ) (ok 1 (by norm_num))⟩,
    ⟨fun _ => fin ((2 : ℤ) : ℝ) (ok 2 (by norm_num))⟩,
    ⟨fun _ => fin ((-5 : ℤ) : ℝ) (ok (-5) (by norm_num))⟩,
    ⟨fun _ => fin ((7 : ℤ) : ℝ) (ok 7 (by norm_num))⟩⟩,
    ⟨fun _ => fin ((3 : ℤ) : ℝ) (ok 3 (by norm_num))⟩, bd 1 (by norm_num),
    bd 2 (by norm_num), bd (-5) (by norm_num), bd 7 (by norm_num), bd 3 (by norm_num), ?_⟩
  intro h
  have := congrArg (fun q : PointN (Fl (binary64 cosI acosI powI)) 2 => (q.coords 0).toReal) h
  norm_num at this

end Binary64

end Stroke
