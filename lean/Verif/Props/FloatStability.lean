import Verif.Props.FloatEndpoints

/-!
# Floating point: rounding errors of de Casteljau's algorithm (C62)
-/

namespace Stroke

variable {F : FloatFormat} {n : ℕ}

open Fl

namespace FloatFormat

/-- Growth factor of the magnitudes in one level of de Casteljau's algorithm: `(1 + u)³` if
nothing underflows. -/
noncomputable def growth (F : FloatFormat) : ℝ := (1 + F.u) ^ 2 * (1 + F.u + F.eta)

/-- Absolute error one level adds because of underflow. -/
noncomputable def slack (F : FloatFormat) : ℝ := 3 * (1 + F.u) * F.eta

theorem one_le_growth (F : FloatFormat) : 1 ≤ F.growth := by
  unfold growth
  have := F.u_nonneg
  have := F.eta_nonneg
  have h1 : 1 ≤ (1 + F.u) ^ 2 := by nlinarith
  nlinarith

theorem slack_nonneg (F : FloatFormat) : 0 ≤ F.slack := by
  unfold slack
  have := F.u_nonneg
  have := F.eta_nonneg
  positivity

end FloatFormat

/-- One interpolation step `a * (-t + 1) + b * t` in floating point. -/
theorem lerp_error {a b t B : ℝ} (ha : a ∈ F.grid ∧ |a| ≤ F.max) (hb : b ∈ F.grid ∧ |b| ≤ F.max)
    (ht : t ∈ F.grid ∧ |t| ≤ F.max) (t0 : 0 ≤ t) (t1 : t ≤ 1) (hB1 : |a| ≤ B) (hB2 : |b| ≤ B)
    (hmax : F.growth * B + F.slack ≤ F.max) :
    ∃ r hr, fin a ha * (-(fin t ht) + lit 1) + fin b hb * fin t ht = (fin r hr : Fl F) ∧
      |r - ((1 - t) * a + t * b)| ≤ (F.growth - 1) * B + F.slack := by
  have hu := F.u_nonneg
  have he := F.eta_nonneg
  have hB : 0 ≤ B := (abs_nonneg a).trans hB1
  -- the weight
  have w0 : 0 ≤ F.rnd (-t + 1) := F.rnd_nonneg (by linarith)
  have w1 : F.rnd (-t + 1) ≤ 1 := by
    have := F.rnd_mono (show -t + 1 ≤ 1 by linarith)
    rwa [F.rnd_of_mem 1 F.one_mem] at this
  have ew : -(fin t ht) + lit 1 = (fin (F.rnd (-t + 1)) ⟨F.rnd_mem _, by
      rw [abs_of_nonneg w0]; linarith [F.max_ge]⟩ : Fl F) := by
    rw [lit_one, fin_neg, fin_add]
    exact F.round_of_rnd_le (by rw [abs_of_nonneg w0]; linarith [F.max_ge])
  set W := F.rnd (-t + 1) with hW
  have dW : |W - (1 - t)| ≤ F.u * (1 - t) + F.eta := by
    have := F.rnd_err (-t + 1)
    rw [abs_of_nonneg (show 0 ≤ -t + 1 by linarith)] at this
    rw [show 1 - t = -t + 1 by ring]
    exact this
  -- the products
  have absmem : ∀ x : ℝ, x ∈ F.grid → |x| ∈ F.grid := by
    intro x hx
    rcases abs_choice x with e | e <;> rw [e]
    · exact hx
    · exact F.neg_mem x hx
  have lA : |a * W| ≤ |a| := by
    rw [abs_mul, abs_of_nonneg w0]
    exact mul_le_of_le_one_right (abs_nonneg _) w1
  have lT : |b * t| ≤ |b| := by
    rw [abs_mul, abs_of_nonneg t0]
    exact mul_le_of_le_one_right (abs_nonneg _) t1
  have rA : |F.rnd (a * W)| ≤ |a| := F.abs_rnd_le (absmem a ha.1) lA
  have rT : |F.rnd (b * t)| ≤ |b| := F.abs_rnd_le (absmem b hb.1) lT
  have dA0 := F.rnd_err (a * W)
  have dT0 := F.rnd_err (b * t)
  set A := F.rnd (a * W) with hA
  set T := F.rnd (b * t) with hT
  have dWa : |a * W - a * (1 - t)| ≤ B * (F.u * (1 - t) + F.eta) := by
    rw [← mul_sub, abs_mul]
    exact mul_le_mul hB1 dW (abs_nonneg _) hB
  have aW : |a * W| ≤ B * ((1 + F.u) * (1 - t) + F.eta) := by
    have h1 : |a * W| ≤ |a * (1 - t)| + |a * W - a * (1 - t)| := by
      have := abs_add_le (a * (1 - t)) (a * W - a * (1 - t))
      rwa [add_sub_cancel] at this
    have h2 : |a * (1 - t)| ≤ B * (1 - t) := by
      rw [abs_mul, abs_of_nonneg (show 0 ≤ 1 - t by linarith)]
      exact mul_le_mul_of_nonneg_right hB1 (by linarith)
    linarith
  have bT : |b * t| ≤ B * t := by
    rw [abs_mul, abs_of_nonneg t0]
    exact mul_le_mul_of_nonneg_right hB2 t0
  have dA : |A - a * (1 - t)| ≤ B * ((1 - t) * ((1 + F.u) ^ 2 - 1) + F.eta * (1 + F.u)) + F.eta := by
    have h1 := abs_add_le (A - a * W) (a * W - a * (1 - t))
    rw [sub_add_sub_cancel] at h1
    have h2 := mul_le_mul_of_nonneg_left aW hu
    nlinarith
  have dT : |T - b * t| ≤ F.u * (B * t) + F.eta := by
    have h2 := mul_le_mul_of_nonneg_left bT hu
    linarith
  -- the sum
  set L := (1 - t) * a + t * b with hL
  have dS : |A + T - L| ≤ B * ((1 + F.u) * (1 + F.u + F.eta) - 1) + 2 * F.eta := by
    have h1 := abs_add_le (A - a * (1 - t)) (T - b * t)
    rw [show A - a * (1 - t) + (T - b * t) = A + T - L by rw [hL]; ring] at h1
    have h3 : F.u * (B * t) ≤ B * (t * ((1 + F.u) ^ 2 - 1)) := by
      have : 0 ≤ B * t := mul_nonneg hB t0
      nlinarith [mul_nonneg this hu, mul_nonneg this (mul_nonneg hu hu)]
    nlinarith
  have aL : |L| ≤ B := by
    have h1 := abs_add_le ((1 - t) * a) (t * b)
    rw [abs_mul, abs_mul, abs_of_nonneg t0, abs_of_nonneg (show 0 ≤ 1 - t by linarith)] at h1
    have h2 := mul_le_mul_of_nonneg_left hB1 (show 0 ≤ 1 - t by linarith)
    have h3 := mul_le_mul_of_nonneg_left hB2 t0
    linarith
  have aS : |A + T| ≤ B * ((1 + F.u) * (1 + F.u + F.eta)) + 2 * F.eta := by
    have h1 := abs_add_le L (A + T - L)
    rw [add_sub_cancel] at h1
    linarith
  have dR0 := F.rnd_err (A + T)
  have uS := mul_le_mul_of_nonneg_left aS hu
  have aR : |F.rnd (A + T)| ≤ F.growth * B + F.slack := by
    have h1 := abs_add_le (A + T) (F.rnd (A + T) - (A + T))
    rw [add_sub_cancel] at h1
    unfold FloatFormat.growth FloatFormat.slack
    linarith [mul_nonneg hu he]
  refine ⟨F.rnd (A + T), ⟨F.rnd_mem _, aR.trans hmax⟩, ?_, ?_⟩
  · rw [ew, fin_mul, fin_mul, F.round_of_rnd_le (rA.trans ha.2),
      F.round_of_rnd_le (rT.trans hb.2), fin_add, F.round_of_rnd_le (aR.trans hmax)]
  · have h1 := abs_add_le (F.rnd (A + T) - (A + T)) (A + T - L)
    rw [sub_add_sub_cancel] at h1
    unfold FloatFormat.growth FloatFormat.slack
    linarith [mul_nonneg hu he]

/-- Bound on the magnitudes after `m` levels. -/
noncomputable def casBound (F : FloatFormat) (M : ℝ) (m : ℕ) : ℝ :=
  F.growth ^ m * (M + m * F.slack)

theorem casBound_succ {M : ℝ} (m : ℕ) :
    F.growth * casBound F M m + F.slack ≤ casBound F M (m + 1) := by
  have h1 := F.one_le_growth
  have h2 := F.slack_nonneg
  have h3 : 1 ≤ F.growth ^ (m + 1) := one_le_pow₀ h1
  unfold casBound
  push_cast
  have e : F.growth ^ (m + 1) * (M + (m + 1) * F.slack)
      = F.growth * (F.growth ^ m * (M + m * F.slack)) + F.growth ^ (m + 1) * F.slack := by
    rw [pow_succ]; ring
  rw [e]
  nlinarith

theorem casBound_mono {M : ℝ} (hM : 0 ≤ M) {m m' : ℕ} (h : m ≤ m') :
    casBound F M m ≤ casBound F M m' := by
  have h1 := F.one_le_growth
  have h2 := F.slack_nonneg
  have h3 : (m : ℝ) ≤ m' := by exact_mod_cast h
  unfold casBound
  apply mul_le_mul (pow_le_pow_right₀ h1 h) _ (by positivity) (by positivity)
  have := mul_le_mul_of_nonneg_right h3 h2
  linarith

/-- Rounding errors in the de Casteljau triangle. -/
theorem cas_error (x : ℕ → PointN (Fl F) n) {t M : ℝ} (ht : t ∈ F.grid ∧ |t| ≤ F.max)
    (t0 : 0 ≤ t) (t1 : t ≤ 1) (i : Fin n) (hfin : ∀ k, ((x k).coords i).IsFinite)
    (hM : ∀ k, |((x k).coords i).toReal| ≤ M) (m : ℕ) (hmax : casBound F M m ≤ F.max) :
    ∀ j, ∃ r hr, (cas x (fin t ht) m j).coords i = (fin r hr : Fl F) ∧
      |r - bsum m (fun k => ((x (j + k)).coords i).toReal) t| ≤ casBound F M m - M := by
  have hM0 : 0 ≤ M := (abs_nonneg _).trans (hM 0)
  induction m with
  | zero =>
    intro j
    obtain ⟨r, hr, e⟩ := isFinite_iff.1 (hfin j)
    refine ⟨r, hr, e, ?_⟩
    rw [bsum_zero, Nat.add_zero, e]
    simp [casBound]
  | succ m ih =>
    have ih := ih ((casBound_mono hM0 (Nat.le_succ m)).trans hmax)
    intro j
    obtain ⟨a, ha, ea, da⟩ := ih j
    obtain ⟨b, hb, eb, db⟩ := ih (j + 1)
    have hx : ∀ j, |bsum m (fun k => ((x (j + k)).coords i).toReal) t| ≤ M := by
      intro j
      unfold bsum
      calc |∑ k ∈ Finset.range (m + 1), bernstein m k t * ((x (j + k)).coords i).toReal|
          ≤ ∑ k ∈ Finset.range (m + 1), |bernstein m k t * ((x (j + k)).coords i).toReal| :=
            Finset.abs_sum_le_sum_abs _ _
        _ ≤ ∑ k ∈ Finset.range (m + 1), bernstein m k t * M := by
            apply Finset.sum_le_sum
            intro k _
            rw [abs_mul, abs_of_nonneg (bernstein_nonneg t0 t1)]
            exact mul_le_mul_of_nonneg_left (hM _) (bernstein_nonneg t0 t1)
        _ = M := by rw [← Finset.sum_mul, bernstein_sum, one_mul]
    have bnd : ∀ c y : ℝ, |y| ≤ M → |c - y| ≤ casBound F M m - M → |c| ≤ casBound F M m := by
      intro c y h1 h2
      have := abs_add_le y (c - y)
      rw [add_sub_cancel] at this
      linarith
    obtain ⟨r, hr, er, dr⟩ := lerp_error ha hb ht t0 t1 (bnd a _ (hx j) da) (bnd b _ (hx (j + 1)) db)
      ((casBound_succ m).trans hmax)
    refine ⟨r, hr, ?_, ?_⟩
    · rw [cas]
      simp only [coords_add, coords_mul]
      rw [ea, eb, er]
    · rw [bsum_succ]
      have e : (fun k => ((x (j + (k + 1))).coords i).toReal)
          = fun k => ((x (j + 1 + k)).coords i).toReal := by
        funext k
        rw [show j + (k + 1) = j + 1 + k by ring]
      rw [e]
      set X := bsum m (fun k => ((x (j + k)).coords i).toReal) t
      set Y := bsum m (fun k => ((x (j + 1 + k)).coords i).toReal) t
      have h1 := abs_add_le (r - ((1 - t) * a + t * b)) ((1 - t) * (a - X) + t * (b - Y))
      rw [show r - ((1 - t) * a + t * b) + ((1 - t) * (a - X) + t * (b - Y))
        = r - ((1 - t) * X + t * Y) by ring] at h1
      have h2 := abs_add_le ((1 - t) * (a - X)) (t * (b - Y))
      rw [abs_mul, abs_mul, abs_of_nonneg t0, abs_of_nonneg (show 0 ≤ 1 - t by linarith)] at h2
      have h3 := mul_le_mul_of_nonneg_left da (show 0 ≤ 1 - t by linarith)
      have h4 := mul_le_mul_of_nonneg_left db t0
      have h5 := casBound_succ (F := F) (M := M) m
      nlinarith

/-- **C62**: for every format and rounding with unit roundoff `u` and underflow threshold `η`,
every number `N ≥ 1` of control points with coordinates of magnitude at most `M`, and every
parameter in [0, 1], `Bezier::eval` returns a finite point that differs in each coordinate from
the Bezier curve by at most `G^(N-1) (M + (N-1) c) - M`, where `G = (1+u)²(1+u+η)` and
`c = 3(1+u)η` — that is `((1+u)^(3(N-1)) - 1) M` without underflow — provided that
`G^(N-1) (M + (N-1) c)` does not exceed the largest finite value. -/
theorem C62_bezier_error {N : ℕ} (hN : 1 ≤ N) (b : Bezier (PointN (Fl F) n) N) {t M : ℝ}
    (ht : t ∈ F.grid ∧ |t| ≤ F.max) (t0 : 0 ≤ t) (t1 : t ≤ 1)
    (hfin : ∀ k, FinitePoint (b.control_points k))
    (hM : ∀ k i, |((b.control_points k).coords i).toReal| ≤ M) (hM0 : 0 ≤ M)
    (hmax : ((1 + F.u) ^ 2 * (1 + F.u + F.eta)) ^ (N - 1)
      * (M + (N - 1 : ℕ) * (3 * (1 + F.u) * F.eta)) ≤ F.max) :
    ∃ q, b.eval (fin t ht) = some q ∧ ∀ i, (q.coords i).IsFinite ∧
      |(q.coords i).toReal
          - ∑ k : Fin N, bernstein (N - 1) k t * ((b.control_points k).coords i).toReal|
        ≤ ((1 + F.u) ^ 2 * (1 + F.u + F.eta)) ^ (N - 1)
            * (M + (N - 1 : ℕ) * (3 * (1 + F.u) * F.eta)) - M := by
  refine ⟨_, bezier_eval_cas b hN _, fun i => ?_⟩
  have h1 : ∀ k, ((extend b.control_points k).coords i).IsFinite := by
    intro k
    unfold extend
    split_ifs with hk
    · exact hfin _ i
    · exact isFinite_zero
  have h2 : ∀ k, |((extend b.control_points k).coords i).toReal| ≤ M := by
    intro k
    unfold extend
    split_ifs with hk
    · exact hM _ i
    · show |(lit 0 : Fl F).toReal| ≤ M
      rw [lit_zero, toReal_fin, abs_zero]
      exact hM0
  obtain ⟨r, hr, er, dr⟩ := cas_error _ ht t0 t1 i h1 h2 (N - 1) hmax 0
  rw [er]
  refine ⟨trivial, ?_⟩
  have e : bsum (N - 1) (fun k => ((extend b.control_points (0 + k)).coords i).toReal) t
      = ∑ k : Fin N, bernstein (N - 1) k t * ((b.control_points k).coords i).toReal := by
    unfold bsum
    rw [show N - 1 + 1 = N by omega, ← Fin.sum_univ_eq_sum_range (fun k => bernstein (N - 1) k t
      * ((extend b.control_points (0 + k)).coords i).toReal)]
    apply Finset.sum_congr rfl
    intro k _
    rw [Nat.zero_add, extend_lt _ k.isLt]
  rw [e] at dr
  exact dr

/-- The hypotheses of `C62_bezier_error` hold in binary64 for a cubic with coordinates in
[-1000, 1000]. -/
example (cosI acosI : ℝ → ℝ) (powI : ℝ → ℝ → ℝ) : let F := binary64 cosI acosI powI
    ((1 + F.u) ^ 2 * (1 + F.u + F.eta)) ^ (4 - 1)
      * (1000 + (4 - 1 : ℕ) * (3 * (1 + F.u) * F.eta)) ≤ F.max := by
  intro F
  have hu : F.u ≤ 1 / 1000 := by
    show (2 : ℝ) ^ (-(53 : ℕ) : ℤ) ≤ _
    norm_num
  have hu0 := F.u_nonneg
  have he0 := F.eta_nonneg
  have he : F.eta ≤ 1 / 1000 := by
    show (2 : ℝ) ^ ((-1074 : ℤ) - 1) ≤ _
    calc (2 : ℝ) ^ ((-1074 : ℤ) - 1) ≤ 2 ^ (-10 : ℤ) := zpow_le_zpow_right₀ (by norm_num) (by norm_num)
      _ ≤ _ := by norm_num
  refine le_trans ?_ F.max_ge
  have g1 : (1 + F.u) ^ 2 * (1 + F.u + F.eta) ≤ (1 + 1 / 1000) ^ 2 * (1 + 2 / 1000) := by
    exact mul_le_mul (pow_le_pow_left₀ (by linarith) (by linarith) 2) (by linarith) (by linarith)
      (by norm_num)
  calc ((1 + F.u) ^ 2 * (1 + F.u + F.eta)) ^ (4 - 1)
        * (1000 + (4 - 1 : ℕ) * (3 * (1 + F.u) * F.eta))
      ≤ ((1 + 1 / 1000) ^ 2 * (1 + 2 / 1000)) ^ (4 - 1)
        * (1000 + (4 - 1 : ℕ) * (3 * (1 + 1 / 1000) * (1 / 1000))) := by gcongr
    _ ≤ 1024 := by norm_num

end Stroke
