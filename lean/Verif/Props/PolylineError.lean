import Verif.Props.Bezier
import Verif.Props.Quadratic
import Verif.Props.Cubic
import Verif.Props.FloatFlatten
import Mathlib.Analysis.Convex.Deriv

/-!
# Drawing a curve by equal steps (C112), convex control polygons (C113)

The chord between two points of a curve deviates from the curve by at most
`degree (degree - 1) / 8 * (second difference of the control points) * (step)²`; and second
differences of one sign make a convex coordinate function.
-/

namespace Stroke

variable {P : Type} [Point ℝ P] [LawfulPoint P] {N : ℕ}

/-! ### Real sequences -/

/-- If the second differences are at least `-K`, the binomial sum exceeds its chords by at most
`m (m - 1) K / 2 λ (1 - λ) (t - s)²`. -/
theorem bsum_chord (m : ℕ) (x : ℕ → ℝ) {K : ℝ}
    (hK : ∀ k, k + 2 ≤ m → -K ≤ x (k + 2) - 2 * x (k + 1) + x k) {s t l : ℝ}
    (hs : s ∈ Set.Icc (0 : ℝ) 1) (ht : t ∈ Set.Icc (0 : ℝ) 1) (hl : l ∈ Set.Icc (0 : ℝ) 1) :
    bsum m x ((1 - l) * s + l * t) ≤ (1 - l) * bsum m x s + l * bsum m x t
      + m * (m - 1) * K / 2 * (l * (1 - l) * (t - s) ^ 2) := by
  rcases m with _ | _ | m
  · simp only [bsum_zero]
    apply le_of_eq; push_cast; ring
  · simp only [bsum_succ, bsum_zero]
    apply le_of_eq; push_cast; ring
  · set c : ℝ := (m + 2) * (m + 1) * K / 2 with hc
    have d1 : ∀ u, HasDerivAt (fun u => bsum (m + 2) x u + c * u ^ 2)
        ((m + 2 : ℝ) * bsum (m + 1) (fun k => x (k + 1) - x k) u + c * (2 * u)) u := by
      intro u
      have h1 := hasDerivAt_bsum (m + 1) x u
      have h2 := ((hasDerivAt_id u).pow 2).const_mul c
      refine (h1.add h2).congr_deriv ?_
      simp only [id]
      push_cast; ring
    have d2 : ∀ u, HasDerivAt (fun u => (m + 2 : ℝ) * bsum (m + 1) (fun k => x (k + 1) - x k) u
        + c * (2 * u))
        ((m + 2 : ℝ) * ((m + 1 : ℝ) * bsum m (fun k => x (k + 1 + 1) - x (k + 1)
          - (x (k + 1) - x k)) u) + c * 2) u := by
      intro u
      have h1 := (hasDerivAt_bsum m (fun k => x (k + 1) - x k) u).const_mul (m + 2 : ℝ)
      have h2 := ((hasDerivAt_id u).const_mul (2 : ℝ)).const_mul c
      refine (h1.add h2).congr_deriv ?_
      ring
    have e1 : deriv (fun u => bsum (m + 2) x u + c * u ^ 2) = fun u =>
        (m + 2 : ℝ) * bsum (m + 1) (fun k => x (k + 1) - x k) u + c * (2 * u) :=
      funext fun u => (d1 u).deriv
    have conv : ConvexOn ℝ (Set.Icc 0 1) (fun u => bsum (m + 2) x u + c * u ^ 2) := by
      apply convexOn_of_deriv2_nonneg (convex_Icc 0 1)
      · exact fun u _ => (d1 u).continuousAt.continuousWithinAt
      · exact fun u _ => (d1 u).differentiableAt.differentiableWithinAt
      · rw [e1]
        exact fun u _ => (d2 u).differentiableAt.differentiableWithinAt
      · intro u hu
        rw [interior_Icc] at hu
        show 0 ≤ deriv (deriv fun u => bsum (m + 2) x u + c * u ^ 2) u
        rw [e1, (d2 u).deriv]
        have hb : -K ≤ bsum m (fun k => x (k + 1 + 1) - x (k + 1) - (x (k + 1) - x k)) u := by
          have h1 : bsum m (fun _ => -K) u = -K := by
            unfold bsum
            rw [← Finset.sum_mul, bernstein_sum, one_mul]
          rw [← h1]
          unfold bsum
          refine Finset.sum_le_sum fun k hk => ?_
          have := hK k (by have := Finset.mem_range.1 hk; omega)
          exact mul_le_mul_of_nonneg_left (by linarith) (bernstein_nonneg hu.1.le hu.2.le)
        have := mul_le_mul_of_nonneg_left hb (show (0 : ℝ) ≤ (m + 2) * (m + 1) by positivity)
        rw [hc]
        linarith
    have := conv.2 hs ht (sub_nonneg.2 hl.2) hl.1 (by ring)
    simp only [smul_eq_mul] at this
    have e : (1 - l) * s ^ 2 + l * t ^ 2 - ((1 - l) * s + l * t) ^ 2
        = l * (1 - l) * (t - s) ^ 2 := by ring
    have e2 : ((m + 1 + 1 : ℕ) : ℝ) * (((m + 1 + 1 : ℕ) : ℝ) - 1) * K / 2 = c := by
      rw [hc]; push_cast; ring
    rw [e2, ← e]
    linarith

/-! ### The chord of a curve -/

theorem inner_cas (w : EuclideanSpace ℝ (Fin (Point.dim P))) (x : ℕ → P) (t : ℝ) (m j : ℕ) :
    inner ℝ w (toE (cas x t m j)) = bsum m (fun k => inner ℝ w (toE (x (j + k)))) t := by
  induction m generalizing j with
  | zero => rw [bsum_zero]; rfl
  | succ m ih =>
    rw [bsum_succ]
    show inner ℝ w (toE (cas x t m j * (-t + lit 1) + cas x t m (j + 1) * t)) = _
    rw [toE_add, toE_mul, toE_mul, inner_add_right, inner_smul_right, inner_smul_right, ih, ih]
    have : (fun k => inner ℝ w (toE (x (j + (k + 1))))) =
        fun k => inner ℝ w (toE (x (j + 1 + k))) := by
      funext k; congr 3; omega
    rw [this]
    simp only [lit_real, Rat.cast_one]
    ring

theorem cas_chord (x : ℕ → P) (m : ℕ) {A : ℝ} (hA0 : 0 ≤ A)
    (hA : ∀ k, k + 2 ≤ m → ‖toE (x (k + 2)) - (2 : ℝ) • toE (x (k + 1)) + toE (x k)‖ ≤ A)
    {s t l : ℝ} (hs : s ∈ Set.Icc (0 : ℝ) 1) (ht : t ∈ Set.Icc (0 : ℝ) 1)
    (hl : l ∈ Set.Icc (0 : ℝ) 1) :
    ‖toE (cas x ((1 - l) * s + l * t) m 0)
        - ((1 - l) • toE (cas x s m 0) + l • toE (cas x t m 0))‖
      ≤ m * (m - 1) * A / 2 * (l * (1 - l) * (t - s) ^ 2) := by
  set w := toE (cas x ((1 - l) * s + l * t) m 0)
        - ((1 - l) • toE (cas x s m 0) + l • toE (cas x t m 0)) with hw
  have key := bsum_chord m (fun k => inner ℝ w (toE (x (0 + k)))) (K := ‖w‖ * A) (fun k hk => by
    have h1 := abs_real_inner_le_norm w (toE (x (k + 2)) - (2 : ℝ) • toE (x (k + 1)) + toE (x k))
    have h2 := mul_le_mul_of_nonneg_left (hA k hk) (norm_nonneg w)
    rw [inner_add_right, inner_sub_right, inner_smul_right] at h1
    simp only [Nat.zero_add]
    have := neg_abs_le (inner ℝ w (toE (x (k + 2))) - 2 * inner ℝ w (toE (x (k + 1)))
      + inner ℝ w (toE (x k)))
    linarith) hs ht hl
  rw [← inner_cas, ← inner_cas, ← inner_cas] at key
  have e : inner ℝ w w = inner ℝ w (toE (cas x ((1 - l) * s + l * t) m 0))
      - ((1 - l) * inner ℝ w (toE (cas x s m 0)) + l * inner ℝ w (toE (cas x t m 0))) := by
    conv_lhs => rw [hw]
    rw [← hw, inner_sub_right, inner_add_right, inner_smul_right, inner_smul_right]
  rw [real_inner_self_eq_norm_sq] at e
  rcases (norm_nonneg w).eq_or_lt with h0 | h0
  · rw [← h0]
    have hm : (0 : ℝ) ≤ m * (m - 1) := by
      rcases m with _ | m
      · simp
      · push_cast; rw [add_sub_cancel_right]; positivity
    have := mul_nonneg hl.1 (sub_nonneg.2 hl.2)
    positivity
  · have : ‖w‖ * ‖w‖ ≤ ‖w‖ * (m * (m - 1) * A / 2 * (l * (1 - l) * (t - s) ^ 2)) := by
      have e3 : (m : ℝ) * (m - 1) * (‖w‖ * A) / 2 * (l * (1 - l) * (t - s) ^ 2)
          = ‖w‖ * (m * (m - 1) * A / 2 * (l * (1 - l) * (t - s) ^ 2)) := by ring
      rw [← e3]
      nlinarith [key, e]
    exact le_of_mul_le_mul_left this h0

/-- **C112**, between two parameters: the point of a Bezier curve of any degree at a parameter
between `s` and `t` differs from the corresponding point of the chord by at most
`(N - 1)(N - 2) A / 2 * l (1 - l) (t - s)²`, where `A` bounds the change from one leg of the control
polygon to the next. -/
theorem C112_chord (b : Bezier P N) (hN : 1 ≤ N) {A : ℝ} (hA0 : 0 ≤ A)
    (hA : ∀ (k : ℕ) (h : k + 2 < N),
      pdist (b.control_points ⟨k + 1, by omega⟩ - b.control_points ⟨k, by omega⟩)
        (b.control_points ⟨k + 2, h⟩ - b.control_points ⟨k + 1, by omega⟩) ≤ A)
    {s t l : ℝ} (hs : s ∈ Set.Icc (0 : ℝ) 1) (ht : t ∈ Set.Icc (0 : ℝ) 1)
    (hl : l ∈ Set.Icc (0 : ℝ) 1) :
    ∃ p q r, b.eval s = some p ∧ b.eval t = some q ∧ b.eval ((1 - l) * s + l * t) = some r ∧
      pdist r (p * (1 - l) + q * l)
        ≤ (N - 1 : ℕ) * (N - 2 : ℕ) * A / 2 * (l * (1 - l) * (t - s) ^ 2) := by
  refine ⟨_, _, _, bezier_eval_cas b hN _, bezier_eval_cas b hN _, bezier_eval_cas b hN _, ?_⟩
  rw [pdist_eq_norm, toE_add, toE_mul, toE_mul]
  have key := cas_chord (extend b.control_points) (N - 1) hA0 (fun k hk => by
    have := hA k (by omega)
    rw [pdist_eq_norm, toE_sub, toE_sub, ← norm_neg] at this
    rw [extend_lt _ (show k + 2 < N by omega), extend_lt _ (show k + 1 < N by omega),
      extend_lt _ (show k < N by omega)]
    refine le_trans (le_of_eq (congrArg _ ?_)) this
    rw [two_smul]
    abel) hs ht hl
  refine key.trans (le_of_eq ?_)
  rcases N with _ | _ | N
  · omega
  · simp
  · simp only [show N + 1 + 1 - 1 = N + 1 by omega, show N + 1 + 1 - 2 = N by omega]
    push_cast; ring

theorem quarter {l : ℝ} (hl : l ∈ Set.Icc (0 : ℝ) 1) : 0 ≤ l * (1 - l) ∧ l * (1 - l) ≤ 1 / 4 :=
  ⟨mul_nonneg hl.1 (sub_nonneg.2 hl.2), by nlinarith [sq_nonneg (l - 1 / 2)]⟩

theorem nearSegment_of_chord {p q r : P} {l e : ℝ} (hl : l ∈ Set.Icc (0 : ℝ) 1)
    (h : pdist r (p * (1 - l) + q * l) ≤ e) : NearSegment p q r e := by
  refine ⟨_, ⟨l, hl.1, hl.2, rfl⟩, le_trans (le_of_eq ?_) h⟩
  rw [pdist_comm]
  unfold pdist
  congr 1
  refine Finset.sum_congr rfl fun i _ => ?_
  rw [coord_add, coord_mul, coord_mul]
  ring

/-- A parameter in [0, 1] lies in one of the `n` steps. -/
theorem exists_step {n : ℕ} (hn : 1 ≤ n) {t : ℝ} (ht : t ∈ Set.Icc (0 : ℝ) 1) :
    ∃ i < n, ∃ l ∈ Set.Icc (0 : ℝ) 1, t = (1 - l) * ((i : ℝ) / n) + l * (((i : ℝ) + 1) / n) ∧
      (i : ℝ) / n ∈ Set.Icc (0 : ℝ) 1 ∧ ((i : ℝ) + 1) / n ∈ Set.Icc (0 : ℝ) 1 := by
  have n0 : (0 : ℝ) < n := by exact_mod_cast hn
  have main : ∀ i : ℕ, i < n → (i : ℝ) ≤ t * n → t * n ≤ i + 1 →
      ∃ i < n, ∃ l ∈ Set.Icc (0 : ℝ) 1, t = (1 - l) * ((i : ℝ) / n) + l * (((i : ℝ) + 1) / n) ∧
      (i : ℝ) / n ∈ Set.Icc (0 : ℝ) 1 ∧ ((i : ℝ) + 1) / n ∈ Set.Icc (0 : ℝ) 1 := by
    intro i hi h1 h2
    have hi' : (i : ℝ) + 1 ≤ n := by exact_mod_cast hi
    have i0 : (0 : ℝ) ≤ i := Nat.cast_nonneg i
    refine ⟨i, hi, t * n - i, ⟨by linarith, by linarith⟩, ?_, ⟨by positivity, ?_⟩,
      ⟨by positivity, ?_⟩⟩
    · field_simp
      ring
    · rw [div_le_one n0]; linarith
    · rw [div_le_one n0]; exact hi'
  rcases ht.2.eq_or_lt with h1 | h1
  · refine main (n - 1) (by omega) ?_ ?_
    · rw [h1, one_mul]; exact_mod_cast Nat.sub_le n 1
    · rw [h1, one_mul]
      have : ((n - 1 : ℕ) : ℝ) = n - 1 := by push_cast [hn]; ring
      rw [this]; linarith
  · have h0 : 0 ≤ t * n := mul_nonneg ht.1 n0.le
    refine main ⌊t * n⌋₊ ?_ (Nat.floor_le h0) (Nat.lt_floor_add_one _).le
    rw [Nat.floor_lt h0]
    nlinarith

/-- **C112**, equal steps: the polyline through `eval(0), eval(1/n), ..., eval(1)` comes within
`(N - 1)(N - 2) A / (8 n²)` of every point of the curve. -/
theorem C112_bezier (b : Bezier P N) (hN : 1 ≤ N) {A : ℝ} (hA0 : 0 ≤ A)
    (hA : ∀ (k : ℕ) (h : k + 2 < N),
      pdist (b.control_points ⟨k + 1, by omega⟩ - b.control_points ⟨k, by omega⟩)
        (b.control_points ⟨k + 2, h⟩ - b.control_points ⟨k + 1, by omega⟩) ≤ A)
    {n : ℕ} (hn : 1 ≤ n) {t : ℝ} (t0 : 0 ≤ t) (t1 : t ≤ 1) :
    ∃ i < n, ∃ p q r, b.eval ((i : ℝ) / n) = some p ∧ b.eval (((i : ℝ) + 1) / n) = some q ∧
      b.eval t = some r ∧
      NearSegment p q r ((N - 1 : ℕ) * (N - 2 : ℕ) * A / (8 * n ^ 2)) := by
  obtain ⟨i, hi, l, hl, e, h1, h2⟩ := exists_step hn ⟨t0, t1⟩
  obtain ⟨p, q, r, hp, hq, hr, hd⟩ := C112_chord b hN hA0 hA h1 h2 hl
  rw [← e] at hr
  refine ⟨i, hi, p, q, r, hp, hq, hr, nearSegment_of_chord hl (hd.trans ?_)⟩
  have n0 : (0 : ℝ) < n := by exact_mod_cast hn
  rw [show ((i : ℝ) + 1) / n - i / n = 1 / n by ring]
  have hq := (quarter hl).2
  have : l * (1 - l) * (1 / (n : ℝ)) ^ 2 ≤ 1 / 4 * (1 / (n : ℝ)) ^ 2 :=
    mul_le_mul_of_nonneg_right hq (by positivity)
  refine (mul_le_mul_of_nonneg_left this (by positivity)).trans (le_of_eq ?_)
  field_simp
  ring

/-- **C112**, the number of steps for a given tolerance. -/
theorem C112_steps (b : Bezier P N) (hN : 1 ≤ N) {A tol : ℝ} (hA0 : 0 ≤ A) (htol : 0 < tol)
    (hA : ∀ (k : ℕ) (h : k + 2 < N),
      pdist (b.control_points ⟨k + 1, by omega⟩ - b.control_points ⟨k, by omega⟩)
        (b.control_points ⟨k + 2, h⟩ - b.control_points ⟨k + 1, by omega⟩) ≤ A)
    {n : ℕ} (hn : 1 ≤ n)
    (hsteps : Real.sqrt ((N - 1 : ℕ) * (N - 2 : ℕ) * A / (8 * tol)) ≤ n) {t : ℝ} (t0 : 0 ≤ t)
    (t1 : t ≤ 1) :
    ∃ i < n, ∃ p q r, b.eval ((i : ℝ) / n) = some p ∧ b.eval (((i : ℝ) + 1) / n) = some q ∧
      b.eval t = some r ∧ NearSegment p q r tol := by
  obtain ⟨i, hi, p, q, r, hp, hq, hr, d, hd, hle⟩ := C112_bezier b hN hA0 hA hn t0 t1
  refine ⟨i, hi, p, q, r, hp, hq, hr, d, hd, hle.trans ?_⟩
  have n0 : (0 : ℝ) < n := by exact_mod_cast hn
  rw [Real.sqrt_le_left n0.le, div_le_iff₀ (by positivity)] at hsteps
  rw [div_le_iff₀ (by positivity)]
  linarith

/-- **C112**, quadratic curves: the exact deviation from the chord. -/
theorem C112_quadratic_exact (q : QuadraticBezier P) (s t l : ℝ) (i : ℕ) :
    coord (q.eval ((1 - l) * s + l * t)) i
      = (1 - l) * coord (q.eval s) i + l * coord (q.eval t) i
        - l * (1 - l) * (t - s) ^ 2 * (coord q.start i - 2 * coord q.ctrl i + coord q.end_ i) := by
  rw [C10_eval, C10_eval, C10_eval]
  ring

/-- **C112**, `QuadraticBezier`: the polyline with `n` equal steps is within `A / (4 n²)`. -/
theorem C112_quadratic (q : QuadraticBezier P) {A : ℝ}
    (hA : pdist (q.ctrl - q.start) (q.end_ - q.ctrl) ≤ A) {n : ℕ} (hn : 1 ≤ n) {t : ℝ}
    (t0 : 0 ≤ t) (t1 : t ≤ 1) :
    ∃ i < n, NearSegment (q.eval ((i : ℝ) / n)) (q.eval (((i : ℝ) + 1) / n)) (q.eval t)
      (A / (4 * n ^ 2)) := by
  obtain ⟨i, hi, p, p', r, h1, h2, h3, h4⟩ := C112_bezier
    (Bezier.new ![q.start, q.ctrl, q.end_]) (by norm_num) ((pdist_nonneg _ _).trans hA)
    (fun k h => by
      have : k = 0 := by omega
      subst this
      exact hA) hn t0 t1
  rw [C32_quadratic_eval, Option.some.injEq] at h1 h2 h3
  refine ⟨i, hi, ?_⟩
  rw [← h1, ← h2, ← h3] at h4
  obtain ⟨d, hd, hle⟩ := h4
  refine ⟨d, hd, hle.trans (le_of_eq ?_)⟩
  norm_num
  ring

/-- **C112**, `CubicBezier`: the polyline with `n` equal steps is within `3 A / (4 n²)`. -/
theorem C112_cubic (c : CubicBezier P) {A : ℝ}
    (hA : pdist (c.ctrl1 - c.start) (c.ctrl2 - c.ctrl1) ≤ A)
    (hA' : pdist (c.ctrl2 - c.ctrl1) (c.end_ - c.ctrl2) ≤ A) {n : ℕ} (hn : 1 ≤ n) {t : ℝ}
    (t0 : 0 ≤ t) (t1 : t ≤ 1) :
    ∃ i < n, NearSegment (c.eval ((i : ℝ) / n)) (c.eval (((i : ℝ) + 1) / n)) (c.eval t)
      (3 * A / (4 * n ^ 2)) := by
  obtain ⟨i, hi, p, p', r, h1, h2, h3, h4⟩ := C112_bezier
    (Bezier.new ![c.start, c.ctrl1, c.ctrl2, c.end_]) (by norm_num) ((pdist_nonneg _ _).trans hA)
    (fun k h => by
      have : k = 0 ∨ k = 1 := by omega
      rcases this with rfl | rfl
      · exact hA
      · exact hA') hn t0 t1
  rw [C32_cubic_eval, Option.some.injEq] at h1 h2 h3
  refine ⟨i, hi, ?_⟩
  rw [← h1, ← h2, ← h3] at h4
  obtain ⟨d, hd, hle⟩ := h4
  refine ⟨d, hd, hle.trans (le_of_eq ?_)⟩
  norm_num
  ring

/-- Moving the ends of a chord by at most `e` moves its points by at most `e`. -/
theorem chord_moved {p q p' q' r : P} {l d e : ℝ} (hl : l ∈ Set.Icc (0 : ℝ) 1)
    (h : pdist r (p * (1 - l) + q * l) ≤ d) (hp : pdist p' p ≤ e) (hq : pdist q' q ≤ e) :
    NearSegment p' q' r (d + e) := by
  apply nearSegment_of_chord hl
  have h1 : pdist (p * (1 - l) + q * l) (p' * (1 - l) + q' * l) ≤ e := by
    rw [pdist_eq_norm] at hp hq ⊢
    have e1 : toE (p * (1 - l) + q * l) - toE (p' * (1 - l) + q' * l)
        = -((1 - l) • (toE p' - toE p) + l • (toE q' - toE q)) := by
      simp only [toE_add, toE_mul, smul_sub]; abel
    rw [e1, norm_neg]
    have h2 := norm_add_le ((1 - l) • (toE p' - toE p)) (l • (toE q' - toE q))
    rw [norm_smul, norm_smul, Real.norm_of_nonneg (sub_nonneg.2 hl.2),
      Real.norm_of_nonneg hl.1] at h2
    nlinarith [mul_le_mul_of_nonneg_left hp (sub_nonneg.2 hl.2), mul_le_mul_of_nonneg_left hq hl.1]
  linarith [pdist_triangle r (p * (1 - l) + q * l) (p' * (1 - l) + q' * l)]

section Float
open Fl
variable {F : FloatFormat} {n : ℕ}

/-- **C112** in floating point, `QuadraticBezier::eval`: between two float parameters the exact curve
stays within `A (t - s)² / 4` plus the rounding error of the two computed points of the segment
between them. -/
theorem C112_float_quadratic (q : QuadraticBezier (PointN (Fl F) n)) {s t M A l : ℝ}
    (hs : s ∈ F.grid ∧ |s| ≤ F.max) (ht : t ∈ F.grid ∧ |t| ≤ F.max)
    (hs' : s ∈ Set.Icc (0 : ℝ) 1) (ht' : t ∈ Set.Icc (0 : ℝ) 1) (hl : l ∈ Set.Icc (0 : ℝ) 1)
    (hu : F.u ≤ 1 / 1024) (he : F.eta ≤ 1 / 1024) (hM : 0 ≤ M)
    (b1 : BoundedBy M q.start) (b2 : BoundedBy M q.ctrl) (b3 : BoundedBy M q.end_)
    (hmax : 3 * M + 1 ≤ F.max)
    (hA : pdist (q.ctrl.real - q.start.real) (q.end_.real - q.ctrl.real) ≤ A) :
    NearSegment (q.eval (fin s hs)).real (q.eval (fin t ht)).real
      (q.real.eval ((1 - l) * s + l * t))
      (A / 4 * (t - s) ^ 2 + Real.sqrt n * (((1 + F.u) ^ 6 - 1) * M + (13 * M + 11) * F.eta)) := by
  have hA0 : 0 ≤ A := (pdist_nonneg _ _).trans hA
  obtain ⟨p, p', r, h1, h2, h3, h4⟩ := C112_chord
    (Bezier.new ![q.real.start, q.real.ctrl, q.real.end_]) (by norm_num) hA0
    (fun k h => by
      have : k = 0 := by omega
      subst this
      exact hA) hs' ht' hl
  rw [C32_quadratic_eval, Option.some.injEq] at h1 h2 h3
  rw [← h1, ← h2, ← h3] at h4
  have E0 : 0 ≤ ((1 + F.u) ^ 6 - 1) * M + (13 * M + 11) * F.eta := by
    have := one_le_pow₀ (show 1 ≤ 1 + F.u by linarith [F.u_nonneg]) (n := 6)
    have := F.eta_nonneg
    exact add_nonneg (mul_nonneg (by linarith) hM) (by positivity)
  have near : ∀ {x : ℝ} (hx : x ∈ F.grid ∧ |x| ≤ F.max), x ∈ Set.Icc (0 : ℝ) 1 →
      pdist (q.eval (fin x hx)).real (q.real.eval x)
        ≤ Real.sqrt n * (((1 + F.u) ^ 6 - 1) * M + (13 * M + 11) * F.eta) := by
    intro x hx hx'
    refine pdist_of_exact E0 fun i => ?_
    rw [quadratic_real_eval]
    exact (C67_quadratic_eval q hx hx'.1 hx'.2 hu he b1 b2 b3 hmax i).2
  refine chord_moved hl (h4.trans ?_) (near hs hs') (near ht ht')
  have := mul_le_mul_of_nonneg_right (quarter hl).2 (sq_nonneg (t - s))
  have := mul_le_mul_of_nonneg_left this hA0
  norm_num
  linarith

/-- **C112** in floating point, `CubicBezier::eval`. -/
theorem C112_float_cubic (c : CubicBezier (PointN (Fl F) n)) {s t M A l : ℝ}
    (hs : s ∈ F.grid ∧ |s| ≤ F.max) (ht : t ∈ F.grid ∧ |t| ≤ F.max)
    (hs' : s ∈ Set.Icc (0 : ℝ) 1) (ht' : t ∈ Set.Icc (0 : ℝ) 1) (hl : l ∈ Set.Icc (0 : ℝ) 1)
    (hu : F.u ≤ 1 / 1024) (he : F.eta ≤ 1 / 1024) (hM : 0 ≤ M)
    (b1 : BoundedBy M c.start) (b2 : BoundedBy M c.ctrl1) (b3 : BoundedBy M c.ctrl2)
    (b4 : BoundedBy M c.end_) (hmax : 4 * M + 1 ≤ F.max)
    (hA : pdist (c.ctrl1.real - c.start.real) (c.ctrl2.real - c.ctrl1.real) ≤ A)
    (hA' : pdist (c.ctrl2.real - c.ctrl1.real) (c.end_.real - c.ctrl2.real) ≤ A) :
    NearSegment (c.eval (fin s hs)).real (c.eval (fin t ht)).real
      (c.real.eval ((1 - l) * s + l * t))
      (3 / 4 * A * (t - s) ^ 2
        + Real.sqrt n * (((1 + F.u) ^ 9 - 1) * M + (54 * M + 10) * F.eta)) := by
  have hA0 : 0 ≤ A := (pdist_nonneg _ _).trans hA
  obtain ⟨p, p', r, h1, h2, h3, h4⟩ := C112_chord
    (Bezier.new ![c.real.start, c.real.ctrl1, c.real.ctrl2, c.real.end_]) (by norm_num) hA0
    (fun k h => by
      have : k = 0 ∨ k = 1 := by omega
      rcases this with rfl | rfl
      · exact hA
      · exact hA') hs' ht' hl
  rw [C32_cubic_eval, Option.some.injEq] at h1 h2 h3
  rw [← h1, ← h2, ← h3] at h4
  have E0 : 0 ≤ ((1 + F.u) ^ 9 - 1) * M + (54 * M + 10) * F.eta := by
    have := one_le_pow₀ (show 1 ≤ 1 + F.u by linarith [F.u_nonneg]) (n := 9)
    have := F.eta_nonneg
    exact add_nonneg (mul_nonneg (by linarith) hM) (by positivity)
  have near : ∀ {x : ℝ} (hx : x ∈ F.grid ∧ |x| ≤ F.max), x ∈ Set.Icc (0 : ℝ) 1 →
      pdist (c.eval (fin x hx)).real (c.real.eval x)
        ≤ Real.sqrt n * (((1 + F.u) ^ 9 - 1) * M + (54 * M + 10) * F.eta) := by
    intro x hx hx'
    refine pdist_of_exact E0 fun i => ?_
    rw [cubic_real_eval]
    exact (C67_cubic_eval c hx hx'.1 hx'.2 hu he b1 b2 b3 b4 hmax i).2
  refine chord_moved hl (h4.trans ?_) (near hs hs') (near ht ht')
  have := mul_le_mul_of_nonneg_right (quarter hl).2 (sq_nonneg (t - s))
  have := mul_le_mul_of_nonneg_left this hA0
  norm_num
  linarith

end Float

/-- The hypotheses are met, and the bound is attained: the parabola (0,0), (1,2), (2,0) with 2 steps.
The second difference has length 4, so the bound is 1/4; the point at `t = 1/4`, (1/2, 3/4), is exactly
1/4 above the middle of the chord from (0,0) to (1,1). -/
example : let q := QuadraticBezier.new (pt2 0 0) (pt2 1 2) (pt2 2 0)
    pdist (q.ctrl - q.start) (q.end_ - q.ctrl) ≤ 4 ∧
    coord (q.eval (1 / 4 : ℝ)) 1
      - (coord (q.eval (0 : ℝ)) 1 + coord (q.eval (1 / 2 : ℝ)) 1) / 2 = 4 / (4 * 2 ^ 2) := by
  intro q
  have c0 : ∀ x y : ℝ, coord (pt2 x y) 0 = x := fun x y => rfl
  have c1 : ∀ x y : ℝ, coord (pt2 x y) 1 = y := fun x y => rfl
  constructor
  · unfold pdist
    rw [show Point.dim (PointN ℝ 2) = 2 from rfl, Real.sqrt_le_left (by norm_num)]
    simp only [Finset.sum_range_succ, Finset.sum_range_zero, coord_sub, q, QuadraticBezier.new, c0,
      c1]
    norm_num
  · rw [C10_eval, C10_eval, C10_eval]
    simp only [q, QuadraticBezier.new, c1]
    norm_num

/-! ### Convexity -/

/-- **C113**: if the legs of the control polygon turn upwards on an axis (their slopes increase),
the coordinate is a convex function of the parameter: the curve never lies above its chords. -/
theorem C113_bezier (b : Bezier P N) (i : ℕ)
    (hconv : ∀ (k : ℕ) (h : k + 2 < N),
      coord (b.control_points ⟨k + 1, by omega⟩) i - coord (b.control_points ⟨k, by omega⟩) i
        ≤ coord (b.control_points ⟨k + 2, h⟩) i - coord (b.control_points ⟨k + 1, by omega⟩) i)
    {s t l : ℝ} (hs : s ∈ Set.Icc (0 : ℝ) 1) (ht : t ∈ Set.Icc (0 : ℝ) 1)
    (hl : l ∈ Set.Icc (0 : ℝ) 1) {p q r : P} (hp : b.eval s = some p) (hq : b.eval t = some q)
    (hr : b.eval ((1 - l) * s + l * t) = some r) :
    coord r i ≤ (1 - l) * coord p i + l * coord q i := by
  rcases Nat.eq_zero_or_pos N with hN | hN
  · subst hN
    rw [C30_eval_empty] at hp
    cases hp
  rw [bezier_eval_cas b hN, Option.some.injEq] at hp hq hr
  rw [← hp, ← hq, ← hr, coord_cas, coord_cas, coord_cas]
  have := bsum_chord (N - 1) (fun k => coord (extend b.control_points (0 + k)) i) (K := 0)
    (fun k hk => by
      have := hconv k (by omega)
      simp only [Nat.zero_add]
      rw [extend_lt _ (show k + 2 < N by omega), extend_lt _ (show k + 1 < N by omega),
        extend_lt _ (show k < N by omega)]
      linarith) hs ht hl
  linarith

/-- **C113**, quadratic and cubic curves. -/
theorem C113_specialised (q : QuadraticBezier P) (c : CubicBezier P) (i : ℕ)
    {s t l : ℝ} (hs : s ∈ Set.Icc (0 : ℝ) 1) (ht : t ∈ Set.Icc (0 : ℝ) 1)
    (hl : l ∈ Set.Icc (0 : ℝ) 1) :
    (coord q.ctrl i - coord q.start i ≤ coord q.end_ i - coord q.ctrl i →
      coord (q.eval ((1 - l) * s + l * t)) i
        ≤ (1 - l) * coord (q.eval s) i + l * coord (q.eval t) i) ∧
    (coord c.ctrl1 i - coord c.start i ≤ coord c.ctrl2 i - coord c.ctrl1 i →
      coord c.ctrl2 i - coord c.ctrl1 i ≤ coord c.end_ i - coord c.ctrl2 i →
      coord (c.eval ((1 - l) * s + l * t)) i
        ≤ (1 - l) * coord (c.eval s) i + l * coord (c.eval t) i) := by
  constructor
  · intro h
    exact C113_bezier (Bezier.new ![q.start, q.ctrl, q.end_]) i (fun k hk => by
      have : k = 0 := by omega
      subst this
      exact h) hs ht hl (C32_quadratic_eval _ _ _ _) (C32_quadratic_eval _ _ _ _)
      (C32_quadratic_eval _ _ _ _)
  · intro h h'
    exact C113_bezier (Bezier.new ![c.start, c.ctrl1, c.ctrl2, c.end_]) i (fun k hk => by
      have : k = 0 ∨ k = 1 := by omega
      rcases this with rfl | rfl
      · exact h
      · exact h') hs ht hl (C32_cubic_eval _ _ _ _ _) (C32_cubic_eval _ _ _ _ _)
      (C32_cubic_eval _ _ _ _ _)

/-- The hypothesis of C113 is met by a non-trivial cubic. -/
example : let c := CubicBezier.new (pt2 0 3) (pt2 1 0) (pt2 2 0) (pt2 3 4)
    coord c.ctrl1 1 - coord c.start 1 ≤ coord c.ctrl2 1 - coord c.ctrl1 1 ∧
    coord c.ctrl2 1 - coord c.ctrl1 1 ≤ coord c.end_ 1 - coord c.ctrl2 1 := by
  intro c
  have c1 : ∀ x y : ℝ, coord (pt2 x y) 1 = y := fun x y => rfl
  simp only [c, CubicBezier.new, c1]
  norm_num

end Stroke
