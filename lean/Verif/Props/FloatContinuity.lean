import Verif.Props.FloatEval
import Verif.Props.FloatStability
import Verif.Props.Easing
import Verif.Lemmas.Ieee

/-!
# Computed curves do not jump (C118)

Evaluation in floating point at nearby parameters gives nearby points, and along sorted control
coordinates the computed coordinate goes back by rounding errors at most.
-/

namespace Stroke

open Fl

variable {F : FloatFormat} {n : ℕ}

/-- Bernstein sums are Lipschitz on [0, 1]. -/
theorem bsum_lipschitz {m : ℕ} {x : ℕ → ℝ} {D : ℝ} (hD : ∀ k < m, |x (k + 1) - x k| ≤ D)
    {s t : ℝ} (hs : 0 ≤ s ∧ s ≤ 1) (ht : 0 ≤ t ∧ t ≤ 1) :
    |bsum m x t - bsum m x s| ≤ m * D * |t - s| := by
  obtain _ | m := m
  · simp [bsum, bernstein]
  have hder : ∀ y ∈ Set.Icc (0 : ℝ) 1, HasDerivWithinAt (bsum (m + 1) x)
      ((m + 1) * bsum m (fun k => x (k + 1) - x k) y) (Set.Icc 0 1) y :=
    fun y _ => (hasDerivAt_bsum m x y).hasDerivWithinAt
  have hbound : ∀ y ∈ Set.Icc (0 : ℝ) 1,
      ‖((m : ℝ) + 1) * bsum m (fun k => x (k + 1) - x k) y‖ ≤ ((m + 1 : ℕ) : ℝ) * D := by
    intro y hy
    rw [Real.norm_eq_abs, abs_mul, abs_of_pos (by positivity : (0 : ℝ) < (m : ℝ) + 1)]
    push_cast
    refine mul_le_mul_of_nonneg_left ?_ (by positivity)
    unfold bsum
    have hb : ∀ k ∈ Finset.range (m + 1), 0 ≤ bernstein m k y := by
      intro k _
      unfold bernstein
      have : 0 ≤ 1 - y := by linarith [hy.2]
      have := hy.1
      positivity
    calc |∑ k ∈ Finset.range (m + 1), bernstein m k y * (x (k + 1) - x k)|
        ≤ ∑ k ∈ Finset.range (m + 1), |bernstein m k y * (x (k + 1) - x k)| :=
          Finset.abs_sum_le_sum_abs _ _
      _ ≤ ∑ k ∈ Finset.range (m + 1), bernstein m k y * D := by
          refine Finset.sum_le_sum fun k hk => ?_
          rw [abs_mul, abs_of_nonneg (hb k hk)]
          exact mul_le_mul_of_nonneg_left (hD k (Finset.mem_range.1 hk)) (hb k hk)
      _ = D := by
          rw [← Finset.sum_mul, bernstein_sum, one_mul]
  have := Convex.norm_image_sub_le_of_norm_hasDerivWithin_le hder hbound (convex_Icc 0 1)
    (x := s) (y := t) hs ht
  simpa [Real.norm_eq_abs] using this

/-- A computed coordinate that is near a Bernstein sum. -/
theorem near_bsum {m : ℕ} {x : ℕ → ℝ} {D E s t p q : ℝ} (hs : 0 ≤ s ∧ s ≤ 1) (ht : 0 ≤ t ∧ t ≤ 1)
    (hp : |p - bsum m x s| ≤ E) (hq : |q - bsum m x t| ≤ E) :
    ((∀ k < m, |x (k + 1) - x k| ≤ D) → |q - p| ≤ m * D * |t - s| + 2 * E) ∧
    ((∀ k < m, x k ≤ x (k + 1)) → s ≤ t → p ≤ q + 2 * E) := by
  rw [abs_le] at hp hq
  refine ⟨fun hD => ?_, fun hx hst => ?_⟩
  · have := abs_le.1 (bsum_lipschitz hD hs ht)
    rw [abs_le]
    constructor <;> linarith [this.1, this.2, hp.1, hp.2, hq.1, hq.2]
  · have : bsum m x s ≤ bsum m x t := by
      rcases eq_or_lt_of_le hst with rfl | hlt
      · exact le_rfl
      · by_cases h0 : x 0 < x m
        · exact (bsum_strictMono hx h0 hs ht hlt).le
        · -- all values are the same
          have hc : ∀ k ≤ m, x k = x 0 := by
            have hup : ∀ k ≤ m, x 0 ≤ x k := by
              intro k
              induction k with
              | zero => intro _; exact le_rfl
              | succ k ih => intro hk; exact (ih (by omega)).trans (hx k (by omega))
            have hdn : ∀ j k, k + j = m → x k ≤ x m := by
              intro j
              induction j with
              | zero => intro k hk; rw [show k = m by omega]
              | succ j ih => intro k hk; exact (hx k (by omega)).trans (ih (k + 1) (by omega))
            intro k hk
            exact le_antisymm ((hdn (m - k) k (by omega)).trans (not_lt.1 h0)) (hup k hk)
          have e : ∀ y, bsum m x y = x 0 := by
            intro y
            unfold bsum
            rw [Finset.sum_congr rfl fun k hk => by
              rw [hc k (by have := Finset.mem_range.1 hk; omega)], ← Finset.sum_mul, bernstein_sum,
              one_mul]
          rw [e, e]
    linarith [hp.1, hp.2, hq.1, hq.2]

/-- **C118**, generic curves: the points computed at two parameters differ on each axis by at
most degree × longest step of the control polygon on that axis × difference of the parameters,
plus twice the rounding error; if the control points are sorted on the axis the computed
coordinate goes back by at most twice the rounding error. -/
theorem C118_bezier {N : ℕ} (hN : 1 ≤ N) (b : Bezier (PointN (Fl F) n) N) {s t M E : ℝ}
    (hs : s ∈ F.grid ∧ |s| ≤ F.max) (ht : t ∈ F.grid ∧ |t| ≤ F.max) (s01 : 0 ≤ s ∧ s ≤ 1)
    (t01 : 0 ≤ t ∧ t ≤ 1) (hb : ∀ k, BoundedBy M (b.control_points k)) (hM0 : 0 ≤ M)
    (hE : E = ((1 + F.u) ^ 2 * (1 + F.u + F.eta)) ^ (N - 1)
      * (M + (N - 1 : ℕ) * (3 * (1 + F.u) * F.eta)) - M) (hmax : M + E ≤ F.max) :
    ∃ p q, b.eval (fin s hs) = some p ∧ b.eval (fin t ht) = some q ∧ ∀ i,
      (p.coords i).IsFinite ∧ (q.coords i).IsFinite ∧
      (∀ D, (∀ (k : ℕ) (h : k + 1 < N), |((b.control_points ⟨k + 1, h⟩).coords i).toReal
          - ((b.control_points ⟨k, by omega⟩).coords i).toReal| ≤ D) →
        |(q.coords i).toReal - (p.coords i).toReal| ≤ (N - 1 : ℕ) * D * |t - s| + 2 * E) ∧
      ((∀ (k : ℕ) (h : k + 1 < N), ((b.control_points ⟨k, by omega⟩).coords i).toReal
          ≤ ((b.control_points ⟨k + 1, h⟩).coords i).toReal) →
        s ≤ t → (p.coords i).toReal ≤ (q.coords i).toReal + 2 * E) := by
  obtain ⟨p, hp, hpi⟩ := C62_bezier_error hN b hs s01.1 s01.2 (fun k i => (hb k i).1)
    (fun k i => (hb k i).2) hM0 (by linarith)
  obtain ⟨q, hq, hqi⟩ := C62_bezier_error hN b ht t01.1 t01.2 (fun k i => (hb k i).1)
    (fun k i => (hb k i).2) hM0 (by linarith)
  refine ⟨p, q, hp, hq, fun i => ⟨(hpi i).1, (hqi i).1, ?_⟩⟩
  have hsum : ∀ y : ℝ, ∑ k : Fin N, bernstein (N - 1) k y * ((b.control_points k).coords i).toReal
      = bsum (N - 1) (fun k => ((extend b.control_points k).coords i).toReal) y := by
    intro y
    unfold bsum
    rw [show N - 1 + 1 = N by omega, ← Fin.sum_univ_eq_sum_range
      (fun k => bernstein (N - 1) k y * ((extend b.control_points k).coords i).toReal)]
    exact Finset.sum_congr rfl fun k _ => by rw [extend_lt b.control_points k.2]
  have h1 := (hpi i).2
  have h2 := (hqi i).2
  rw [hsum, ← hE] at h1 h2
  refine ⟨fun D hD => (near_bsum s01 t01 h1 h2).1 fun k hk => ?_,
    fun hx => (near_bsum (D := 0) s01 t01 h1 h2).2 fun k hk => ?_⟩
  · rw [extend_lt b.control_points (k := k) (by omega),
      extend_lt b.control_points (k := k + 1) (by omega)]
    exact hD k (by omega)
  · rw [extend_lt b.control_points (k := k) (by omega),
      extend_lt b.control_points (k := k + 1) (by omega)]
    exact hx k (by omega)

/-- The quadratic polynomial as a Bernstein sum. -/
theorem quad_bsum (x : ℕ → ℝ) (t : ℝ) :
    (1 - t) ^ 2 * x 0 + 2 * t * (1 - t) * x 1 + t ^ 2 * x 2 = bsum 2 x t := by
  simp only [bsum, bernstein, Finset.sum_range_succ, Finset.range_zero, Finset.sum_empty]
  norm_num [Nat.choose]

/-- The cubic polynomial as a Bernstein sum. -/
theorem cubic_bsum (x : ℕ → ℝ) (t : ℝ) :
    (1 - t) ^ 3 * x 0 + 3 * t * (1 - t) ^ 2 * x 1 + 3 * t ^ 2 * (1 - t) * x 2 + t ^ 3 * x 3
      = bsum 3 x t := by
  simp only [bsum, bernstein, Finset.sum_range_succ, Finset.range_zero, Finset.sum_empty]
  norm_num [Nat.choose]

/-- **C118** for both evaluation functions of a quadratic curve. -/
theorem C118_quadratic (q : QuadraticBezier (PointN (Fl F) n)) {s t M : ℝ}
    (hs : s ∈ F.grid ∧ |s| ≤ F.max) (ht : t ∈ F.grid ∧ |t| ≤ F.max) (s01 : 0 ≤ s ∧ s ≤ 1)
    (t01 : 0 ≤ t ∧ t ≤ 1) (hu : F.u ≤ 1 / 1024) (he : F.eta ≤ 1 / 1024)
    (h1 : BoundedBy M q.start) (h2 : BoundedBy M q.ctrl) (h3 : BoundedBy M q.end_)
    (hmax : 3 * M + 2 ≤ F.max) (i : Fin n) (x0 x1 x2 : ℝ) (e0 : (q.start.coords i).toReal = x0)
    (e1 : (q.ctrl.coords i).toReal = x1) (e2 : (q.end_.coords i).toReal = x2) :
    (∀ D, |x1 - x0| ≤ D → |x2 - x1| ≤ D →
      |((q.eval (fin t ht)).coords i).toReal - ((q.eval (fin s hs)).coords i).toReal|
        ≤ 2 * D * |t - s| + 2 * (((1 + F.u) ^ 6 - 1) * M + (13 * M + 11) * F.eta) ∧
      |((q.evalCasteljau (fin t ht)).coords i).toReal
          - ((q.evalCasteljau (fin s hs)).coords i).toReal|
        ≤ 2 * D * |t - s| + 2 * (13 * F.u * M + 9 * F.eta)) ∧
    (x0 ≤ x1 → x1 ≤ x2 → s ≤ t →
      ((q.eval (fin s hs)).coords i).toReal ≤ ((q.eval (fin t ht)).coords i).toReal
        + 2 * (((1 + F.u) ^ 6 - 1) * M + (13 * M + 11) * F.eta) ∧
      ((q.evalCasteljau (fin s hs)).coords i).toReal
        ≤ ((q.evalCasteljau (fin t ht)).coords i).toReal + 2 * (13 * F.u * M + 9 * F.eta)) := by
  have a1 := (C67_quadratic_eval q hs s01.1 s01.2 hu he h1 h2 h3 (by linarith) i).2
  have a2 := (C67_quadratic_eval q ht t01.1 t01.2 hu he h1 h2 h3 (by linarith) i).2
  have b1 := (C67_quadratic_casteljau q hs s01.1 s01.2 hu he h1 h2 h3 hmax i).2
  have b2 := (C67_quadratic_casteljau q ht t01.1 t01.2 hu he h1 h2 h3 hmax i).2
  rw [e0, e1, e2] at a1 a2 b1 b2
  let x : ℕ → ℝ := fun k => if k = 0 then x0 else if k = 1 then x1 else x2
  have hx : ∀ y, (1 - y) ^ 2 * x0 + 2 * y * (1 - y) * x1 + y ^ 2 * x2 = bsum 2 x y :=
    fun y => quad_bsum x y
  rw [hx] at a1 a2 b1 b2
  constructor
  · intro D d1 d2
    have hD : ∀ k < 2, |x (k + 1) - x k| ≤ D := by
      intro k hk
      interval_cases k
      · exact d1
      · exact d2
    have g1 := (near_bsum s01 t01 a1 a2).1 hD
    have g2 := (near_bsum s01 t01 b1 b2).1 hD
    push_cast at g1 g2
    exact ⟨g1, g2⟩
  · intro d1 d2 hst
    have hD : ∀ k < 2, x k ≤ x (k + 1) := by
      intro k hk
      interval_cases k
      · exact d1
      · exact d2
    exact ⟨(near_bsum (D := 0) s01 t01 a1 a2).2 hD hst, (near_bsum (D := 0) s01 t01 b1 b2).2 hD hst⟩

/-- **C118** for both evaluation functions of a cubic curve. -/
theorem C118_cubic (c : CubicBezier (PointN (Fl F) n)) {s t M : ℝ}
    (hs : s ∈ F.grid ∧ |s| ≤ F.max) (ht : t ∈ F.grid ∧ |t| ≤ F.max) (s01 : 0 ≤ s ∧ s ≤ 1)
    (t01 : 0 ≤ t ∧ t ≤ 1) (hu : F.u ≤ 1 / 1024) (he : F.eta ≤ 1 / 1024)
    (h1 : BoundedBy M c.start) (h2 : BoundedBy M c.ctrl1) (h3 : BoundedBy M c.ctrl2)
    (h4 : BoundedBy M c.end_) (hM0 : 0 ≤ M) (hmax : 4 * M + 2 ≤ F.max) (i : Fin n)
    (x0 x1 x2 x3 : ℝ) (e0 : (c.start.coords i).toReal = x0)
    (e1 : (c.ctrl1.coords i).toReal = x1) (e2 : (c.ctrl2.coords i).toReal = x2)
    (e3 : (c.end_.coords i).toReal = x3) :
    (∀ D, |x1 - x0| ≤ D → |x2 - x1| ≤ D → |x3 - x2| ≤ D →
      |((c.eval (fin t ht)).coords i).toReal - ((c.eval (fin s hs)).coords i).toReal|
        ≤ 3 * D * |t - s| + 2 * (((1 + F.u) ^ 9 - 1) * M + (54 * M + 10) * F.eta) ∧
      |((c.evalCasteljau (fin t ht)).coords i).toReal
          - ((c.evalCasteljau (fin s hs)).coords i).toReal|
        ≤ 3 * D * |t - s| + 2 * (20 * F.u * M + 14 * F.eta)) ∧
    (x0 ≤ x1 → x1 ≤ x2 → x2 ≤ x3 → s ≤ t →
      ((c.eval (fin s hs)).coords i).toReal ≤ ((c.eval (fin t ht)).coords i).toReal
        + 2 * (((1 + F.u) ^ 9 - 1) * M + (54 * M + 10) * F.eta) ∧
      ((c.evalCasteljau (fin s hs)).coords i).toReal
        ≤ ((c.evalCasteljau (fin t ht)).coords i).toReal + 2 * (20 * F.u * M + 14 * F.eta)) := by
  have a1 := (C67_cubic_eval c hs s01.1 s01.2 hu he h1 h2 h3 h4 (by linarith) i).2
  have a2 := (C67_cubic_eval c ht t01.1 t01.2 hu he h1 h2 h3 h4 (by linarith) i).2
  have b1 := (C67_cubic_casteljau c hs s01.1 s01.2 hu he h1 h2 h3 h4 (by linarith) i).2
  have b2 := (C67_cubic_casteljau c ht t01.1 t01.2 hu he h1 h2 h3 h4 (by linarith) i).2
  rw [e0, e1, e2, e3] at a1 a2 b1 b2
  let x : ℕ → ℝ := fun k => if k = 0 then x0 else if k = 1 then x1 else if k = 2 then x2 else x3
  have hx : ∀ y, (1 - y) ^ 3 * x0 + 3 * y * (1 - y) ^ 2 * x1 + 3 * y ^ 2 * (1 - y) * x2 + y ^ 3 * x3
      = bsum 3 x y := fun y => cubic_bsum x y
  rw [hx] at a1 a2 b1 b2
  constructor
  · intro D d1 d2 d3
    have hD : ∀ k < 3, |x (k + 1) - x k| ≤ D := by
      intro k hk
      interval_cases k
      · exact d1
      · exact d2
      · exact d3
    have g1 := (near_bsum s01 t01 a1 a2).1 hD
    have g2 := (near_bsum s01 t01 b1 b2).1 hD
    push_cast at g1 g2
    exact ⟨g1, g2⟩
  · intro d1 d2 d3 hst
    have hD : ∀ k < 3, x k ≤ x (k + 1) := by
      intro k hk
      interval_cases k
      · exact d1
      · exact d2
      · exact d3
    exact ⟨(near_bsum (D := 0) s01 t01 a1 a2).2 hD hst, (near_bsum (D := 0) s01 t01 b1 b2).2 hD hst⟩

/-- **C118**: the generic type and the specialised types compute the same curve up to rounding
(in exact arithmetic they agree, C32). -/
theorem C118_agree_quadratic (q : QuadraticBezier (PointN (Fl F) n)) {t M E : ℝ}
    (ht : t ∈ F.grid ∧ |t| ≤ F.max) (t01 : 0 ≤ t ∧ t ≤ 1) (hu : F.u ≤ 1 / 1024)
    (he : F.eta ≤ 1 / 1024) (h1 : BoundedBy M q.start) (h2 : BoundedBy M q.ctrl)
    (h3 : BoundedBy M q.end_) (hM0 : 0 ≤ M) (hmax : 3 * M + 2 ≤ F.max)
    (hE : E = ((1 + F.u) ^ 2 * (1 + F.u + F.eta)) ^ 2 * (M + 2 * (3 * (1 + F.u) * F.eta)) - M)
    (hmaxE : M + E ≤ F.max) :
    ∃ p, (Bezier.new ![q.start, q.ctrl, q.end_]).eval (fin t ht) = some p ∧ ∀ i,
      |(p.coords i).toReal - ((q.eval (fin t ht)).coords i).toReal|
        ≤ E + (((1 + F.u) ^ 6 - 1) * M + (13 * M + 11) * F.eta) := by
  have hb : ∀ k, BoundedBy M ((Bezier.new ![q.start, q.ctrl, q.end_]).control_points k) := by
    intro k; fin_cases k <;> assumption
  obtain ⟨p, hp, hpi⟩ := C62_bezier_error (by norm_num) (Bezier.new ![q.start, q.ctrl, q.end_]) ht
    t01.1 t01.2 (fun k i => (hb k i).1) (fun k i => (hb k i).2) hM0
    (by push_cast; norm_num; linarith)
  refine ⟨p, hp, fun i => ?_⟩
  have a := abs_le.1 (C67_quadratic_eval q ht t01.1 t01.2 hu he h1 h2 h3 (by linarith) i).2
  have e : ∑ k : Fin 3, bernstein 2 k t
      * (((Bezier.new ![q.start, q.ctrl, q.end_]).control_points k).coords i).toReal
      = (1 - t) ^ 2 * (q.start.coords i).toReal
        + 2 * t * (1 - t) * (q.ctrl.coords i).toReal + t ^ 2 * (q.end_.coords i).toReal := by
    simp [Fin.sum_univ_succ, bernstein, Bezier.new, Nat.choose]
    ring
  have g : |(p.coords i).toReal - ∑ k : Fin 3, bernstein 2 k t
      * (((Bezier.new ![q.start, q.ctrl, q.end_]).control_points k).coords i).toReal|
      ≤ ((1 + F.u) ^ 2 * (1 + F.u + F.eta)) ^ 2 * (M + ((2 : ℕ) : ℝ) * (3 * (1 + F.u) * F.eta)) - M :=
    (hpi i).2
  rw [e, show ((2 : ℕ) : ℝ) = 2 by norm_num, ← hE] at g
  have g := abs_le.1 g
  rw [abs_le]
  constructor <;> linarith [a.1, a.2, g.1, g.2]

/-- **C118**: the same for cubic curves. -/
theorem C118_agree_cubic (c : CubicBezier (PointN (Fl F) n)) {t M E : ℝ}
    (ht : t ∈ F.grid ∧ |t| ≤ F.max) (t01 : 0 ≤ t ∧ t ≤ 1) (hu : F.u ≤ 1 / 1024)
    (he : F.eta ≤ 1 / 1024) (h1 : BoundedBy M c.start) (h2 : BoundedBy M c.ctrl1)
    (h3 : BoundedBy M c.ctrl2) (h4 : BoundedBy M c.end_) (hM0 : 0 ≤ M) (hmax : 4 * M + 2 ≤ F.max)
    (hE : E = ((1 + F.u) ^ 2 * (1 + F.u + F.eta)) ^ 3 * (M + 3 * (3 * (1 + F.u) * F.eta)) - M)
    (hmaxE : M + E ≤ F.max) :
    ∃ p, (Bezier.new ![c.start, c.ctrl1, c.ctrl2, c.end_]).eval (fin t ht) = some p ∧ ∀ i,
      |(p.coords i).toReal - ((c.eval (fin t ht)).coords i).toReal|
        ≤ E + (((1 + F.u) ^ 9 - 1) * M + (54 * M + 10) * F.eta) := by
  have hb : ∀ k, BoundedBy M
      ((Bezier.new ![c.start, c.ctrl1, c.ctrl2, c.end_]).control_points k) := by
    intro k; fin_cases k <;> assumption
  obtain ⟨p, hp, hpi⟩ := C62_bezier_error (by norm_num)
    (Bezier.new ![c.start, c.ctrl1, c.ctrl2, c.end_]) ht
    t01.1 t01.2 (fun k i => (hb k i).1) (fun k i => (hb k i).2) hM0
    (by push_cast; norm_num; linarith)
  refine ⟨p, hp, fun i => ?_⟩
  have a := abs_le.1 (C67_cubic_eval c ht t01.1 t01.2 hu he h1 h2 h3 h4 (by linarith) i).2
  have e : ∑ k : Fin 4, bernstein 3 k t
      * (((Bezier.new ![c.start, c.ctrl1, c.ctrl2, c.end_]).control_points k).coords i).toReal
      = (1 - t) ^ 3 * (c.start.coords i).toReal + 3 * t * (1 - t) ^ 2 * (c.ctrl1.coords i).toReal
        + 3 * t ^ 2 * (1 - t) * (c.ctrl2.coords i).toReal + t ^ 3 * (c.end_.coords i).toReal := by
    simp [Fin.sum_univ_succ, bernstein, Bezier.new, Nat.choose]
    ring
  have g : |(p.coords i).toReal - ∑ k : Fin 4, bernstein 3 k t
      * (((Bezier.new ![c.start, c.ctrl1, c.ctrl2, c.end_]).control_points k).coords i).toReal|
      ≤ ((1 + F.u) ^ 2 * (1 + F.u + F.eta)) ^ 3 * (M + ((3 : ℕ) : ℝ) * (3 * (1 + F.u) * F.eta)) - M :=
    (hpi i).2
  rw [e, show ((3 : ℕ) : ℝ) = 3 by norm_num, ← hE] at g
  have g := abs_le.1 g
  rw [abs_le]
  constructor <;> linarith [a.1, a.2, g.1, g.2]

end Stroke
