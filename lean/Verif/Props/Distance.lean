import Verif.Lemmas.SearchDistance
import Verif.Lemmas.ArcLength
import Verif.Props.Bezier

/-!
# `distance_to_point` of the Bezier types (C16, C27, C40)

The search samples the parameters `i/64` for i < 64 and then refines around the best of them,
with a step that can leave [0, 1] to the left.  The upper half of the claims holds, the lower
half ("never below the true distance") is false.
-/

namespace Stroke

variable {P : Type} [Point ℝ P] [LawfulPoint P] {N : ℕ}

/-- A Bezier curve of degree `N - 1` whose consecutive control points are at most `D` apart
moves at most `(N - 1) D (y - x)` between the parameters `x` and `y`. -/
theorem bezier_lipschitz (x : ℕ → P) (m : ℕ) (D : ℝ) (hD : ∀ k < m, pdist (x k) (x (k + 1)) ≤ D)
    (u w : ℝ) (h0 : 0 ≤ u) (huw : u ≤ w) (h1 : w ≤ 1) :
    pdist (cas x u m 0) (cas x w m 0) ≤ m * D * (w - u) := by
  rcases Nat.eq_zero_or_pos m with rfl | hm
  · simp [cas, pdist_eq_norm]
  obtain ⟨n, rfl⟩ : ∃ n, m = n + 1 := ⟨m - 1, by omega⟩
  have hder : ∀ t, HasPointDerivAt (fun t => cas x t (n + 1) 0)
      (fun i => (n + 1 : ℝ) * bsum n (fun k => coord (x (k + 1)) i - coord (x k) i) t) t := by
    intro t i _
    simp only [coord_cas, Nat.zero_add]
    exact hasDerivAt_bsum n _ t
  have hnorm : ∀ t ∈ Set.Icc (0 : ℝ) 1, ‖(WithLp.toLp 2 fun i : Fin (Point.dim P) =>
      (n + 1 : ℝ) * bsum n (fun k => coord (x (k + 1)) i.val - coord (x k) i.val) t :
      EuclideanSpace ℝ (Fin (Point.dim P)))‖ ≤ (n + 1 : ℝ) * D := by
    intro t ht
    have e : (WithLp.toLp 2 fun i : Fin (Point.dim P) =>
        (n + 1 : ℝ) * bsum n (fun k => coord (x (k + 1)) i.val - coord (x k) i.val) t :
        EuclideanSpace ℝ (Fin (Point.dim P)))
        = (n + 1 : ℝ) • ∑ k ∈ Finset.range (n + 1),
          bernstein n k t • (toE (x (k + 1)) - toE (x k)) := by
      ext i
      simp [bsum]
    rw [e, norm_smul, Real.norm_of_nonneg (by positivity)]
    apply mul_le_mul_of_nonneg_left _ (by positivity)
    refine (norm_sum_le _ _).trans ?_
    calc ∑ k ∈ Finset.range (n + 1), ‖bernstein n k t • (toE (x (k + 1)) - toE (x k))‖
        ≤ ∑ k ∈ Finset.range (n + 1), bernstein n k t * D := by
          apply Finset.sum_le_sum
          intro k hk
          have hb := bernstein_nonneg (n := n) (k := k) ht.1 ht.2
          rw [norm_smul, Real.norm_of_nonneg hb]
          apply mul_le_mul_of_nonneg_left _ hb
          rw [← pdist_eq_norm, pdist_comm]
          exact hD k (by simpa using hk)
      _ = D := by rw [← Finset.sum_mul, bernstein_sum, one_mul]
  have := (convex_Icc (0 : ℝ) 1).norm_image_sub_le_of_norm_hasDerivWithin_le
    (f := fun t => toE (cas x t (n + 1) 0)) (C := (n + 1 : ℝ) * D)
    (fun t _ => (hasDerivAt_toE (hder t)).hasDerivWithinAt) hnorm
    (show u ∈ Set.Icc (0 : ℝ) 1 from ⟨h0, huw.trans h1⟩)
    (show w ∈ Set.Icc (0 : ℝ) 1 from ⟨h0.trans huw, h1⟩)
  rw [Real.norm_of_nonneg (by linarith)] at this
  rw [pdist_comm, pdist_eq_norm]
  push_cast
  exact this

/-! ### The generic curve -/

/-- **C40** (upper half, any `N ≥ 1`): the result is the distance to the point at some
parameter between -1953/4096 and 63/64 of the (extended) curve, and it exceeds the distance
to every point of the curve on [0, 1] by at most `(N - 1) D / 64`, where `D` bounds the
distance of consecutive control points.  Missing for the full claim: "never below the true
distance", which fails (`C40_false`). -/
theorem C40_partial (b : Bezier P N) (hN : 1 ≤ N) (p : P) (D : ℝ)
    (hD : ∀ k (hk : k + 1 < N), pdist (b.control_points ⟨k, by omega⟩)
      (b.control_points ⟨k + 1, hk⟩) ≤ D) :
    ∃ f : ℝ → P, (∀ t, b.eval t = some (f t)) ∧ ∃ r, b.distanceToPoint p = some r ∧
      (∃ u, -(1953 / 4096) ≤ u ∧ u ≤ 63 / 64 ∧ r = pdist (f u) p) ∧
      ∀ t, 0 ≤ t → t ≤ 1 → r ≤ pdist (f t) p + ((N - 1 : ℕ) : ℝ) * D / 64 := by
  have hev : b.eval = fun t : ℝ => some (cas (extend b.control_points) t (N - 1) 0) :=
    funext fun t => bezier_eval_cas b hN t
  refine ⟨_, fun t => bezier_eval_cas b hN t, ?_⟩
  obtain ⟨r, hr, hu, hs⟩ := searchDistance_spec
    (fun t => cas (extend b.control_points) t (N - 1) 0) p
  have h0 : cas (extend b.control_points) (0 : ℝ) (N - 1) 0 = b.control_points ⟨0, hN⟩ := by
    have := (C31_endpoints b hN).1
    rw [bezier_eval_cas b hN] at this
    exact Option.some.inj this
  refine ⟨r, ?_, hu, fun t ht0 ht1 => ?_⟩
  · rw [bezier_distance_eq, Arr.get?_lt _ hN]
    simp only [Option.bind_some]
    rw [hev]
    simp only [h0] at hr
    exact hr
  · refine searchDistance_upper (f := fun t => cas (extend b.control_points) t (N - 1) 0)
      (V := ((N - 1 : ℕ) : ℝ) * D) hs ?_ ht0 ht1
    intro x y hx hxy hy
    refine bezier_lipschitz _ _ D ?_ x y hx hxy hy
    intro k hk
    rw [extend_lt _ (by omega), extend_lt _ (by omega)]
    exact hD k (by omega)

/-! ### Quadratic and cubic curves -/

/-- **C16** (upper half).  Missing for the full claim: "never below the true distance", which
fails (`C16_false`). -/
theorem C16_partial (q : QuadraticBezier P) (p : P) (D : ℝ) (h1 : pdist q.start q.ctrl ≤ D)
    (h2 : pdist q.ctrl q.end_ ≤ D) :
    ∃ r, q.distanceToPoint p = some r ∧
      (∃ u : ℝ, -(1953 / 4096) ≤ u ∧ u ≤ 63 / 64 ∧ r = pdist (q.eval u) p) ∧
      ∀ t : ℝ, 0 ≤ t → t ≤ 1 → r ≤ pdist (q.eval t) p + 2 * D / 64 := by
  obtain ⟨r, hr, hu, hs⟩ := searchDistance_spec (fun t => q.eval t) p
  refine ⟨r, ?_, hu, fun t ht0 ht1 => ?_⟩
  · rw [quadratic_distance_eq]
    rw [(C10_endpoints q).1] at hr
    exact hr
  · refine searchDistance_upper hs ?_ ht0 ht1
    intro x y hx hxy hy
    have hcas : ∀ t : ℝ, q.eval t = cas (extend ![q.start, q.ctrl, q.end_]) t 2 0 := by
      intro t
      have := C32_quadratic_eval q.start q.ctrl q.end_ t
      rw [bezier_eval_cas _ (by omega)] at this
      exact (Option.some.inj this).symm
    have := bezier_lipschitz (extend ![q.start, q.ctrl, q.end_]) 2 D ?_ x y hx hxy hy
    · simp only [hcas]
      exact_mod_cast this
    · intro k hk
      rw [extend_lt _ (by omega), extend_lt _ (by omega)]
      interval_cases k
      · exact h1
      · exact h2

/-- **C27** (upper half).  Missing for the full claim: "never below the true distance", which
fails (`C27_false`). -/
theorem C27_partial (c : CubicBezier P) (p : P) (D : ℝ) (h1 : pdist c.start c.ctrl1 ≤ D)
    (h2 : pdist c.ctrl1 c.ctrl2 ≤ D) (h3 : pdist c.ctrl2 c.end_ ≤ D) :
    ∃ r, c.distanceToPoint p = some r ∧
      (∃ u : ℝ, -(1953 / 4096) ≤ u ∧ u ≤ 63 / 64 ∧ r = pdist (c.eval u) p) ∧
      ∀ t : ℝ, 0 ≤ t → t ≤ 1 → r ≤ pdist (c.eval t) p + 3 * D / 64 := by
  obtain ⟨r, hr, hu, hs⟩ := searchDistance_spec (fun t => c.eval t) p
  refine ⟨r, ?_, hu, fun t ht0 ht1 => ?_⟩
  · rw [cubic_distance_eq]
    rw [(C20_endpoints c).1] at hr
    exact hr
  · refine searchDistance_upper hs ?_ ht0 ht1
    intro x y hx hxy hy
    have hcas : ∀ t : ℝ, c.eval t = cas (extend ![c.start, c.ctrl1, c.ctrl2, c.end_]) t 3 0 := by
      intro t
      have := C32_cubic_eval c.start c.ctrl1 c.ctrl2 c.end_ t
      rw [bezier_eval_cas _ (by omega)] at this
      exact (Option.some.inj this).symm
    have := bezier_lipschitz (extend ![c.start, c.ctrl1, c.ctrl2, c.end_]) 3 D ?_ x y hx hxy hy
    · simp only [hcas]
      exact_mod_cast this
    · intro k hk
      rw [extend_lt _ (by omega), extend_lt _ (by omega)]
      interval_cases k
      · exact h1
      · exact h2
      · exact h3

/-- Test data: the straight quadratic curve `t ↦ t`. -/
noncomputable def quadId : QuadraticBezier (PointN ℝ 1) :=
  QuadraticBezier.new (PointN.new fun _ => 0) (PointN.new fun _ => 1 / 2) (PointN.new fun _ => 1)

theorem quadId_eval (t : ℝ) : quadId.eval t = PointN.new fun _ => t := by
  apply point_ext
  intro i
  rw [C10_eval]
  rcases Nat.eq_zero_or_pos i with rfl | hi
  · simp only [quadId, QuadraticBezier.new, coord_pn1]; ring
  · have h : ∀ p : PointN ℝ 1, coord p i = 0 := fun p =>
      coord_out p (show ¬ i < 1 by omega)
    simp only [h]; ring

/-- The bound of `C16_partial` is attained: the last parameter is never sampled, and
the distance from the end of the curve `t ↦ t` to the curve is reported as 1/64. -/
theorem C16_resolution_attained :
    quadId.distanceToPoint (PointN.new fun _ => 1) = some (1 / 64 : ℝ) ∧
      quadId.eval (1 : ℝ) = PointN.new fun _ => 1 := by
  refine ⟨?_, quadId_eval 1⟩
  obtain ⟨r, hr, ⟨u, _, hu, hru⟩, hle⟩ := C16_partial quadId (PointN.new fun _ => 1) (1 / 2)
    (by simp only [quadId, QuadraticBezier.new, pdist_pn1]; norm_num [abs_of_nonneg])
    (by simp only [quadId, QuadraticBezier.new, pdist_pn1]; norm_num [abs_of_nonneg])
  have h1 := hle 1 zero_le_one le_rfl
  simp only [quadId_eval, pdist_pn1] at h1 hru
  rw [abs_of_nonpos (by linarith)] at hru
  norm_num at h1
  rw [hr]
  congr 1
  linarith

/-! ### The lower half is false

The parabola `x = 4096 t + 1176`, `y = (4096 t + 1176)(4096 t - 64)` stays at distance at least
1176 from the origin for t in [0, 1], but passes through the origin at t = -1176/4096.  The
refinement pass evaluates exactly this parameter. -/

omit [LawfulPoint P] in
theorem pdist_sq (p q : P) : pdist p q ^ 2
    = ∑ i ∈ Finset.range (Point.dim P), (coord p i - coord q i) ^ 2 := by
  unfold pdist
  exact Real.sq_sqrt (Finset.sum_nonneg fun i _ => sq_nonneg _)

theorem escape_far {d t : ℝ} (hd : 0 ≤ d)
    (h : d ^ 2 = (4096 * t + 1176) ^ 2 * (1 + (4096 * t - 64) ^ 2)) (h0 : 0 ≤ t) : 1176 ≤ d := by
  refine abs_le_of_sq_le_sq' ?_ hd |>.2
  rw [h]
  have : (1176 : ℝ) ^ 2 ≤ (4096 * t + 1176) ^ 2 := by nlinarith
  nlinarith [sq_nonneg ((4096 * t + 1176) * (4096 * t - 64))]

/-- The parabola as a quadratic curve. -/
noncomputable def escapeQuad : QuadraticBezier (PointN ℝ 2) :=
  QuadraticBezier.new (pt2 1176 (-75264)) (pt2 3224 2202112) (pt2 5272 21256704)

/-- **C16** (lower half) is false of the code: `distance_to_point` returns 0 for a point
that is at least 1176 away from every point of the curve. -/
theorem C16_false : escapeQuad.distanceToPoint (pt2 0 0) = some (0 : ℝ) ∧
    ∀ t : ℝ, 0 ≤ t → t ≤ 1 → 1176 ≤ pdist (escapeQuad.eval t) (pt2 0 0) := by
  have hd : ∀ t : ℝ, pdist (escapeQuad.eval t) (pt2 0 0) ^ 2
      = (4096 * t + 1176) ^ 2 * (1 + (4096 * t - 64) ^ 2) := by
    intro t
    rw [pdist_sq]
    show ∑ i ∈ Finset.range 2, _ = _
    simp only [Finset.sum_range_succ, Finset.sum_range_zero, C10_eval, escapeQuad,
      QuadraticBezier.new, coord_pt2_0, coord_pt2_1]
    ring
  constructor
  · have := searchDistance_escape hd
    rw [(C10_endpoints escapeQuad).1] at this
    exact this
  · intro t h0 _
    exact escape_far (pdist_nonneg _ _) (hd t) h0

/-- The same parabola as a cubic curve. -/
noncomputable def escapeCubic : CubicBezier (PointN ℝ 2) :=
  CubicBezier.new (pt2 1176 (-75264)) (pt2 (7624 / 3) (4328960 / 3)) (pt2 (11720 / 3) (25660928 / 3))
    (pt2 5272 21256704)

/-- **C27** (lower half) is false of the code: `distance_to_point` returns 0 for a point
that is at least 1176 away from every point of the curve. -/
theorem C27_false : escapeCubic.distanceToPoint (pt2 0 0) = some (0 : ℝ) ∧
    ∀ t : ℝ, 0 ≤ t → t ≤ 1 → 1176 ≤ pdist (escapeCubic.eval t) (pt2 0 0) := by
  have hd : ∀ t : ℝ, pdist (escapeCubic.eval t) (pt2 0 0) ^ 2
      = (4096 * t + 1176) ^ 2 * (1 + (4096 * t - 64) ^ 2) := by
    intro t
    rw [pdist_sq]
    show ∑ i ∈ Finset.range 2, _ = _
    simp only [Finset.sum_range_succ, Finset.sum_range_zero, C20_eval, escapeCubic,
      CubicBezier.new, coord_pt2_0, coord_pt2_1]
    ring
  constructor
  · have := searchDistance_escape hd
    rw [(C20_endpoints escapeCubic).1] at this
    exact this
  · intro t h0 _
    exact escape_far (pdist_nonneg _ _) (hd t) h0

/-- **C40** (lower half) is false of the code: `distance_to_point` returns 0 for a point
that is at least 1176 away from every point of the curve. -/
theorem C40_false : ∃ b : Bezier (PointN ℝ 2) 3, b.distanceToPoint (pt2 0 0) = some (0 : ℝ) ∧
    ∀ t : ℝ, 0 ≤ t → t ≤ 1 → ∃ q, b.eval t = some q ∧ 1176 ≤ pdist q (pt2 0 0) := by
  refine ⟨Bezier.new ![pt2 1176 (-75264), pt2 3224 2202112, pt2 5272 21256704], ?_, ?_⟩
  · have h := C16_false.1
    rw [quadratic_distance_eq] at h
    rw [bezier_distance_eq, Arr.get?_lt _ (by omega)]
    simp only [Option.bind_some]
    rw [show Bezier.eval (Bezier.new ![pt2 1176 (-75264), pt2 3224 2202112, pt2 5272 21256704])
      = fun t : ℝ => some (escapeQuad.eval t) from funext fun t => C32_quadratic_eval _ _ _ t]
    exact h
  · intro t h0 h1
    exact ⟨_, C32_quadratic_eval _ _ _ t, C16_false.2 t h0 h1⟩

end Stroke
