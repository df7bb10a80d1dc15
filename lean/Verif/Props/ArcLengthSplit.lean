import Verif.Props.ArcLengthShape
import Verif.Props.Tangents

/-!
# Arc length and subdivision (C95)
-/

set_option linter.unusedSectionVars false

namespace Stroke

variable {P : Type} [Point ℝ P] [LawfulPoint P] {N : ℕ}

/-! ### Polylines -/

theorem polyline_join (f : ℝ → P) {m n : ℕ} (hm : 1 ≤ m) (hn : m < n) :
    polylineLength (fun i : ℕ => f ((i : ℝ) / n)) 1 n
      = polylineLength (fun i : ℕ => f ((m : ℝ) / n * ((i : ℝ) / m))) 1 m
        + pdist (f ((m : ℝ) / n)) (f ((m + 1 : ℝ) / n))
        + polylineLength (fun i : ℕ => f ((m : ℝ) / n + (1 - (m : ℝ) / n) * ((i : ℝ) / (n - m : ℕ))))
            1 (n - m) := by
  have hm0 : (m : ℝ) ≠ 0 := by positivity
  have hn0 : (n : ℝ) ≠ 0 := by
    have : 0 < n := by omega
    positivity
  have hd : ((n - m : ℕ) : ℝ) ≠ 0 := by
    have : 0 < n - m := by omega
    positivity
  have e1 : ∀ i : ℕ, (m : ℝ) / n * ((i : ℝ) / m) = (i : ℝ) / n := fun i => by field_simp
  have e2 : ∀ i : ℕ, (m : ℝ) / n + (1 - (m : ℝ) / n) * ((i : ℝ) / (n - m : ℕ))
      = ((m + i : ℕ) : ℝ) / n := fun i => by
    have : ((n - m : ℕ) : ℝ) = n - m := by rw [Nat.cast_sub hn.le]
    rw [this] at hd ⊢
    push_cast
    field_simp
  unfold polylineLength
  simp only [e1, e2]
  rw [← Finset.sum_Ico_consecutive _ hm hn.le, ← Finset.sum_Ico_consecutive _ (Nat.le_succ m) hn,
    Nat.Ico_succ_singleton, Finset.sum_singleton, add_assoc]
  congr 1
  congr 1
  · push_cast; rfl
  · rw [Finset.sum_Ico_eq_sum_range, Finset.sum_Ico_eq_sum_range]
    rw [show n - m - 1 = n - m.succ by omega]
    refine Finset.sum_congr rfl fun i _ => ?_
    rw [show m.succ + i = m + (1 + i) by omega, show m + (1 + i) + 1 = m + (1 + i + 1) by omega]

/-! ### The sampled length -/

/-- **C95**, what holds for `Bezier`: splitting at `m/n`, the lengths `arclen(m)` of the first and
`arclen(n - m)` of the second part and the first chord of the second part add up to `arclen(n)`.
Missing for the full claim: the sum without that chord, which is false (`C95_false`). -/
theorem C95_partial (b : Bezier P N) (hN : 1 ≤ N) {m n : ℕ} (hm : 1 ≤ m) (hn : m < n) :
    ∃ (l r : Bezier P N) (L Ll Lr : ℝ) (p q : P), b.split ((m : ℝ) / n) = some (l, r) ∧
      b.arclen n = some L ∧ l.arclen m = some Ll ∧ r.arclen (n - m) = some Lr ∧
      b.eval ((m : ℝ) / n) = some p ∧ b.eval ((m + 1 : ℝ) / n) = some q ∧
      L = Ll + pdist p q + Lr := by
  obtain ⟨l, r, hs, h⟩ := C33_split b ((m : ℝ) / n)
  obtain ⟨f, hf, ha⟩ := C39_actual b hN
  obtain ⟨fl, hfl, hal⟩ := C39_actual l hN
  obtain ⟨fr, hfr, har⟩ := C39_actual r hN
  have el : ∀ s, fl s = f ((m : ℝ) / n * s) := fun s => by
    have := (h hN s).1
    rw [hfl, hf] at this
    exact Option.some.inj this
  have er : ∀ s, fr s = f ((m : ℝ) / n + (1 - (m : ℝ) / n) * s) := fun s => by
    have := (h hN s).2
    rw [hfr, hf] at this
    exact Option.some.inj this
  refine ⟨l, r, _, _, _, _, _, hs, ha n, hal m, har (n - m), hf _, hf _, ?_⟩
  rw [polyline_join f hm hn]
  simp only [el, er]

/-- **C95**, what holds for the specialised curves. -/
theorem C95_specialised_partial (q : QuadraticBezier P) (c : CubicBezier P) {m n : ℕ} (hm : 1 ≤ m)
    (hn : m < n) :
    (∃ L Ll Lr : ℝ, q.arclen n = some L ∧ (q.split ((m : ℝ) / n)).1.arclen m = some Ll ∧
      (q.split ((m : ℝ) / n)).2.arclen (n - m) = some Lr ∧
      L = Ll + pdist (q.eval ((m : ℝ) / n)) (q.eval ((m + 1 : ℝ) / n)) + Lr) ∧
    (∃ L Ll Lr : ℝ, c.arclen n = some L ∧ (c.split ((m : ℝ) / n)).1.arclen m = some Ll ∧
      (c.split ((m : ℝ) / n)).2.arclen (n - m) = some Lr ∧
      L = Ll + pdist (c.eval ((m : ℝ) / n)) (c.eval ((m + 1 : ℝ) / n)) + Lr) := by
  refine ⟨⟨_, _, _, C15_actual q n, C15_actual _ m, C15_actual _ (n - m), ?_⟩,
    ⟨_, _, _, C26_actual c n, C26_actual _ m, C26_actual _ (n - m), ?_⟩⟩
  · rw [polyline_join (fun t => q.eval t) hm hn]
    simp only [C11_split]
  · rw [polyline_join (fun t => c.eval t) hm hn]
    simp only [C21_split]

/-- **C95** is false of the code: whenever the first chord of the second part is not degenerate, the
lengths of the parts add up to less than the length of the whole. -/
theorem C95_false (b : Bezier P N) (hN : 1 ≤ N) {m n : ℕ} (hm : 1 ≤ m) (hn : m < n)
    (h : b.eval ((m : ℝ) / n) ≠ b.eval ((m + 1 : ℝ) / n)) :
    ∃ (l r : Bezier P N) (L Ll Lr : ℝ), b.split ((m : ℝ) / n) = some (l, r) ∧
      b.arclen n = some L ∧ l.arclen m = some Ll ∧ r.arclen (n - m) = some Lr ∧ Ll + Lr < L := by
  obtain ⟨l, r, L, Ll, Lr, p, q, h1, h2, h3, h4, h5, h6, h7⟩ := C95_partial b hN hm hn
  refine ⟨l, r, L, Ll, Lr, h1, h2, h3, h4, ?_⟩
  have : 0 < pdist p q := by
    refine lt_of_le_of_ne (pdist_nonneg _ _) fun he => h ?_
    rw [h5, h6, pdist_eq_zero.1 he.symm]
  linarith

/-! ### The limit -/

theorem arcLength_split {dim : ℕ} {v : ℝ → ℕ → ℝ} (hv : ∀ i < dim, Continuous fun s => v s i) {t : ℝ}
    (t0 : 0 ≤ t) (t1 : t ≤ 1) :
    arcLength dim (fun s i => t * v (t * s) i) + arcLength dim (fun s i => (1 - t) * v (t + (1 - t) * s) i)
      = arcLength dim v := by
  have hc : Continuous fun s => Real.sqrt (∑ i ∈ Finset.range dim, v s i ^ 2) := by
    apply Continuous.sqrt
    apply continuous_finsetSum
    intro i hi
    exact (hv i (Finset.mem_range.1 hi)).pow 2
  have scale : ∀ (c : ℝ), 0 ≤ c → ∀ w : ℕ → ℝ, Real.sqrt (∑ i ∈ Finset.range dim, (c * w i) ^ 2)
      = c * Real.sqrt (∑ i ∈ Finset.range dim, w i ^ 2) := by
    intro c hc0 w
    simp only [mul_pow]
    rw [← Finset.mul_sum, Real.sqrt_mul (sq_nonneg _), Real.sqrt_sq hc0]
  unfold arcLength
  simp only [scale t t0, scale (1 - t) (by linarith)]
  rw [intervalIntegral.integral_const_mul, intervalIntegral.integral_const_mul, ← smul_eq_mul,
    ← smul_eq_mul,
    intervalIntegral.smul_integral_comp_mul_left
      (f := fun s => Real.sqrt (∑ i ∈ Finset.range dim, v s i ^ 2)),
    intervalIntegral.smul_integral_comp_add_mul
      (f := fun s => Real.sqrt (∑ i ∈ Finset.range dim, v s i ^ 2))]
  rw [mul_zero, mul_zero, mul_one, mul_one, add_zero, add_sub_cancel]
  exact intervalIntegral.integral_add_adjacent_intervals (hc.intervalIntegrable _ _)
    (hc.intervalIntegrable _ _)

/-- **C95**, in the limit: for every `t` in [0, 1], the lengths to which `arclen(n)` of the two parts
of `split(t)` converge add up to the length to which `arclen(n)` of the whole converges. -/
theorem C95_limit (b : Bezier P N) (hN : 1 ≤ N) (t : ℝ) (t0 : 0 ≤ t) (t1 : t ≤ 1) :
    ∃ (l r : Bezier P N) (L Ll Lr : ℕ → ℝ) (x xl xr : ℝ), b.split t = some (l, r) ∧
      (∀ n, b.arclen n = some (L n) ∧ l.arclen n = some (Ll n) ∧ r.arclen n = some (Lr n)) ∧
      Filter.Tendsto L Filter.atTop (nhds x) ∧ Filter.Tendsto Ll Filter.atTop (nhds xl) ∧
      Filter.Tendsto Lr Filter.atTop (nhds xr) ∧ xl + xr = x := by
  obtain ⟨l, r, hs, h⟩ := C33_split b t
  obtain ⟨L, hL, -, hx⟩ := C39_partial b hN
  obtain ⟨Ll, hLl, -, hxl⟩ := C39_partial l hN
  obtain ⟨Lr, hLr, -, hxr⟩ := C39_partial r hN
  refine ⟨l, r, L, Ll, Lr, _, _, _, hs, fun n => ⟨hL n, hLl n, hLr n⟩, hx, hxl, hxr, ?_⟩
  have hsm : ∀ i, ContDiff ℝ 2 fun t => bezierCoord b.controlPoints t i := by
    intro i
    have : (fun t => bezierCoord b.controlPoints t i)
        = bsum (N - 1) (fun k => coord (extend b.controlPoints k) i) :=
      funext fun t => bezierCoord_eq_bsum hN _ t i
    rw [this]
    exact contDiff_bsum _ _ _
  have cb : ∀ (s : ℝ) (q : P), b.eval s = some q → ∀ i, bezierCoord b.controlPoints s i = coord q i := by
    intro s q hq i
    obtain ⟨q', hq', hc⟩ := C30_eval b hN s
    rw [hq] at hq'
    rw [Option.some.inj hq', hc]
  have el : ∀ i, (fun s => bezierCoord l.controlPoints s i)
      = fun s => bezierCoord b.controlPoints (t * s) i := by
    intro i
    funext s
    obtain ⟨q, hq, hc⟩ := C30_eval l hN s
    rw [← hc, cb (t * s) q (by rw [← (h hN s).1, hq])]
  have er : ∀ i, (fun s => bezierCoord r.controlPoints s i)
      = fun s => bezierCoord b.controlPoints (t + (1 - t) * s) i := by
    intro i
    funext s
    obtain ⟨q, hq, hc⟩ := C30_eval r hN s
    rw [← hc, cb (t + (1 - t) * s) q (by rw [← (h hN s).2, hq])]
  have dl : ∀ s i, deriv (fun u => bezierCoord l.controlPoints u i) s
      = t * deriv (fun u => bezierCoord b.controlPoints u i) (t * s) := by
    intro s i
    rw [el i]
    have h1 := ((hsm i).differentiable two_ne_zero (t * s)).hasDerivAt
    have h2 := h1.comp s ((hasDerivAt_id s).const_mul t)
    rw [mul_one, mul_comm] at h2
    exact h2.deriv
  have dr : ∀ s i, deriv (fun u => bezierCoord r.controlPoints u i) s
      = (1 - t) * deriv (fun u => bezierCoord b.controlPoints u i) (t + (1 - t) * s) := by
    intro s i
    rw [er i]
    have h1 := ((hsm i).differentiable two_ne_zero (t + (1 - t) * s)).hasDerivAt
    have h2 := h1.comp s (((hasDerivAt_id s).const_mul (1 - t)).const_add t)
    rw [mul_one, mul_comm] at h2
    exact h2.deriv
  simp only [dl, dr]
  exact arcLength_split (dim := Point.dim P)
    (v := fun s i => deriv (fun u => bezierCoord b.controlPoints u i) s)
    (fun i _ => ((hsm i).continuous_deriv (by norm_num))) t0 t1

/-- **C95**, in the limit, for the specialised curves. -/
theorem C95_limit_specialised (q : QuadraticBezier P) (c : CubicBezier P) (t : ℝ) (t0 : 0 ≤ t)
    (t1 : t ≤ 1) :
    (∃ (L Ll Lr : ℕ → ℝ) (x xl xr : ℝ), (∀ n, q.arclen n = some (L n) ∧
        (q.split t).1.arclen n = some (Ll n) ∧ (q.split t).2.arclen n = some (Lr n)) ∧
      Filter.Tendsto L Filter.atTop (nhds x) ∧ Filter.Tendsto Ll Filter.atTop (nhds xl) ∧
      Filter.Tendsto Lr Filter.atTop (nhds xr) ∧ xl + xr = x) ∧
    (∃ (L Ll Lr : ℕ → ℝ) (x xl xr : ℝ), (∀ n, c.arclen n = some (L n) ∧
        (c.split t).1.arclen n = some (Ll n) ∧ (c.split t).2.arclen n = some (Lr n)) ∧
      Filter.Tendsto L Filter.atTop (nhds x) ∧ Filter.Tendsto Ll Filter.atTop (nhds xl) ∧
      Filter.Tendsto Lr Filter.atTop (nhds xr) ∧ xl + xr = x) := by
  constructor
  · obtain ⟨L, hL, -, hx⟩ := C15_partial q
    obtain ⟨Ll, hLl, -, hxl⟩ := C15_partial (q.split t).1
    obtain ⟨Lr, hLr, -, hxr⟩ := C15_partial (q.split t).2
    refine ⟨L, Ll, Lr, _, _, _, fun n => ⟨hL n, hLl n, hLr n⟩, hx, hxl, hxr, ?_⟩
    have d := fun s => (C91_split_specialised q ⟨q.start, q.start, q.start, q.start⟩ t s)
    simp only [fun s => (d s).1, fun s => (d s).2.1, coord_mul, mul_comm _ t, mul_comm _ (1 - t)]
    exact arcLength_split (dim := Point.dim P) (v := fun s i => coord (q.derivative.eval s) i)
      (fun i _ => by simp only [C05_eval]; fun_prop) t0 t1
  · obtain ⟨L, hL, -, hx⟩ := C26_partial c
    obtain ⟨Ll, hLl, -, hxl⟩ := C26_partial (c.split t).1
    obtain ⟨Lr, hLr, -, hxr⟩ := C26_partial (c.split t).2
    refine ⟨L, Ll, Lr, _, _, _, fun n => ⟨hL n, hLl n, hLr n⟩, hx, hxl, hxr, ?_⟩
    have d := fun s => (C91_split_specialised ⟨c.start, c.start, c.start⟩ c t s)
    simp only [fun s => (d s).2.2.1, fun s => (d s).2.2.2, coord_mul, mul_comm _ t, mul_comm _ (1 - t)]
    exact arcLength_split (dim := Point.dim P) (v := fun s i => coord (c.derivative.eval s) i)
      (fun i _ => by simp only [C10_eval]; fun_prop) t0 t1

/-- The hypotheses of `C95_false` are met: the curve with control points (0,0), (1,1), (2,0) split in
the middle, with four steps. -/
example : ∃ b : Bezier (PointN ℝ 2) 3, b.eval ((2 : ℕ) / (4 : ℕ) : ℝ) ≠ b.eval (((2 : ℕ) + 1) / (4 : ℕ) : ℝ) := by
  refine ⟨Bezier.new ![pt2 0 0, pt2 1 1, pt2 2 0], fun h => ?_⟩
  rw [C32_quadratic_eval, C32_quadratic_eval] at h
  have := congrArg (fun p => coord p 0) (Option.some.inj h)
  simp only [C10_eval, QuadraticBezier.new, coord_pt2_0] at this
  norm_num at this

end Stroke
