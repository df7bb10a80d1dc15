import Verif.Lemmas.ArcLength
import Verif.Props.Bezier

/-!
# `arclen` of the Bezier types (C15, C26, C39)

The loop of `arclen(n)` runs over `1..n` and adds the chord from `i/n` to `(i+1)/n`, so the
first chord (from 0 to `1/n`) is never counted.
-/

namespace Stroke

variable {P : Type} [Point ℝ P] [LawfulPoint P]

omit [LawfulPoint P] in
/-- The whole inscribed polyline has one chord more than `arclen` counts. -/
theorem polyline_first (f : ℕ → P) {n : ℕ} (hn : 1 ≤ n) :
    polylineLength f 0 n = pdist (f 0) (f 1) + polylineLength f 1 n := by
  unfold polylineLength
  rw [Finset.sum_eq_sum_Ico_succ_bot (by omega)]

theorem polyline_short {f : ℝ → P} {n : ℕ} (hn : 1 ≤ n) (h : f (1 / n) ≠ f 0) :
    polylineLength (fun i : ℕ => f ((i : ℝ) / n)) 1 n
      < polylineLength (fun i : ℕ => f ((i : ℝ) / n)) 0 n := by
  rw [polyline_first _ hn]
  simp only [Nat.cast_zero, zero_div, Nat.cast_one]
  have h0 := pdist_nonneg (f 0) (f (1 / n))
  have h1 : pdist (f 0) (f (1 / n)) ≠ 0 := fun e => h (pdist_eq_zero.1 e).symm
  have := lt_of_le_of_ne h0 (Ne.symm h1)
  linarith

/-! ### Quadratic curves -/

/-- What `QuadraticBezier::arclen` computes: the chords from `1/n` to 1. -/
theorem C15_actual (q : QuadraticBezier P) (n : ℕ) :
    q.arclen n = some (polylineLength (fun i : ℕ => q.eval ((i : ℝ) / n)) 1 n) := by
  rw [quadratic_arclen_eq]
  simp only [← C10_methods_agree]
  exact sampledArclen_eq (fun t => q.eval t) n

/-- **C15** (first half) is false of the code: whenever the first chord is not degenerate
the result is strictly smaller than the polyline length.  For n = 1 it is always 0. -/
theorem C15_false (q : QuadraticBezier P) (n : ℕ) (hn : 1 ≤ n)
    (h : q.eval (1 / n : ℝ) ≠ q.start) :
    (∃ L, q.arclen n = some L ∧ L < polylineLength (fun i : ℕ => q.eval ((i : ℝ) / n)) 0 n) ∧
    q.arclen 1 = some (0 : ℝ) := by
  refine ⟨⟨_, C15_actual q n, polyline_short (f := fun t => q.eval t) hn ?_⟩, ?_⟩
  · simpa [(C10_endpoints q).1] using h
  · rw [C15_actual]; simp [polylineLength]

/-- **C15** (second half): `arclen(n)` never exceeds the arc length, falls short by at most
a constant over n, and converges to it.  Missing for the full claim: equality with the
polyline length, which fails (`C15_false`). -/
theorem C15_partial (q : QuadraticBezier P) : ∃ L : ℕ → ℝ, (∀ n, q.arclen n = some (L n)) ∧
    (∃ K : ℝ, ∀ n, 1 ≤ n →
      L n ≤ arcLength (Point.dim P) (fun t i => coord (q.derivative.eval t) i) ∧
      arcLength (Point.dim P) (fun t i => coord (q.derivative.eval t) i) - K / n ≤ L n) ∧
    Filter.Tendsto L Filter.atTop
      (nhds (arcLength (Point.dim P) fun t i => coord (q.derivative.eval t) i)) := by
  obtain ⟨K, hK⟩ := arclen_bounds (f := fun t => q.eval t) (C12_derivative q) (by
    intro i _
    simp only [C10_eval]
    fun_prop)
  exact ⟨_, C15_actual q, ⟨K, hK⟩, tendsto_of_bounds hK⟩

/-- Test: a curve whose first chord is not degenerate, for every n. -/
example (n : ℕ) (hn : 1 ≤ n) :
    (QuadraticBezier.new (pt2 0 0) (pt2 1 1) (pt2 2 0)).eval (1 / n : ℝ) ≠ pt2 0 0 := by
  intro h
  have := congrArg (fun p => coord p 0) h
  simp only [C10_eval, QuadraticBezier.new, coord_pt2_0] at this
  have hn0 : (0 : ℝ) < n := by exact_mod_cast hn
  have : 2 * (1 / (n : ℝ)) = 0 := by linear_combination this
  have h1 : 0 < 1 / (n : ℝ) := by positivity
  linarith

/-! ### Cubic curves -/

/-- What `CubicBezier::arclen` computes: the chords from `1/n` to 1. -/
theorem C26_actual (c : CubicBezier P) (n : ℕ) :
    c.arclen n = some (polylineLength (fun i : ℕ => c.eval ((i : ℝ) / n)) 1 n) := by
  rw [cubic_arclen_eq]
  simp only [← C20_methods_agree]
  exact sampledArclen_eq (fun t => c.eval t) n

/-- **C26** (first half) is false of the code, as `C15_false`. -/
theorem C26_false (c : CubicBezier P) (n : ℕ) (hn : 1 ≤ n)
    (h : c.eval (1 / n : ℝ) ≠ c.start) :
    (∃ L, c.arclen n = some L ∧ L < polylineLength (fun i : ℕ => c.eval ((i : ℝ) / n)) 0 n) ∧
    c.arclen 1 = some (0 : ℝ) := by
  refine ⟨⟨_, C26_actual c n, polyline_short (f := fun t => c.eval t) hn ?_⟩, ?_⟩
  · simpa [(C20_endpoints c).1] using h
  · rw [C26_actual]; simp [polylineLength]

/-- **C26** (second half): `arclen(n)` never exceeds the arc length, falls short by at most
a constant over n, and converges to it.  Missing for the full claim: equality with the
polyline length, which fails (`C26_false`). -/
theorem C26_partial (c : CubicBezier P) : ∃ L : ℕ → ℝ, (∀ n, c.arclen n = some (L n)) ∧
    (∃ K : ℝ, ∀ n, 1 ≤ n →
      L n ≤ arcLength (Point.dim P) (fun t i => coord (c.derivative.eval t) i) ∧
      arcLength (Point.dim P) (fun t i => coord (c.derivative.eval t) i) - K / n ≤ L n) ∧
    Filter.Tendsto L Filter.atTop
      (nhds (arcLength (Point.dim P) fun t i => coord (c.derivative.eval t) i)) := by
  obtain ⟨K, hK⟩ := arclen_bounds (f := fun t => c.eval t) (C22_derivative c) (by
    intro i _
    simp only [C20_eval]
    fun_prop)
  exact ⟨_, C26_actual c, ⟨K, hK⟩, tendsto_of_bounds hK⟩

/-- Test: a curve whose first chord is not degenerate, for every n. -/
example (n : ℕ) (hn : 1 ≤ n) :
    (CubicBezier.new (pt2 0 0) (pt2 1 1) (pt2 2 0) (pt2 3 4)).eval (1 / n : ℝ) ≠ pt2 0 0 := by
  intro h
  have := congrArg (fun p => coord p 0) h
  simp only [C20_eval, CubicBezier.new, coord_pt2_0] at this
  have hn0 : (0 : ℝ) < n := by exact_mod_cast hn
  have : 3 * (1 / (n : ℝ)) = 0 := by linear_combination this
  have h1 : 0 < 1 / (n : ℝ) := by positivity
  linarith

/-! ### The generic curve -/

variable {N : ℕ}

/-- What `Bezier::arclen` computes: the chords from `1/n` to 1. -/
theorem C39_actual (b : Bezier P N) (hN : 1 ≤ N) :
    ∃ f : ℝ → P, (∀ t, b.eval t = some (f t)) ∧
      ∀ n, b.arclen n = some (polylineLength (fun i : ℕ => f ((i : ℝ) / n)) 1 n) := by
  refine ⟨_, fun t => bezier_eval_cas b hN t, fun n => ?_⟩
  rw [bezier_arclen_eq]
  have : b.eval = fun t : ℝ => some (cas (extend b.control_points) t (N - 1) 0) :=
    funext fun t => bezier_eval_cas b hN t
  rw [this]
  exact sampledArclen_eq _ n

/-- **C39** (first half) is false of the code, as `C15_false`. -/
theorem C39_false (b : Bezier P N) (hN : 1 ≤ N) (n : ℕ) (hn : 1 ≤ n)
    (h : b.eval (1 / n : ℝ) ≠ b.eval (0 : ℝ)) :
    (∃ (f : ℝ → P) (L : ℝ), (∀ t, b.eval t = some (f t)) ∧ b.arclen n = some L ∧
      L < polylineLength (fun i : ℕ => f ((i : ℝ) / n)) 0 n) ∧
    b.arclen 1 = some (0 : ℝ) := by
  obtain ⟨f, hf, ha⟩ := C39_actual b hN
  refine ⟨⟨f, _, hf, ha n, polyline_short hn ?_⟩, ?_⟩
  · intro e
    rw [hf, hf] at h
    exact h (by rw [e])
  · rw [ha]; simp [polylineLength]

theorem contDiff_bsum (m : ℕ) (x : ℕ → ℝ) (k : WithTop ℕ∞) : ContDiff ℝ k (bsum m x) := by
  unfold bsum bernstein
  fun_prop

/-- **C39** (second half): `arclen(n)` never exceeds the arc length of the curve, falls
short by at most a constant over n, and converges to it, for every number `N ≥ 1` of control
points.  Missing for the full claim: equality with the polyline length, which fails
(`C39_false`). -/
theorem C39_partial (b : Bezier P N) (hN : 1 ≤ N) :
    ∃ L : ℕ → ℝ, (∀ n, b.arclen n = some (L n)) ∧
    (∃ K : ℝ, ∀ n, 1 ≤ n →
      L n ≤ arcLength (Point.dim P)
        (fun t i => deriv (fun u => bezierCoord b.controlPoints u i) t) ∧
      arcLength (Point.dim P) (fun t i => deriv (fun u => bezierCoord b.controlPoints u i) t)
        - K / n ≤ L n) ∧
    Filter.Tendsto L Filter.atTop (nhds (arcLength (Point.dim P)
      fun t i => deriv (fun u => bezierCoord b.controlPoints u i) t)) := by
  obtain ⟨f, hf, ha⟩ := C39_actual b hN
  have hc : ∀ t i, coord (f t) i = bezierCoord b.controlPoints t i := by
    intro t i
    obtain ⟨q, hq, hqc⟩ := C30_eval b hN t
    rw [hf] at hq
    rw [Option.some.inj hq, hqc]
  have hsm : ∀ i, ContDiff ℝ 2 fun t => bezierCoord b.controlPoints t i := by
    intro i
    have : (fun t => bezierCoord b.controlPoints t i)
        = bsum (N - 1) (fun k => coord (extend b.controlPoints k) i) :=
      funext fun t => bezierCoord_eq_bsum hN _ t i
    rw [this]
    exact contDiff_bsum _ _ _
  obtain ⟨K, hK⟩ := arclen_bounds (f := f)
    (v := fun t i => deriv (fun u => bezierCoord b.controlPoints u i) t) (by
      intro t i _
      simp only [hc]
      exact ((hsm i).differentiable two_ne_zero t).hasDerivAt) (by
      intro i _
      simp only [hc]
      exact hsm i)
  exact ⟨_, ha, ⟨K, hK⟩, tendsto_of_bounds hK⟩

/-- **C39**: without control points `arclen(n)` panics as soon as it evaluates. -/
theorem C39_empty {S Q : Type} [Scalar S] [Point S Q] (b : Bezier Q 0) (n : ℕ) (hn : 2 ≤ n) :
    b.arclen n = (none : Option S) := by
  unfold Bezier.arclen
  simp only []
  rw [forRange_first (by omega), bezier_eval_zero]
  rfl

/-- Test: the hypothesis of `C39_false` is met by a curve with two control points. -/
example : (⟨![pt2 0 0, pt2 1 1]⟩ : Bezier (PointN ℝ 2) 2).eval (1 / (3 : ℕ) : ℝ)
    ≠ (⟨![pt2 0 0, pt2 1 1]⟩ : Bezier (PointN ℝ 2) 2).eval (0 : ℝ) := by
  obtain ⟨p, hp, hpc⟩ := C30_eval (⟨![pt2 0 0, pt2 1 1]⟩ : Bezier (PointN ℝ 2) 2) (by omega)
    (1 / (3 : ℕ))
  rw [hp, (C31_endpoints _ (by omega)).1]
  intro h
  have := congrArg (fun p => coord p 0) (Option.some.inj h)
  simp [hpc, bezierCoord, Bezier.controlPoints, bernstein, Fin.sum_univ_two] at this

end Stroke
