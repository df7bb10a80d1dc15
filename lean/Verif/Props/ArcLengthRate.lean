import Verif.Props.Lipschitz
import Verif.Props.FloatArcLength
import Mathlib.Analysis.SpecialFunctions.Integrals.Basic

set_option linter.unusedSectionVars false

/-!
# How many steps `arclen` needs (C101)

`arclen(n)` falls short of the arc length by at most a multiple of 1/n that can be read off the
control points.
-/

namespace Stroke

open MeasureTheory

section Abstract

variable {E : Type*} [NormedAddCommGroup E] [NormedSpace ℝ E] [CompleteSpace E]

/-- The chord falls short of the arc by at most half the acceleration times the square of the
step. -/
theorem chord_arc_half {F F' : ℝ → E} (hF : ∀ t, HasDerivAt F (F' t) t) (hc : Continuous F')
    {M : ℝ}
    (hM : ∀ x ∈ Set.Icc (0 : ℝ) 1, ∀ y ∈ Set.Icc (0 : ℝ) 1, ‖F' y - F' x‖ ≤ M * |y - x|)
    {x y : ℝ} (hx : 0 ≤ x) (hxy : x ≤ y) (hy : y ≤ 1) :
    (∫ t in x..y, ‖F' t‖) - M / 2 * (y - x) ^ 2 ≤ ‖F x - F y‖ := by
  have hsub : ∀ t ∈ Set.Icc x y, t ∈ Set.Icc (0 : ℝ) 1 := fun t ht =>
    ⟨hx.trans ht.1, ht.2.trans hy⟩
  have hM0 : 0 ≤ M := by
    have := hM 0 (by simp) 1 (by simp)
    simpa using (norm_nonneg _).trans this
  rcases hxy.eq_or_lt with rfl | hlt
  · simp
  have hpos : 0 < y - x := by linarith
  have hint : F y - F x = ∫ t in x..y, F' t := by
    rw [intervalIntegral.integral_eq_sub_of_hasDerivAt (fun t _ => hF t)
      (hc.intervalIntegrable x y)]
  -- the velocity at any time against the mean velocity
  have hpt : ∀ t ∈ Set.Icc x y, (y - x) * ‖F' t‖ ≤ ‖F x - F y‖ + M / 2 * (y - x) ^ 2 := by
    intro t ht
    have e : (F y - F x) - (y - x) • F' t = ∫ s in x..y, (F' s - F' t) := by
      rw [intervalIntegral.integral_sub (hc.intervalIntegrable x y) intervalIntegrable_const,
        intervalIntegral.integral_const, hint]
    have hcs : Continuous fun s => F' s - F' t := hc.sub continuous_const
    have hsplit : (∫ s in x..y, ‖F' s - F' t‖)
        = (∫ s in x..t, ‖F' s - F' t‖) + ∫ s in t..y, ‖F' s - F' t‖ :=
      (intervalIntegral.integral_add_adjacent_intervals (hcs.norm.intervalIntegrable _ _)
        (hcs.norm.intervalIntegrable _ _)).symm
    have hleft : (∫ s in x..t, ‖F' s - F' t‖) ≤ M * ((t - x) ^ 2 / 2) := by
      have h1 : (∫ s in x..t, ‖F' s - F' t‖) ≤ ∫ s in x..t, M * (t - s) := by
        refine intervalIntegral.integral_mono_on ht.1 (hcs.norm.intervalIntegrable _ _)
          (Continuous.intervalIntegrable (by fun_prop) _ _) fun s hs => ?_
        have := hM t (hsub t ht) s (hsub s ⟨hs.1, hs.2.trans ht.2⟩)
        rwa [abs_sub_comm, abs_of_nonneg (by linarith [hs.2])] at this
      refine h1.trans (le_of_eq ?_)
      rw [intervalIntegral.integral_const_mul, intervalIntegral.integral_sub
        intervalIntegrable_const (continuous_id'.intervalIntegrable _ _),
        intervalIntegral.integral_const, integral_id, smul_eq_mul]
      ring
    have hright : (∫ s in t..y, ‖F' s - F' t‖) ≤ M * ((y - t) ^ 2 / 2) := by
      have h1 : (∫ s in t..y, ‖F' s - F' t‖) ≤ ∫ s in t..y, M * (s - t) := by
        refine intervalIntegral.integral_mono_on ht.2 (hcs.norm.intervalIntegrable _ _)
          (Continuous.intervalIntegrable (by fun_prop) _ _) fun s hs => ?_
        have := hM t (hsub t ht) s (hsub s ⟨ht.1.trans hs.1, hs.2⟩)
        rwa [abs_of_nonneg (by linarith [hs.1])] at this
      refine h1.trans (le_of_eq ?_)
      rw [intervalIntegral.integral_const_mul, intervalIntegral.integral_sub
        (continuous_id'.intervalIntegrable _ _) intervalIntegrable_const,
        intervalIntegral.integral_const, integral_id, smul_eq_mul]
      ring
    have hnorm : ‖(F y - F x) - (y - x) • F' t‖ ≤ M / 2 * (y - x) ^ 2 := by
      rw [e]
      refine (intervalIntegral.norm_integral_le_integral_norm hxy).trans ?_
      rw [hsplit]
      have hp : 0 ≤ (t - x) * (y - t) := mul_nonneg (by linarith [ht.1]) (by linarith [ht.2])
      have hq := mul_nonneg hM0 hp
      have : M / 2 * (y - x) ^ 2
          = M * ((t - x) ^ 2 / 2) + M * ((y - t) ^ 2 / 2) + M * ((t - x) * (y - t)) := by ring
      linarith
    have h3 : ‖(y - x) • F' t‖ = (y - x) * ‖F' t‖ := by
      rw [norm_smul, Real.norm_of_nonneg hpos.le]
    rw [← h3, norm_sub_rev (F x)]
    have h4 := norm_sub_norm_le ((y - x) • F' t) (F y - F x)
    rw [norm_sub_rev ((y - x) • F' t)] at h4
    linarith
  have hle : (∫ t in x..y, ‖F' t‖)
      ≤ ∫ _ in x..y, (‖F x - F y‖ + M / 2 * (y - x) ^ 2) / (y - x) := by
    refine intervalIntegral.integral_mono_on hxy (hc.norm.intervalIntegrable x y)
      intervalIntegrable_const fun t ht => ?_
    rw [le_div_iff₀ hpos, mul_comm]
    exact hpt t ht
  rw [intervalIntegral.integral_const, smul_eq_mul, mul_div_cancel₀ _ hpos.ne'] at hle
  linarith

/-- The inscribed polyline without its first chord. -/
theorem polyline_arc_rate {F F' : ℝ → E} (hF : ∀ t, HasDerivAt F (F' t) t) (hc : Continuous F')
    {M L : ℝ}
    (hM : ∀ x ∈ Set.Icc (0 : ℝ) 1, ∀ y ∈ Set.Icc (0 : ℝ) 1, ‖F' y - F' x‖ ≤ M * |y - x|)
    (hL : ∀ x ∈ Set.Icc (0 : ℝ) 1, ‖F' x‖ ≤ L) {n : ℕ} (hn : 1 ≤ n) :
    (∑ i ∈ Finset.Ico 1 n, ‖F ((i : ℝ) / n) - F (((i + 1 : ℕ) : ℝ) / n)‖
      ≤ ∫ t in (0 : ℝ)..1, ‖F' t‖) ∧
    (∫ t in (0 : ℝ)..1, ‖F' t‖) - (L + M / 2) / n
      ≤ ∑ i ∈ Finset.Ico 1 n, ‖F ((i : ℝ) / n) - F (((i + 1 : ℕ) : ℝ) / n)‖ := by
  have hn0 : (0 : ℝ) < n := by exact_mod_cast hn
  have hn1 : (1 : ℝ) / n ≤ 1 := by rw [div_le_one hn0]; exact_mod_cast hn
  have hn1' : 0 < (1 : ℝ) / n := by positivity
  have hM0 : 0 ≤ M := by
    have := hM 0 (by simp) 1 (by simp)
    simpa using (norm_nonneg _).trans this
  have hsum : (∫ t in ((1 : ℝ) / n)..1, ‖F' t‖)
      = ∑ i ∈ Finset.Ico 1 n, ∫ t in ((i : ℝ) / n)..(((i + 1 : ℕ) : ℝ) / n), ‖F' t‖ := by
    rw [intervalIntegral.sum_integral_adjacent_intervals_Ico (a := fun i : ℕ => (i : ℝ) / n) hn
      (fun k _ => hc.norm.intervalIntegrable _ _), div_self hn0.ne', Nat.cast_one]
  have hsplit : (∫ t in (0 : ℝ)..1, ‖F' t‖)
      = (∫ t in (0 : ℝ)..(1 / n), ‖F' t‖) + ∫ t in (1 / (n : ℝ))..1, ‖F' t‖ :=
    (intervalIntegral.integral_add_adjacent_intervals (hc.norm.intervalIntegrable _ _)
      (hc.norm.intervalIntegrable _ _)).symm
  have hfirst0 : 0 ≤ ∫ t in (0 : ℝ)..(1 / n), ‖F' t‖ :=
    intervalIntegral.integral_nonneg hn1'.le fun t _ => norm_nonneg _
  have hfirst : (∫ t in (0 : ℝ)..(1 / n), ‖F' t‖) ≤ L / n := by
    have := intervalIntegral.norm_integral_le_of_norm_le_const (a := 0) (b := 1 / (n : ℝ))
      (f := fun t => ‖F' t‖) (C := L) (by
        intro t ht
        rw [Set.uIoc_of_le hn1'.le] at ht
        rw [norm_norm]
        exact hL t ⟨ht.1.le, ht.2.trans hn1⟩)
    rw [Real.norm_of_nonneg hfirst0, sub_zero, abs_of_pos hn1'] at this
    calc _ ≤ _ := this
      _ = _ := by ring
  have hstep : ∀ i ∈ Finset.Ico 1 n,
      (∫ t in ((i : ℝ) / n)..(((i + 1 : ℕ) : ℝ) / n), ‖F' t‖) - M / 2 * (1 / n) ^ 2
        ≤ ‖F ((i : ℝ) / n) - F (((i + 1 : ℕ) : ℝ) / n)‖ := fun i hi => by
    have hi' := Finset.mem_Ico.1 hi
    have e : (((i + 1 : ℕ) : ℝ) / n) - (i : ℝ) / n = 1 / n := by push_cast; field_simp; ring
    have hle : (i : ℝ) / n ≤ ((i + 1 : ℕ) : ℝ) / n := by linarith
    have h1 : ((i + 1 : ℕ) : ℝ) / n ≤ 1 := by
      rw [div_le_one hn0]; exact_mod_cast hi'.2
    have := chord_arc_half hF hc hM (x := (i : ℝ) / n) (y := ((i + 1 : ℕ) : ℝ) / n)
      (by positivity) hle h1
    rwa [e] at this
  constructor
  · have := (polyline_arc hF hc hM hn 1 hn).1
    rw [Nat.cast_one] at this
    rw [hsplit]
    linarith
  · have h2 := Finset.sum_le_sum hstep
    rw [Finset.sum_sub_distrib, Finset.sum_const, Nat.card_Ico, nsmul_eq_mul, ← hsum] at h2
    have h3 : ((n - 1 : ℕ) : ℝ) * (M / 2 * (1 / n) ^ 2) ≤ M / 2 / n := by
      have hle : ((n - 1 : ℕ) : ℝ) ≤ n := by exact_mod_cast Nat.sub_le n 1
      have : ((n - 1 : ℕ) : ℝ) * (M / 2 * (1 / n) ^ 2) ≤ n * (M / 2 * (1 / n) ^ 2) :=
        mul_le_mul_of_nonneg_right hle (by positivity)
      refine this.trans (le_of_eq ?_)
      field_simp
    rw [hsplit, add_div]
    linarith

end Abstract

variable {P : Type} [Point ℝ P] [LawfulPoint P] {N : ℕ}

/-- The same for a curve whose velocity is the point-valued function `g`. -/
theorem sampled_rate {f g : ℝ → P} (hf : ∀ t, HasPointDerivAt f (coord (g t)) t)
    (hc : ∀ i < Point.dim P, Continuous fun t => coord (g t) i) {M L : ℝ}
    (hM : ∀ x y, 0 ≤ x → x ≤ y → y ≤ 1 → pdist (g x) (g y) ≤ M * (y - x))
    (hL : ∀ x, 0 ≤ x → x ≤ 1 → pdist (g x) Point.default ≤ L) {n : ℕ} (hn : 1 ≤ n) :
    polylineLength (fun i : ℕ => f ((i : ℝ) / n)) 1 n
      ≤ arcLength (Point.dim P) (fun t i => coord (g t) i) ∧
    arcLength (Point.dim P) (fun t i => coord (g t) i) - (L + M / 2) / n
      ≤ polylineLength (fun i : ℕ => f ((i : ℝ) / n)) 1 n := by
  have hF : ∀ t, HasDerivAt (fun u => toE (f u)) (toE (g t)) t := fun t => hasDerivAt_toE (hf t)
  have hcont : Continuous fun t => toE (g t) := by
    have : Continuous fun t => (fun i : Fin (Point.dim P) => coord (g t) i.val) :=
      continuous_pi fun i => hc i.val i.isLt
    exact (PiLp.continuous_toLp 2 _).comp this
  have harc : arcLength (Point.dim P) (fun t i => coord (g t) i)
      = ∫ t in (0 : ℝ)..1, ‖toE (g t)‖ := by
    unfold arcLength
    congr 1
    funext t
    exact (norm_toLp_eq _ _).symm
  have hpoly : polylineLength (fun i : ℕ => f ((i : ℝ) / n)) 1 n
      = ∑ i ∈ Finset.Ico 1 n, ‖toE (f ((i : ℝ) / n)) - toE (f (((i + 1 : ℕ) : ℝ) / n))‖ := by
    unfold polylineLength
    exact Finset.sum_congr rfl fun i _ => pdist_eq_norm _ _
  rw [harc, hpoly]
  refine polyline_arc_rate hF hcont ?_ ?_ hn
  · intro x hx y hy
    rcases le_total x y with h | h
    · have := hM x y hx.1 h hy.2
      rwa [pdist_eq_norm, norm_sub_rev, ← abs_of_nonneg (sub_nonneg.2 h)] at this
    · have := hM y x hy.1 h hx.2
      rwa [pdist_eq_norm, ← abs_of_nonneg (sub_nonneg.2 h), abs_sub_comm] at this
  · intro x hx
    have := hL x hx.1 hx.2
    rwa [pdist_eq_norm, toE_default, sub_zero] at this

/-- A convex combination of points within `L` of the origin. -/
theorem pdist_default_le (b : Bezier P N) (hN : 1 ≤ N) {L : ℝ}
    (h : ∀ k, pdist (b.control_points k) Point.default ≤ L) (t : ℝ) (h0 : 0 ≤ t) (h1 : t ≤ 1)
    {p : P} (hp : b.eval t = some p) : pdist p Point.default ≤ L := by
  obtain ⟨q, hq, hw, hs, hc⟩ := C36_bezier b hN t h0 h1
  rw [hp] at hq
  cases hq
  refine pdist_combination_le hw hs.le ((pdist_nonneg _ _).trans (h ⟨0, hN⟩)) h hc
    (qs := fun _ => Point.default) fun i => ?_
  simp

/-- **C101**: if neighbouring control points are at most `D` apart and neighbouring steps
`P_{k+1} - P_k` differ by at most `A`, then `arclen(n)` is at most the arc length and falls short
of it by at most `degree · (D + (degree - 1) · A / 2) / n`. -/
theorem C101_bezier (b : Bezier P N) (hN : 1 ≤ N) (D A : ℝ)
    (hD : ∀ (k : ℕ) (h : k + 1 < N),
      pdist (b.control_points ⟨k, by omega⟩) (b.control_points ⟨k + 1, h⟩) ≤ D)
    (hA : ∀ (k : ℕ) (h : k + 2 < N),
      pdist (b.control_points ⟨k + 1, by omega⟩ - b.control_points ⟨k, by omega⟩)
        (b.control_points ⟨k + 2, h⟩ - b.control_points ⟨k + 1, by omega⟩) ≤ A)
    (n : ℕ) (hn : 1 ≤ n) :
    ∃ x, b.arclen n = some x ∧
      x ≤ arcLength (Point.dim P) (fun t i => deriv (fun u => bezierCoord b.controlPoints u i) t) ∧
      arcLength (Point.dim P) (fun t i => deriv (fun u => bezierCoord b.controlPoints u i) t)
        - (N - 1 : ℕ) * (D + (N - 2 : ℕ) * A / 2) / n ≤ x := by
  obtain ⟨f, hf, ha⟩ := C39_actual b hN
  refine ⟨_, ha n, ?_⟩
  rcases hN.eq_or_lt with rfl | hN2
  · have hx := (C39_partial b hN)
    obtain ⟨L, hL, ⟨K, hK⟩, ht⟩ := hx
    have e := hL n
    rw [ha n] at e
    have e := Option.some.inj e
    refine ⟨e ▸ (hK n hn).1, ?_⟩
    have h1 := C71_arc_length b hN
    simp only [controlPolygonLength, Nat.sub_self, Finset.range_zero, Finset.sum_empty] at h1
    have h2 : 0 ≤ polylineLength (fun i : ℕ => f ((i : ℝ) / n)) 1 n :=
      Finset.sum_nonneg fun i _ => pdist_nonneg _ _
    simp only [Nat.sub_self, Nat.cast_zero, zero_mul, zero_div, sub_zero]
    linarith
  have hN2 : 2 ≤ N := hN2
  obtain ⟨d, hd, hcp⟩ := C35_partial (S := ℝ) b hN2
  obtain ⟨g, hg⟩ : ∃ g : ℝ → P, ∀ t, d.eval t = some (g t) :=
    ⟨_, fun t => bezier_eval_cas d (by omega) t⟩
  have hderiv : ∀ t, HasPointDerivAt f (coord (g t)) t := by
    intro t
    obtain ⟨d', hd', f', v, hf', hv, h⟩ := C34_derivative b hN2 t
    rw [hd] at hd'
    cases hd'
    rw [hg] at hv
    cases hv
    have : f' = f := funext fun u => by
      have := hf' u
      rw [hf] at this
      exact (Option.some.inj this).symm
    rwa [this] at h
  have hcoord : ∀ t i, coord (f t) i = bezierCoord b.controlPoints t i := by
    intro t i
    obtain ⟨q, hq, hc⟩ := C30_eval b hN t
    rw [hf] at hq
    cases hq
    exact hc i
  have harc : arcLength (Point.dim P)
      (fun t i => deriv (fun u => bezierCoord b.controlPoints u i) t)
      = arcLength (Point.dim P) (fun t i => coord (g t) i) := by
    unfold arcLength
    congr 1
    funext t
    congr 1
    refine Finset.sum_congr rfl fun i hi => ?_
    congr 1
    have := hderiv t i (Finset.mem_range.1 hi)
    simp only [hcoord] at this
    exact this.deriv
  rw [harc]
  have n1 : (0 : ℝ) ≤ (N - 1 : ℕ) := Nat.cast_nonneg _
  have step : ∀ k : Fin (N - 1), toE (d.control_points k) = ((N - 1 : ℕ) : ℝ) •
      (toE (b.control_points ⟨k.val + 1, by omega⟩) - toE (b.control_points ⟨k.val, by omega⟩)) := by
    intro k
    rw [hcp k, toE_mul, toE_sub]
    rfl
  have key := sampled_rate (f := f) (g := g) hderiv (by
      intro i _
      have : (fun t => coord (g t) i) = fun t => bezierCoord d.controlPoints t i := by
        funext t
        obtain ⟨q, hq, hc⟩ := C30_eval d (by omega) t
        rw [hg] at hq
        cases hq
        exact hc i
      rw [this]
      unfold bezierCoord bernstein
      fun_prop)
    (M := (N - 1 - 1 : ℕ) * ((N - 1 : ℕ) * A)) (L := (N - 1 : ℕ) * D) (by
      intro x y hx hxy hy
      obtain ⟨p, q, hp, hq, h⟩ := C73_bezier d (by omega) ((N - 1 : ℕ) * A) (by
        intro k hk
        rw [pdist_eq_norm, step, step, ← smul_sub, norm_smul, Real.norm_of_nonneg n1]
        refine mul_le_mul_of_nonneg_left ?_ n1
        have := hA k (by omega)
        rwa [pdist_eq_norm, toE_sub, toE_sub] at this) x y hx hxy hy
      rw [hg] at hp hq
      cases hp; cases hq
      exact h) (by
      intro x hx0 hx1
      refine pdist_default_le d (by omega) ?_ x hx0 hx1 (hg x)
      intro k
      rw [pdist_eq_norm, toE_default, sub_zero, step, norm_smul, Real.norm_of_nonneg n1]
      refine mul_le_mul_of_nonneg_left ?_ n1
      have := hD k.val (by omega)
      rwa [pdist_eq_norm, norm_sub_rev] at this) hn
  refine ⟨key.1, ?_⟩
  have e : ((N - 1 : ℕ) : ℝ) * (D + (N - 2 : ℕ) * A / 2)
      = (N - 1 : ℕ) * D + (N - 1 - 1 : ℕ) * ((N - 1 : ℕ) * A) / 2 := by
    rw [show N - 1 - 1 = N - 2 by omega]; ring
  rw [e]
  exact key.2

/-- **C101** with one number: if neighbouring control points are at most `D` apart, `arclen(n)`
falls short of the arc length by at most `degree² · D / n`. -/
theorem C101_simple (b : Bezier P N) (hN : 1 ≤ N) (D : ℝ)
    (hD : ∀ (k : ℕ) (h : k + 1 < N),
      pdist (b.control_points ⟨k, by omega⟩) (b.control_points ⟨k + 1, h⟩) ≤ D)
    (n : ℕ) (hn : 1 ≤ n) :
    ∃ x, b.arclen n = some x ∧
      x ≤ arcLength (Point.dim P) (fun t i => deriv (fun u => bezierCoord b.controlPoints u i) t) ∧
      arcLength (Point.dim P) (fun t i => deriv (fun u => bezierCoord b.controlPoints u i) t)
        - ((N - 1 : ℕ) : ℝ) ^ 2 * D / n ≤ x := by
  obtain ⟨x, hx, h1, h2⟩ := C101_bezier b hN D (2 * D) hD (by
    intro k hk
    have e1 := hD k (by omega)
    have e2 := hD (k + 1) hk
    rw [pdist_eq_norm, norm_sub_rev] at e1 e2
    rw [pdist_eq_norm, toE_sub, toE_sub]
    refine (norm_sub_le _ _).trans ?_
    linarith) n hn
  refine ⟨x, hx, h1, le_trans (le_of_eq ?_) h2⟩
  congr 2
  rcases hN.eq_or_lt with rfl | h
  · simp
  · obtain ⟨m, rfl⟩ : ∃ m, N = m + 2 := ⟨N - 2, by omega⟩
    simp only [Nat.add_sub_cancel, show m + 2 - 1 = m + 1 by omega]
    push_cast
    ring

/-- **C101** for quadratic curves. -/
theorem C101_quadratic (q : QuadraticBezier P) (D : ℝ) (h1 : pdist q.start q.ctrl ≤ D)
    (h2 : pdist q.ctrl q.end_ ≤ D) (n : ℕ) (hn : 1 ≤ n) :
    ∃ x, q.arclen n = some x ∧
      x ≤ arcLength (Point.dim P) (fun t i => coord (q.derivative.eval t) i) ∧
      arcLength (Point.dim P) (fun t i => coord (q.derivative.eval t) i) - 4 * D / n ≤ x := by
  obtain ⟨x, hx, hu, hl⟩ := C101_simple (Bezier.new ![q.start, q.ctrl, q.end_]) (by norm_num) D (by
    intro k hk
    have : k < 2 := by omega
    interval_cases k <;> simpa [Bezier.new]) n hn
  obtain ⟨f, hf, ha⟩ := C39_actual (Bezier.new ![q.start, q.ctrl, q.end_]) (by norm_num)
  have hfq : f = fun t => q.eval t := funext fun t => by
    have := hf t
    rw [C32_quadratic_eval] at this
    exact (Option.some.inj this).symm
  have harc : arcLength (Point.dim P) (fun t i =>
      deriv (fun u => bezierCoord (Bezier.new ![q.start, q.ctrl, q.end_]).controlPoints u i) t)
      = arcLength (Point.dim P) (fun t i => coord (q.derivative.eval t) i) := by
    unfold arcLength
    congr 1
    funext t
    congr 1
    refine Finset.sum_congr rfl fun i hi => ?_
    congr 1
    have e : (fun u => bezierCoord (Bezier.new ![q.start, q.ctrl, q.end_]).controlPoints u i)
        = fun u => coord (q.eval u) i := by
      funext u
      obtain ⟨p, hp, hc⟩ := C30_eval (Bezier.new ![q.start, q.ctrl, q.end_]) (by norm_num) u
      rw [C32_quadratic_eval] at hp
      cases hp
      exact (hc i).symm
    beta_reduce
    rw [e]
    exact (C12_derivative q t i (Finset.mem_range.1 hi)).deriv
  rw [harc] at hu hl
  refine ⟨x, ?_, hu, ?_⟩
  · rw [C15_actual, ← hx, ha, hfq]
  · norm_num at hl
    simpa using hl

/-- **C101** for cubic curves. -/
theorem C101_cubic (c : CubicBezier P) (D : ℝ) (h1 : pdist c.start c.ctrl1 ≤ D)
    (h2 : pdist c.ctrl1 c.ctrl2 ≤ D) (h3 : pdist c.ctrl2 c.end_ ≤ D) (n : ℕ) (hn : 1 ≤ n) :
    ∃ x, c.arclen n = some x ∧
      x ≤ arcLength (Point.dim P) (fun t i => coord (c.derivative.eval t) i) ∧
      arcLength (Point.dim P) (fun t i => coord (c.derivative.eval t) i) - 9 * D / n ≤ x := by
  obtain ⟨x, hx, hu, hl⟩ := C101_simple (Bezier.new ![c.start, c.ctrl1, c.ctrl2, c.end_])
    (by norm_num) D (by
    intro k hk
    have : k < 3 := by omega
    interval_cases k <;> simpa [Bezier.new]) n hn
  obtain ⟨f, hf, ha⟩ := C39_actual (Bezier.new ![c.start, c.ctrl1, c.ctrl2, c.end_]) (by norm_num)
  have hfq : f = fun t => c.eval t := funext fun t => by
    have := hf t
    rw [C32_cubic_eval] at this
    exact (Option.some.inj this).symm
  have harc : arcLength (Point.dim P) (fun t i => deriv (fun u =>
        bezierCoord (Bezier.new ![c.start, c.ctrl1, c.ctrl2, c.end_]).controlPoints u i) t)
      = arcLength (Point.dim P) (fun t i => coord (c.derivative.eval t) i) := by
    unfold arcLength
    congr 1
    funext t
    congr 1
    refine Finset.sum_congr rfl fun i hi => ?_
    congr 1
    have e : (fun u =>
        bezierCoord (Bezier.new ![c.start, c.ctrl1, c.ctrl2, c.end_]).controlPoints u i)
        = fun u => coord (c.eval u) i := by
      funext u
      obtain ⟨p, hp, hc⟩ := C30_eval (Bezier.new ![c.start, c.ctrl1, c.ctrl2, c.end_])
        (by norm_num) u
      rw [C32_cubic_eval] at hp
      cases hp
      exact (hc i).symm
    beta_reduce
    rw [e]
    exact (C22_derivative c t i (Finset.mem_range.1 hi)).deriv
  rw [harc] at hu hl
  refine ⟨x, ?_, hu, ?_⟩
  · rw [C26_actual, ← hx, ha, hfq]
  · norm_num at hl
    simpa using hl

/-- Test: for the cubic curve through (0,0), (1,0), (1,1), (0,1), 9000 steps make the error at
most 1/1000. -/
example : ∃ x, (CubicBezier.new (pt2 0 0) (pt2 1 0) (pt2 1 1) (pt2 0 1)).arclen 9000 = some x ∧
    arcLength 2 (fun t i =>
      coord ((CubicBezier.new (pt2 0 0) (pt2 1 0) (pt2 1 1) (pt2 0 1)).derivative.eval t) i)
      - 1 / 1000 ≤ x := by
  obtain ⟨x, hx, _, h⟩ := C101_cubic (CubicBezier.new (pt2 0 0) (pt2 1 0) (pt2 1 1) (pt2 0 1)) 1
    (by simp [CubicBezier.new, pdist_pt2]) (by simp [CubicBezier.new, pdist_pt2])
    (by simp [CubicBezier.new, pdist_pt2]) 9000 (by norm_num)
  refine ⟨x, hx, ?_⟩
  norm_num at h
  norm_num
  exact h

/-- Test: the bound is attained by a segment of length 1, where each of the n chords has length
1/n and the first is not counted. -/
example (n : ℕ) (hn : 1 ≤ n) :
    (Bezier.new ![pt2 0 0, pt2 1 0]).arclen n = some (1 - 1 ^ 2 * 1 / n : ℝ) := by
  obtain ⟨f, hf, ha⟩ := C39_actual (Bezier.new ![pt2 0 0, pt2 1 0]) (by norm_num)
  have hfl : f = fun t => (LineSegment.new (pt2 0 0) (pt2 1 0)).eval t := funext fun t => by
    have := hf t
    rw [C32_line] at this
    exact (Option.some.inj this).symm
  have n0 : (0 : ℝ) < n := by exact_mod_cast hn
  rw [ha, polylineLength]
  congr 1
  have e : ∀ i ∈ Finset.Ico 1 n, pdist (f ((i : ℝ) / n)) (f (((i + 1 : ℕ) : ℝ) / n)) = 1 / n := by
    intro i hi
    have hi1 : i + 1 ≤ n := (Finset.mem_Ico.1 hi).2
    rw [hfl, (C73_specialised (LineSegment.new (pt2 0 0) (pt2 1 0))
      (QuadraticBezier.new (pt2 0 0) (pt2 0 0) (pt2 1 0))
      (CubicBezier.new (pt2 0 0) (pt2 0 0) (pt2 0 0) (pt2 1 0)) _ _ (by positivity)
      (by gcongr; omega) (by rw [div_le_one n0]; exact_mod_cast hi1)).1]
    simp only [LineSegment.new, pdist_pt2]
    norm_num
    field_simp
    ring
  rw [Finset.sum_congr rfl e, Finset.sum_const, Nat.card_Ico, nsmul_eq_mul, Nat.cast_sub hn]
  field_simp
  norm_num

/-- **C101** in `f64`: for plane cubics with coordinates up to `M ≤ 10^9` and neighbouring control
points at most `D` apart, the value computed by `arclen(k)` is within `9 D / k` (too few steps)
plus `10⁻¹⁴ (M + D)` per step (rounding) of the length of the curve. -/
theorem C101_binary64 (cosI acosI : ℝ → ℝ) (powI : ℝ → ℝ → ℝ)
    (c : CubicBezier (PointN (Fl (binary64 cosI acosI powI)) 2)) {M D : ℝ}
    (hM : 0 ≤ M) (hM' : M ≤ 10 ^ 9) (hD' : D ≤ 10 ^ 10)
    (hs : BoundedBy M c.start) (hc : BoundedBy M c.ctrl1) (hc' : BoundedBy M c.ctrl2)
    (hd : BoundedBy M c.end_)
    (h1 : pdist c.start.real c.ctrl1.real ≤ D) (h2 : pdist c.ctrl1.real c.ctrl2.real ≤ D)
    (h3 : pdist c.ctrl2.real c.end_.real ≤ D) (k : ℕ) (hk : 1 ≤ k) (hk' : k ≤ 10 ^ 6) :
    ∃ r, c.arclen k = some r ∧ r.IsFinite ∧
      |r.toReal - arcLength 2 (fun t i => coord (c.real.derivative.eval t) i)|
        ≤ 9 * D / k + k * (1 / 10 ^ 14 * (M + D) + 1 / 10 ^ 25) := by
  obtain ⟨r, L, hr, hL, rf, h⟩ := C98_cubic_binary64 cosI acosI powI hk hk' c hM hM' hD' hs hc
    hc' hd h1 h2 h3
  obtain ⟨x, hx, b1, b2⟩ := C101_cubic c.real D h1 h2 h3 k hk
  rw [hL] at hx
  cases hx
  refine ⟨r, hr, rf, ?_⟩
  have e : arcLength (Point.dim (PointN ℝ 2)) (fun t i => coord (c.real.derivative.eval t) i)
      = arcLength 2 (fun t i => coord (c.real.derivative.eval t) i) := rfl
  rw [e] at b1 b2
  have hD : 0 ≤ 9 * D / k := by
    have : 0 ≤ D := (pdist_nonneg _ _).trans h1
    positivity
  rw [abs_le] at h ⊢
  exact ⟨by linarith [h.1], by linarith [h.2]⟩

end Stroke
