import Verif.Props.BSplineInfluence
import Verif.Props.BSplinePieces
import Verif.Props.RepairedBSplineMore
import Verif.Props.Workarounds
import Mathlib.MeasureTheory.Integral.IntervalIntegral.FundThmCalculus

set_option linter.unusedSectionVars false

/-!
# The mean point of a curve (C157)

The integral of a Bezier curve over its parameters is the mean of its control points, and the integral of a
B-spline whose first and last `D + 1` knots coincide is the sum of its control points, each with the length of
the knot interval on which it has influence, divided by `D + 1`.

`evalFixed` (Verif/Repaired/Model.lean) has the second property; `eval` leaves out one control point on every
span (`C157_partial`, `C157_false`).
-/

namespace Stroke

open MeasureTheory Filter Topology intervalIntegral

section Basis
variable {u : ℕ → ℝ} {K D : ℕ}

/-- The knots `u 0, ..., u (K - 1)` with simple knots added on both sides. -/
noncomputable def wideKnots (u : ℕ → ℝ) (K D j : ℕ) : ℝ :=
  if j < D + 2 then u 0 + j - (D + 2) else if j - (D + 2) < K then u (j - (D + 2))
  else u (K - 1) + ((j - (D + 2) - K : ℕ) : ℝ) + 1

theorem wideKnots_own {i : ℕ} (hi : i < K) : wideKnots u K D (i + (D + 2)) = u i := by
  unfold wideKnots
  rw [if_neg (by omega), Nat.add_sub_cancel, if_pos hi]

theorem wideKnots_step (hm : ∀ i j, i ≤ j → j < K → u i ≤ u j) (hK : 1 ≤ K) (j : ℕ) :
    wideKnots u K D j ≤ wideKnots u K D (j + 1) ∧
      (j < D + 2 ∨ D + 2 + K ≤ j + 1 → wideKnots u K D j < wideKnots u K D (j + 1)) := by
  unfold wideKnots
  rcases Nat.lt_or_ge (j + 1) (D + 2) with h1 | h1
  · rw [if_pos (show j < D + 2 by omega), if_pos h1]
    push_cast
    exact ⟨by linarith, fun _ => by linarith⟩
  rcases Nat.lt_or_ge j (D + 2) with h2 | h2
  · rw [if_pos h2, if_neg (by omega), show j + 1 - (D + 2) = 0 by omega, if_pos (by omega)]
    have : (j : ℝ) < D + 2 := by exact_mod_cast h2
    exact ⟨by linarith, fun _ => by linarith⟩
  rw [if_neg (show ¬ j < D + 2 by omega), if_neg (show ¬ j + 1 < D + 2 by omega)]
  rcases Nat.lt_or_ge (j + 1 - (D + 2)) K with h3 | h3
  · rw [if_pos (show j - (D + 2) < K by omega), if_pos h3]
    exact ⟨hm _ _ (by omega) h3, fun h => by omega⟩
  rw [if_neg (show ¬ j + 1 - (D + 2) < K by omega)]
  rcases Nat.lt_or_ge (j - (D + 2)) K with h4 | h4
  · rw [if_pos h4, show j - (D + 2) = K - 1 by omega]
    have : (0 : ℝ) ≤ ((j + 1 - (D + 2) - K : ℕ) : ℝ) := Nat.cast_nonneg _
    exact ⟨by linarith, fun _ => by linarith⟩
  · rw [if_neg (show ¬ j - (D + 2) < K by omega), show j + 1 - (D + 2) - K = j - (D + 2) - K + 1 by omega]
    push_cast
    exact ⟨by linarith, fun _ => by linarith⟩

theorem wideKnots_mono (hm : ∀ i j, i ≤ j → j < K → u i ≤ u j) (hK : 1 ≤ K) : Monotone (wideKnots u K D) :=
  monotone_nat_of_le_succ fun j => (wideKnots_step hm hK j).1

theorem wideKnots_gap (hm : ∀ i j, i ≤ j → j < K → u i ≤ u j) (hK : 1 ≤ K)
    (hu : ∀ i, i + D + 1 < K → u i < u (i + D + 1)) (j : ℕ) :
    wideKnots u K D j < wideKnots u K D (j + D + 1) := by
  have mono := wideKnots_mono (D := D) hm hK
  rcases Nat.lt_or_ge j (D + 2) with h1 | h1
  · exact ((wideKnots_step hm hK j).2 (Or.inl h1)).trans_le (mono (by omega))
  rcases Nat.lt_or_ge (j + D + 1) (D + 2 + K) with h2 | h2
  · obtain ⟨i, rfl⟩ : ∃ i, j = i + (D + 2) := ⟨j - (D + 2), by omega⟩
    rw [wideKnots_own (by omega), show i + (D + 2) + D + 1 = i + D + 1 + (D + 2) by omega,
      wideKnots_own (by omega)]
    exact hu i (by omega)
  · exact (mono (show j ≤ j + D by omega)).trans_lt ((wideKnots_step hm hK (j + D)).2 (Or.inr (by omega)))

/-- The integral of a basis function: it is, up to a factor, the derivative of a sum of basis functions of the
next degree over wider knots, and this sum runs from 0 to 1. -/
theorem coxDeBoor_integral (hm : ∀ i j, i ≤ j → j < K → u i ≤ u j)
    (hu : ∀ i, i + D + 1 < K → u i < u (i + D + 1)) {i : ℕ} (hi : i + D + 1 < K) :
    IntervalIntegrable (coxDeBoor u D i) volume (u 0) (u (K - 1)) ∧
      ∫ t in u 0..u (K - 1), coxDeBoor u D i t = (u (i + D + 1) - u i) / (D + 1) := by
  have hK : 1 ≤ K := by omega
  set w := wideKnots u K D with hw
  have wm : ∀ i j, i ≤ j → j < D + 2 + K + (D + 1) + 1 → w i ≤ w j :=
    fun i j hij _ => wideKnots_mono hm hK hij
  have wi : w (i + (D + 2)) = u i := wideKnots_own (by omega)
  have wi' : w (i + (D + 2) + D + 1) = u (i + D + 1) := by
    rw [show i + (D + 2) + D + 1 = i + D + 1 + (D + 2) by omega]
    exact wideKnots_own hi
  have wlo : w (D + 1) < u 0 := by
    have e : w (D + 1) = u 0 - 1 := by
      rw [hw, wideKnots, if_pos (by omega)]
      push_cast
      ring
    linarith
  have whi : u (K - 1) < w (D + 2 + K) := by
    rw [hw, wideKnots, if_neg (by omega), if_neg (by omega)]
    have : (0 : ℝ) ≤ ((D + 2 + K - (D + 2) - K : ℕ) : ℝ) := Nat.cast_nonneg _
    linarith
  have h0 : u 0 ≤ u (K - 1) := hm _ _ (by omega) (by omega)
  set g := tailSum w (D + 1) (D + 2 + K) (i + (D + 2)) with hg
  have own : ∀ t, coxDeBoor w D (i + (D + 2)) t = coxDeBoor u D i t := fun t =>
    coxDeBoor_own_knots (fun j hj => wideKnots_own hj) t D i hi
  have cont : Continuous g := by
    rw [hg]
    unfold tailSum
    refine continuous_iff_continuousAt.2 fun x => ?_
    refine tendsto_finsetSum _ fun j hj => ?_
    obtain ⟨j1, j2⟩ := Finset.mem_Ico.1 hj
    refine coxDeBoor_continuousAt_of wm x (D + 1) j (by omega) ?_ ?_
    · rintro ⟨e1, e2⟩
      have := wideKnots_gap hm hK hu j
      rw [← hw] at this
      rw [show j + (D + 1) = j + D + 1 by omega] at e2
      linarith
    · rintro ⟨e1, e2⟩
      have := wideKnots_gap hm hK hu (j + 1)
      rw [← hw] at this
      rw [show j + (D + 1) + 1 = j + 1 + D + 1 by omega] at e2
      linarith
  have der : ∀ x ∈ Set.Ioo (u 0) (u (K - 1)), HasDerivWithinAt g
      ((D + 1 : ℝ) * ((u (i + D + 1) - u i)⁻¹ * coxDeBoor u D i x)) (Set.Ioi x) x := by
    intro x hx
    have := tailSum_deriv_right (u := w) (K := D + 2 + K + (D + 1) + 1) (C := D + 2 + K) (d := D) wm rfl
      (by omega) (i := i + (D + 2)) (by omega) (wlo.le.trans hx.1.le) (hx.2.trans whi)
    rw [wi, wi', own] at this
    exact this.mono Set.Ioi_subset_Ici_self
  have L := hu i hi
  have pos : ∀ x ∈ Set.Ioo (u 0) (u (K - 1)),
      0 ≤ (D + 1 : ℝ) * ((u (i + D + 1) - u i)⁻¹ * coxDeBoor u D i x) := by
    intro x _
    have p1 : 0 < u (i + D + 1) - u i := by linarith
    have p2 := coxDeBoor_nonneg (t := x) hm D i hi
    positivity
  have int := integrableOn_deriv_right_of_nonneg cont.continuousOn der pos
  have int' : IntervalIntegrable (fun x => (D + 1 : ℝ) * ((u (i + D + 1) - u i)⁻¹ * coxDeBoor u D i x))
      volume (u 0) (u (K - 1)) := (intervalIntegrable_iff_integrableOn_Ioc_of_le h0).2 int
  have ftc := integral_eq_sub_of_hasDeriv_right_of_le h0 cont.continuousOn der int'
  have end1 : g (u (K - 1)) = 1 := by
    refine tailSum_after wm rfl (by omega) (by omega) (wlo.le.trans h0) whi ?_
    rw [show i + (D + 2) + (D + 1) = i + (D + 2) + D + 1 by omega, wi']
    exact hm _ _ (by omega) (by omega)
  have end0 : g (u 0) = 0 := by
    refine tendsto_nhds_unique ((cont.tendsto (u 0)).mono_left nhdsWithin_le_nhds : Tendsto g (𝓝[<] (u 0)) _) ?_
    refine tendsto_const_nhds.congr' ?_
    filter_upwards [self_mem_nhdsWithin] with x hx
    refine (tailSum_before wm rfl ?_).symm
    rw [wi]
    exact lt_of_lt_of_le hx (hm _ _ (by omega) (by omega))
  have D0 : (D + 1 : ℝ) ≠ 0 := by positivity
  have L0 : u (i + D + 1) - u i ≠ 0 := by linarith
  have eq : coxDeBoor u D i = fun x => (u (i + D + 1) - u i) / (D + 1)
      * ((D + 1 : ℝ) * ((u (i + D + 1) - u i)⁻¹ * coxDeBoor u D i x)) := by
    funext x
    field_simp
  rw [end1, end0] at ftc
  refine ⟨by rw [eq]; exact int'.const_mul _, ?_⟩
  rw [eq, intervalIntegral.integral_const_mul, ftc]
  ring

end Basis

section Curves
variable {P : Type} [Point ℝ P] [LawfulPoint P] {n : ℕ}

theorem bernstein_integral {k : ℕ} (hk : k ≤ n) :
    IntervalIntegrable (bernstein n k) volume 0 1 ∧ ∫ t in (0 : ℝ)..1, bernstein n k t = 1 / (n + 1) := by
  obtain ⟨v1, v2, v3⟩ := valid_bezier n
  have hm := fun i j (hij : i ≤ j) (hj : j < n + 1 + n + 1) => mono_knotAt v3 hij hj
  have gap : ∀ i, i + n + 1 < n + 1 + n + 1 →
      knotAt (bezierKnots n) i = 0 ∧ knotAt (bezierKnots n) (i + n + 1) = 1 := by
    intro i hi
    rw [knotAt_bezier (by omega), knotAt_bezier (by omega), if_pos (by omega), if_neg (by omega)]
    exact ⟨rfl, rfl⟩
  obtain ⟨h1, h2⟩ := coxDeBoor_integral hm (fun i hi => by rw [(gap i hi).1, (gap i hi).2]; norm_num)
    (i := k) (D := n) (by omega)
  rw [(gap k (by omega)).1, (gap k (by omega)).2] at h2
  have e0 : knotAt (bezierKnots n) 0 = 0 := (gap 0 (by omega)).1
  have e1 : knotAt (bezierKnots n) (n + 1 + n + 1 - 1) = 1 := by
    rw [knotAt_bezier (by omega), if_neg (by omega)]
  rw [e0, e1] at h1 h2
  have same : ∀ᵐ x : ℝ, x ∈ Set.uIoc (0 : ℝ) 1 → coxDeBoor (knotAt (bezierKnots n)) n k x = bernstein n k x := by
    filter_upwards [compl_mem_ae_iff.2 (measure_singleton (μ := volume) (1 : ℝ))] with x hx hx'
    rw [Set.uIoc_of_le zero_le_one] at hx'
    rw [coxDeBoor_bezier hx'.1.le (lt_of_le_of_ne hx'.2 hx) n le_rfl k hk, if_pos (by omega),
      Nat.add_sub_cancel]
  refine ⟨(intervalIntegrable_congr_ae ((ae_restrict_iff' measurableSet_uIoc).2 same)).1 h1, ?_⟩
  rw [← integral_congr_ae same, h2]
  norm_num

/-- **C157**: the mean point of a Bezier curve is the mean of its control points. -/
theorem C157_bezier (b : Bezier P (n + 1)) :
    ∃ f : ℝ → P, (∀ t, b.eval t = some (f t)) ∧ ∀ c,
      ∫ t in (0 : ℝ)..1, coord (f t) c = (∑ i, coord (b.control_points i) c) / (n + 1) := by
  choose f hf e using fun t => C30_eval b (by omega) t
  refine ⟨f, hf, fun c => ?_⟩
  simp only [e, bezierCoord]
  rw [integral_finsetSum fun i _ => (bernstein_integral (n := n) (k := i.val) (by omega)).1.mul_const _,
    Finset.sum_div]
  refine Finset.sum_congr rfl fun i _ => ?_
  rw [intervalIntegral.integral_mul_const, show n + 1 - 1 = n from rfl,
    (bernstein_integral (n := n) (k := i.val) (by omega)).2]
  simp only [Bezier.controlPoints]
  ring

/-- **C157**: the mean point of a quadratic. -/
theorem C157_quadratic (q : QuadraticBezier P) (c : ℕ) :
    ∫ t in (0 : ℝ)..1, coord (q.eval t) c = (coord q.start c + coord q.ctrl c + coord q.end_ c) / 3 := by
  obtain ⟨f, hf, h⟩ := C157_bezier (n := 2) ⟨![q.start, q.ctrl, q.end_]⟩
  have key : ∀ t, coord (q.eval t) c = coord (f t) c := by
    intro t
    obtain ⟨p, hp, e⟩ := C30_eval (⟨![q.start, q.ctrl, q.end_]⟩ : Bezier P 3) (by omega) t
    rw [hf] at hp
    cases hp
    rw [e, C10_eval, bezierCoord, Fin.sum_univ_three]
    simp [bernstein, Bezier.controlPoints]
  simp only [key, h]
  rw [Fin.sum_univ_three]
  norm_num
  rfl

/-- **C157**: the mean point of a cubic. -/
theorem C157_cubic (q : CubicBezier P) (c : ℕ) :
    ∫ t in (0 : ℝ)..1, coord (q.eval t) c
      = (coord q.start c + coord q.ctrl1 c + coord q.ctrl2 c + coord q.end_ c) / 4 := by
  obtain ⟨f, hf, h⟩ := C157_bezier (n := 3) ⟨![q.start, q.ctrl1, q.ctrl2, q.end_]⟩
  have key : ∀ t, coord (q.eval t) c = coord (f t) c := by
    intro t
    obtain ⟨p, hp, e⟩ := C30_eval (⟨![q.start, q.ctrl1, q.ctrl2, q.end_]⟩ : Bezier P 4) (by omega) t
    rw [hf] at hp
    cases hp
    rw [e, C20_eval, bezierCoord, Fin.sum_univ_four]
    simp [bernstein, Bezier.controlPoints]
  simp only [key, h]
  rw [Fin.sum_univ_four]
  norm_num
  rfl

end Curves

section Splines
variable {P : Type} [Point ℝ P] [LawfulPoint P] {K C D : ℕ} {knots : Arr ℝ K} {ps : Arr P C}
  {b : BSpline ℝ P K C D}

/-- The weights of the control points in the mean point are not negative and add up to the length of the
domain. -/
theorem C157_weights (v : ValidSpline C D knots) (f1 : knotAt knots 0 = knotAt knots D)
    (l1 : knotAt knots C = knotAt knots (K - 1)) :
    (∀ i < C, 0 ≤ (knotAt knots (i + D + 1) - knotAt knots i) / (D + 1)) ∧
    ∑ i : Fin C, (knotAt knots (i.val + D + 1) - knotAt knots i.val) / (D + 1)
      = knotAt knots C - knotAt knots D := by
  obtain ⟨v1, v2, v3⟩ := v
  have D0 : (0 : ℝ) < D + 1 := by positivity
  constructor
  · intro i hi
    have := mono_knotAt v3 (show i ≤ i + D + 1 by omega) (by omega)
    exact div_nonneg (by linarith) D0.le
  rw [← Finset.sum_div, div_eq_iff D0.ne', Fin.sum_univ_eq_sum_range
    (fun i => knotAt knots (i + D + 1) - knotAt knots i), Finset.sum_sub_distrib]
  have s1 := Finset.sum_range_add (knotAt knots) (D + 1) C
  have s2 := Finset.sum_range_add (knotAt knots) C (D + 1)
  have front : ∑ j ∈ Finset.range (D + 1), knotAt knots j = (D + 1) * knotAt knots D := by
    rw [Finset.sum_congr rfl (g := fun _ => knotAt knots D) (fun j hj => ?_), Finset.sum_const,
      Finset.card_range, nsmul_eq_mul]
    · push_cast
      rfl
    · have := Finset.mem_range.1 hj
      have a := mono_knotAt v3 (show 0 ≤ j by omega) (by omega)
      have b := mono_knotAt v3 (show j ≤ D by omega) (by omega)
      linarith
  have back : ∑ j ∈ Finset.range (D + 1), knotAt knots (C + j) = (D + 1) * knotAt knots C := by
    rw [Finset.sum_congr rfl (g := fun _ => knotAt knots C) (fun j hj => ?_), Finset.sum_const,
      Finset.card_range, nsmul_eq_mul]
    · push_cast
      rfl
    · have := Finset.mem_range.1 hj
      have a := mono_knotAt v3 (show C ≤ C + j by omega) (by omega)
      have b := mono_knotAt v3 (show C + j ≤ K - 1 by omega) (by omega)
      linarith
  rw [add_comm C (D + 1)] at s2
  have sh : ∑ i ∈ Finset.range C, knotAt knots (i + D + 1) = ∑ i ∈ Finset.range C, knotAt knots (D + 1 + i) :=
    Finset.sum_congr rfl fun i _ => by rw [show i + D + 1 = D + 1 + i by omega]
  rw [sh]
  linarith

theorem splineCoord_integral (v : ValidSpline C D knots) (f1 : knotAt knots 0 = knotAt knots D)
    (l1 : knotAt knots C = knotAt knots (K - 1)) (hmult : ∀ i < C, knotAt knots i < knotAt knots (i + D + 1))
    (ps : Arr P C) (c : ℕ) :
    ∫ t in knotAt knots D..knotAt knots C, splineCoord D knots ps t c
      = ∑ i : Fin C, (knotAt knots (i.val + D + 1) - knotAt knots i.val) / (D + 1) * coord (ps i) c := by
  obtain ⟨v1, v2, v3⟩ := v
  have key := fun i : Fin C => coxDeBoor_integral (fun i j (hij : i ≤ j) (hj : j < K) => mono_knotAt v3 hij hj)
    (fun i hi => hmult i (by omega)) (i := i.val) (D := D) (by omega)
  rw [← f1, l1]
  unfold splineCoord
  rw [integral_finsetSum fun i _ => (key i).1.mul_const _]
  exact Finset.sum_congr rfl fun i _ => by rw [intervalIntegral.integral_mul_const, (key i).2]

/-- **C157** for the repaired program: if the first and the last `D + 1` knots coincide and no knot is repeated
more than `D + 1` times, the integral of the curve over its domain is the sum of its control points, each with
the length of the knot interval on which it has influence, divided by `D + 1`. -/
theorem C157_repaired (h : BSpline.new knots ps = .ok b) (f1 : knotAt knots 0 = knotAt knots D)
    (l1 : knotAt knots C = knotAt knots (K - 1)) (hmult : ∀ i < C, knotAt knots i < knotAt knots (i + D + 1)) :
    ∃ f : ℝ → P, (∀ t, knotAt knots D ≤ t → t ≤ knotAt knots C → b.evalFixed t = .ok (f t)) ∧ ∀ c,
      ∫ t in knotAt knots D..knotAt knots C, coord (f t) c
        = ∑ i : Fin C, (knotAt knots (i.val + D + 1) - knotAt knots i.val) / (D + 1) * coord (ps i) c := by
  have v := ((new_ok_iff _ _ _).1 h).1
  obtain ⟨v1, v2, v3⟩ := id v
  obtain ⟨f, hf, -⟩ := C143_repaired h
  refine ⟨f, hf, fun c => ?_⟩
  rw [← splineCoord_integral v f1 l1 hmult]
  refine integral_congr_ae ?_
  filter_upwards [compl_mem_ae_iff.2 (measure_singleton (μ := volume) (knotAt knots C))] with x hx hx'
  rw [Set.uIoc_of_le (mono_knotAt v3 (by omega) (by omega))] at hx'
  obtain ⟨q, hq, e⟩ := C121_bspline h hx'.1.le (lt_of_le_of_ne hx'.2 hx)
  rw [hf x hx'.1.le hx'.2] at hq
  cases hq
  exact e c

/-- **C157** with the calls of this version: the coordinates that the detour of C136 delivers. -/
theorem C157_detour (v : ValidSpline C D knots) (hc : FrontClamped D knots ∨ BackClamped D knots)
    (f1 : knotAt knots 0 = knotAt knots D) (l1 : knotAt knots C = knotAt knots (K - 1))
    (hmult : ∀ i < C, knotAt knots i < knotAt knots (i + D + 1)) (ps : Arr P C) :
    ∃ g : ℝ → ℕ → ℝ,
      (∀ c, ∫ t in knotAt knots D..knotAt knots C, g t c
        = ∑ i : Fin C, (knotAt knots (i.val + D + 1) - knotAt knots i.val) / (D + 1) * coord (ps i) c) ∧
      ∀ (t : ℝ) (k : ℕ) (_ : D ≤ k) (hkC : k < C), knotAt knots k ≤ t → t < knotAt knots (k + 1) →
        (∀ i : Fin K, knots i < t → eps ≤ t - knots i) →
        ∃ (b : BSpline ℝ P K C D) (q : P),
          BSpline.new knots (fun i => ps i - ps ⟨k, hkC⟩) = .ok b ∧ b.eval t = .ok q ∧
          ∀ c, coord (q + ps ⟨k, hkC⟩) c = g t c :=
  ⟨fun t c => splineCoord D knots ps t c, fun c => splineCoord_integral v f1 l1 hmult ps c,
    fun _ _ hDk hkC h1 h2 heps => C136_bspline v hc ps hDk hkC h1 h2 heps⟩

/-- **C157**, what holds of `eval` itself: on a part of a span (without the `EPSILON` above its first knot) the
integral is the sum of the control points, each with the integral of its basis function; but control point `k`,
which belongs to the sum, is missing. -/
theorem C157_partial (h : BSpline.new knots ps = .ok b) (hc : FrontClamped D knots ∨ BackClamped D knots)
    (hmult : ∀ i < C, knotAt knots i < knotAt knots (i + D + 1)) {k : ℕ} (hDk : D ≤ k) (hkC : k < C)
    {f : ℝ → P} (hf : ∀ t, knotAt knots k + eps ≤ t → t < knotAt knots (k + 1) → b.eval t = .ok (f t))
    {x y : ℝ} (hx : knotAt knots k + eps ≤ x) (hxy : x ≤ y) (hy : y ≤ knotAt knots (k + 1)) (c : ℕ) :
    ∫ t in x..y, coord (f t) c
      = ∑ i : Fin C, if i.val = k then 0 else (∫ t in x..y, coxDeBoor (knotAt knots) D i.val t) * coord (ps i) c := by
  obtain ⟨v1, v2, v3⟩ := ((new_ok_iff _ _ _).1 h).1
  have hm := fun i j (hij : i ≤ j) (hj : j < K) => mono_knotAt v3 hij hj
  have e0 := eps_pos
  have int : ∀ i : Fin C, IntervalIntegrable (coxDeBoor (knotAt knots) D i.val) volume x y := by
    intro i
    refine (coxDeBoor_integral hm (fun i hi => hmult i (by omega)) (i := i.val) (D := D) (by omega)).1.mono_set ?_
    have a := hm 0 k (by omega) (by omega)
    have b := hm (k + 1) (K - 1) (by omega) (by omega)
    rw [Set.uIcc_of_le hxy, Set.uIcc_of_le (by linarith)]
    exact Set.Icc_subset_Icc (by linarith) (by linarith)
  have same : ∀ᵐ t : ℝ, t ∈ Set.uIoc x y → coord (f t) c
      = ∑ i : Fin C, if i.val = k then 0 else coxDeBoor (knotAt knots) D i.val t * coord (ps i) c := by
    filter_upwards [compl_mem_ae_iff.2 (measure_singleton (μ := volume) (knotAt knots (k + 1)))] with t ht ht'
    rw [Set.uIoc_of_le hxy] at ht'
    have t1 : knotAt knots k + eps ≤ t := hx.trans ht'.1.le
    have t2 : t < knotAt knots (k + 1) := lt_of_le_of_ne (ht'.2.trans hy) ht
    obtain ⟨q, hq, e⟩ := C48_partial h hc hDk hkC (by linarith) t2 (fun i hi => by
      have ik : i.val ≤ k := by
        by_contra hcon
        have a := hm (k + 1) i.val (by omega) i.isLt
        rw [knotAt_lt _ i.isLt] at a
        linarith
      have a := hm i.val k ik (by omega)
      rw [knotAt_lt _ i.isLt] at a
      linarith)
    rw [hf t t1 t2] at hq
    cases hq
    rw [e, splineCoord, ← Finset.add_sum_erase _ _ (Finset.mem_univ (⟨k, hkC⟩ : Fin C)),
      ← Finset.add_sum_erase (a := (⟨k, hkC⟩ : Fin C)) Finset.univ
        (fun i : Fin C => if i.val = k then 0 else coxDeBoor (knotAt knots) D i.val t * coord (ps i) c)
        (Finset.mem_univ _), if_pos rfl, zero_add, add_sub_cancel_left]
    refine Finset.sum_congr rfl fun i hi => ?_
    rw [if_neg fun e => Finset.ne_of_mem_erase hi (Fin.ext e)]
  rw [integral_congr_ae same, intervalIntegral.integral_finsetSum]
  · refine Finset.sum_congr rfl fun i _ => ?_
    by_cases e : i.val = k
    · simp only [if_pos e, intervalIntegral.integral_zero]
    · simp only [if_neg e, intervalIntegral.integral_mul_const]
  · intro i _
    by_cases e : i.val = k
    · simp only [if_pos e]
      exact intervalIntegrable_const
    · simp only [if_neg e]
      exact (int i).mul_const _

/-- **C157** is false of `eval`: if all control points but the last one are the origin, the mean point of a
single segment has coordinates 0, not the `D + 1`st part of those of the last control point. -/
theorem C157_false {ps : Arr P (D + 1)} {b : BSpline ℝ P (D + 1 + D + 1) (D + 1) D}
    (h : BSpline.new (bezierKnots D) ps = .ok b) (hp : ∀ i : Fin (D + 1), i.val < D → ps i = Point.default)
    (f : ℝ → P) (hf : ∀ t, 0 ≤ t → t ≤ 1 → b.eval t = .ok (f t)) {c : ℕ}
    (hc : coord (ps (Fin.last D)) c ≠ 0) :
    ∫ t in (0 : ℝ)..1, coord (f t) c = 0 ∧
    ∑ i : Fin (D + 1), (knotAt (bezierKnots D) (i.val + D + 1) - knotAt (bezierKnots D) i.val) / (D + 1)
      * coord (ps i) c ≠ 0 := by
  constructor
  swap
  · rw [Fin.sum_univ_castSucc, Finset.sum_eq_zero fun i _ => by
      rw [hp i.castSucc i.isLt, coord_default, mul_zero], zero_add, knotAt_bezier (by simp),
      knotAt_bezier (by simp), if_neg (by simp), if_pos (by simp)]
    have : (D + 1 : ℝ) ≠ 0 := by positivity
    exact mul_ne_zero (div_ne_zero (by norm_num) this) hc
  have z : ∫ _t in (0 : ℝ)..1, (0 : ℝ) = 0 := intervalIntegral.integral_zero
  refine Eq.trans (integral_congr_ae ?_) z
  filter_upwards [compl_mem_ae_iff.2 (measure_singleton (μ := volume) (1 : ℝ))] with x hx hx'
  rw [Set.uIoc_of_le zero_le_one] at hx'
  have x1 : x < 1 := lt_of_le_of_ne hx'.2 hx
  have := eval_in_span h (Or.inl (front_bezier D)) (t := x) (k := D) le_rfl (by omega)
    (by rw [knotAt_bezier (by omega), if_pos le_rfl]; exact hx'.1.le)
    (by rw [knotAt_bezier (by omega), if_neg (by omega)]; exact x1)
  rw [hf x hx'.1.le hx'.2] at this
  rw [Outcome.ok.inj this, coord_deBoorValue_weights]
  refine Finset.sum_eq_zero fun m hm => ?_
  have hm := Finset.mem_range.1 hm
  rw [Nat.add_sub_cancel, extend_lt _ (show m < D + 1 by omega), hp _ hm, coord_default, mul_zero]

end Splines

/-! ### The hypotheses can be met -/

/-- The mean point of a parabola. -/
example : ∫ t in (0 : ℝ)..1, coord ((⟨p1 0, p1 0, p1 3⟩ : QuadraticBezier (PointN ℝ 1)).eval t) 0 = 1 := by
  rw [C157_quadratic]
  simp [coord_p1]

/-- A quadratic B-spline with an inner knot. -/
example : ∃ (b : BSpline ℝ (PointN ℝ 1) 7 4 2) (f : ℝ → PointN ℝ 1),
    BSpline.new ![0, 0, 0, 1, 2, 2, 2] ![p1 0, p1 3, p1 6, p1 0] = .ok b ∧
    (∀ t, 0 ≤ t → t ≤ 2 → b.evalFixed t = .ok (f t)) ∧ ∫ t in (0 : ℝ)..2, coord (f t) 0 = 6 := by
  have hv : ValidSpline 4 2 (![0, 0, 0, 1, 2, 2, 2] : Fin 7 → ℝ) := by
    refine ⟨by omega, by omega, ?_⟩
    intro i j hij
    fin_cases i <;> fin_cases j <;> first | (exfalso; revert hij; decide) | norm_num
  obtain ⟨b, hb⟩ := (C43_accepts _ ![p1 0, p1 3, p1 6, p1 0]).2 hv
  obtain ⟨f, hf, h⟩ := C157_repaired hb (by simp [knotAt]) (by simp [knotAt]) (by
    intro i hi
    interval_cases i <;> simp [knotAt])
  refine ⟨b, f, hb, fun t t0 t1 => hf t (by simpa [knotAt] using t0) (by simpa [knotAt] using t1), ?_⟩
  have := h 0
  rw [Fin.sum_univ_four] at this
  simp [knotAt, coord_p1] at this
  rw [this]
  norm_num

/-- The straight line from 0 to 1 as a B-spline, with `eval` as it is: the mean is 0 instead of 1/2. -/
example : ∃ b : BSpline ℝ (PointN ℝ 1) 4 2 1, BSpline.new (bezierKnots 1) ![p1 0, p1 1] = .ok b ∧
    ∀ f : ℝ → PointN ℝ 1, (∀ t, 0 ≤ t → t ≤ 1 → b.eval t = .ok (f t)) →
      ∫ t in (0 : ℝ)..1, coord (f t) 0 = 0 := by
  obtain ⟨b, hb⟩ := (C43_accepts _ ![p1 0, p1 1]).2 (valid_bezier 1)
  refine ⟨b, hb, fun f hf => (C157_false (c := 0) hb ?_ f hf ?_).1⟩
  · intro i hi
    have i0 : i = 0 := Fin.ext (by simpa using hi)
    rw [i0]
    show p1 0 = Point.default
    apply point_ext
    intro c
    rcases Nat.eq_zero_or_pos c with rfl | hc
    · simp
    · rw [coord_out _ (show ¬ c < 1 by omega), coord_out _ (show ¬ c < 1 by omega)]
  · show coord (p1 1) 0 ≠ 0
    rw [coord_p1]
    norm_num

end Stroke
