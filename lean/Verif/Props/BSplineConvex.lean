import Verif.Props.BSplineUnique

set_option linter.unusedSectionVars false

/-!
# A convex control polygon gives a convex B-spline (C149)

Every control point belongs to a parameter, the average of the `D` knots after its own.  If the slopes
of the control polygon over these parameters increase in some direction, that coordinate of the curve
is a convex function of the parameter: the curve lies below each of its chords.  The derivative of the
spline is a spline of one degree less with the slopes as its control points, and it does not decrease
(C144).

`evalFixed` (Verif/Repaired/Model.lean) has the property; for the code's `eval` see the partial, detour
and negated versions.
-/

open Filter Topology

namespace Stroke

/-- A function with a right derivative that does not decrease lies below its chords. -/
theorem chord_of_right_deriv {f g : ℝ → ℝ} {s m t : ℝ} (hsm : s ≤ m) (hmt : m < t)
    (cont : ContinuousOn f (Set.Icc s t))
    (der : ∀ x, s ≤ x → x < t → HasDerivWithinAt f (g x) (Set.Ici x) x)
    (mono : ∀ x z, s ≤ x → x ≤ z → z < t → g x ≤ g z) :
    (t - s) * f m ≤ (t - m) * f s + (m - s) * f t := by
  have right : f m + g m * (t - m) ≤ f t := by
    refine image_le_of_deriv_right_le_deriv_boundary (f := fun x => f m + g m * (x - m))
      (f' := fun _ => g m) (a := m) (b := t) (by fun_prop) (fun x _ => ?_) (by simp)
      (cont.mono (Set.Icc_subset_Icc_left hsm)) (fun x hx => der x (hsm.trans hx.1) hx.2)
      (fun x hx => mono m x hsm hx.1 hx.2) ⟨hmt.le, le_rfl⟩
    have := (((hasDerivAt_id x).sub_const m).const_mul (g m)).const_add (f m)
    simpa using this.hasDerivWithinAt
  have left : f m ≤ f s + g m * (m - s) := by
    refine image_le_of_deriv_right_le_deriv_boundary (f := f)
      (f' := g) (B := fun x => f s + g m * (x - s)) (B' := fun _ => g m) (a := s) (b := m)
      (cont.mono (Set.Icc_subset_Icc_right hmt.le)) (fun x hx => der x hx.1 (hx.2.trans hmt)) (by simp)
      (by fun_prop) (fun x _ => ?_) (fun x hx => mono x m hx.1 hx.2.le hmt) ⟨hsm, le_rfl⟩
    have := (((hasDerivAt_id x).sub_const s).const_mul (g m)).const_add (f s)
    simpa using this.hasDerivWithinAt
  nlinarith [mul_le_mul_of_nonneg_left right (sub_nonneg.2 hsm),
    mul_le_mul_of_nonneg_left left (sub_nonneg.2 hmt.le)]

section Basis
variable {u : ℕ → ℝ} {K C D : ℕ}

/-- The slope of leg `i` of the control polygon `y` over the averages of the knots. -/
noncomputable def legSlope (u : ℕ → ℝ) (D : ℕ) (y : ℕ → ℝ) (i : ℕ) : ℝ :=
  (y i - y (i - 1)) * (D * (u (i + D) - u i)⁻¹)

/-- The spline with these slopes as control points does not decrease. -/
theorem slopes_mono {d : ℕ} (hm : ∀ i j, i ≤ j → j < K → u i ≤ u j) (hK : K = C + (d + 1) + 1)
    (hDC : d + 1 < C) (y : ℕ → ℝ) {s t : ℝ} (h1 : u (d + 1) ≤ s) (hst : s ≤ t) (h2 : t < u C)
    (hy : ∀ i, 1 ≤ i → i + 1 < C → u (i + 1) ≤ t → s < u (i + (d + 1)) → y i ≤ y (i + 1)) :
    ∑ i ∈ Finset.Ico 1 C, y i * coxDeBoor u d i s ≤ ∑ i ∈ Finset.Ico 1 C, y i * coxDeBoor u d i t := by
  have hm' : ∀ i j, i ≤ j → j < C - 1 + d + 1 → (fun j => u (j + 1)) i ≤ (fun j => u (j + 1)) j :=
    fun i j hij hj => hm _ _ (by omega) (by omega)
  have hC : C - 1 + 1 = C := by omega
  have h1' : (fun j => u (j + 1)) d ≤ s := h1
  have h2' : t < (fun j => u (j + 1)) (C - 1) := by simpa only [hC] using h2
  have e : ∀ x, ∑ i ∈ Finset.Ico 1 C, y i * coxDeBoor u d i x
      = ∑ j ∈ Finset.range (C - 1), coxDeBoor (fun j => u (j + 1)) d j x * y (j + 1) := by
    intro x
    rw [Finset.sum_Ico_eq_sum_range]
    exact Finset.sum_congr rfl fun j _ => by rw [coxDeBoor_shift, Nat.add_comm 1 j, mul_comm]
  rw [e, e, sum_by_tails _ (fun j => y (j + 1)) (C - 1) (by omega),
    sum_by_tails _ (fun j => y (j + 1)) (C - 1) (by omega),
    basis_sum_one hm' rfl (by omega) h1' (hst.trans_lt h2'),
    basis_sum_one hm' rfl (by omega) (h1'.trans hst) h2']
  refine add_le_add le_rfl (Finset.sum_le_sum fun i hi => ?_)
  obtain ⟨i1, i2⟩ := Finset.mem_Ico.1 hi
  have mono := tailSum_mono hm' rfl (by omega) i2.le h1' hst h2'
  unfold tailSum at mono
  by_cases hin : u (i + 1) ≤ t ∧ s < u (i + (d + 1))
  · refine mul_le_mul_of_nonneg_left mono ?_
    have := hy i i1 (by omega) hin.1 hin.2
    rw [Nat.sub_add_cancel i1]
    linarith
  · have hc := legShare_const hm' (K := C - 1 + d + 1) rfl (by omega) i2 h1' hst (by
      by_contra hcon
      rw [not_or, not_lt, not_le] at hcon
      exact hin ⟨hcon.1, by rw [← Nat.add_assoc]; exact hcon.2⟩)
    simp only [legShare] at hc
    rw [if_pos (hst.trans_lt h2'), if_pos h2'] at hc
    unfold tailSum at hc
    rw [hc]

/-- The right derivative of a sum of shares. -/
theorem legShares_deriv {d : ℕ} (hm : ∀ i j, i ≤ j → j < K → u i ≤ u j) (hK : K = C + (d + 1) + 1)
    (hDC : d + 1 < C) (y : ℕ → ℝ) {x : ℝ} (h1 : u (d + 1) ≤ x) (h2 : x < u C) :
    HasDerivWithinAt (fun x => ∑ i ∈ Finset.Ico 1 C, (y i - y (i - 1)) * legShare (d + 1) C u i x)
      (∑ i ∈ Finset.Ico 1 C, legSlope u (d + 1) y i * coxDeBoor u d i x) (Set.Ici x) x := by
  refine HasDerivWithinAt.fun_sum fun i hi => ?_
  have h := (tailSum_deriv_right hm hK hDC (Finset.mem_Ico.1 hi).2.le h1 h2).const_mul (y i - y (i - 1))
  have h' : HasDerivWithinAt (fun x => (y i - y (i - 1)) * tailSum u (d + 1) C i x)
      (legSlope u (d + 1) y i * coxDeBoor u d i x) (Set.Ici x) x := by
    refine h.congr_deriv ?_
    unfold legSlope
    push_cast
    rw [Nat.add_assoc]
    ring
  refine h'.congr_of_eventuallyEq ?_ ?_
  · filter_upwards [Ico_mem_nhdsGE h2] with z hz
    simp only [legShare]
    rw [if_pos hz.2]
  · simp only [legShare]
    rw [if_pos h2]

end Basis

section Splines
variable {P : Type} [Point ℝ P] [LawfulPoint P] {K C D : ℕ}
variable {knots : Arr ℝ K} {ps : Arr P C} {b : BSpline ℝ P K C D}

/-- The shares are continuous where no knot is repeated more than `D` times. -/
theorem legShares_continuous (v : ValidSpline C D knots) (hD : 1 ≤ D) (y : ℕ → ℝ) {s t : ℝ}
    (h1 : knotAt knots D ≤ s) (h2 : BeforeOrClamped C D knots t)
    (hsep : ∀ i, 1 ≤ i → i < C → s < knotAt knots i → knotAt knots i ≤ t →
      knotAt knots i < knotAt knots (i + D)) :
    ContinuousOn (fun x => ∑ i ∈ Finset.Ico 1 C, (y i - y (i - 1)) * legShare D C (knotAt knots) i x)
      (Set.Icc s t) := by
  obtain ⟨v1, v2, v3⟩ := id v
  have hm := fun i j (hij : i ≤ j) (hj : j < K) => mono_knotAt v3 hij hj
  have D0 : (0 : ℝ) < D := by exact_mod_cast hD
  have tC : t ≤ knotAt knots C := by
    rcases h2 with h2 | h2
    · exact h2.le
    · exact h2.1.le
  refine continuousOn_finsetSum _ fun i hi => continuousOn_const.mul fun x hx => ?_
  obtain ⟨i1, i2⟩ := Finset.mem_Ico.1 hi
  rcases lt_or_ge x (knotAt knots C) with xC | xC
  · have near : ∀ᶠ z in 𝓝 x, legShare D C (knotAt knots) i z = tailSum (knotAt knots) D C i z := by
      filter_upwards [Iio_mem_nhds xC] with z hz
      simp only [legShare]
      rw [if_pos (Set.mem_Iio.1 hz)]
    have atx : legShare D C (knotAt knots) i x = tailSum (knotAt knots) D C i x := by
      simp only [legShare]
      rw [if_pos xC]
    rcases eq_or_lt_of_le hx.1 with e | l
    · subst e
      have : ContinuousWithinAt (tailSum (knotAt knots) D C i) (Set.Ici s) s := by
        unfold tailSum
        exact tendsto_finsetSum _ fun j _ => coxDeBoor_continuousWithinAt s D j
      exact (this.mono fun z hz => hz.1).congr_of_eventuallyEq
        (near.filter_mono nhdsWithin_le_nhds) atx
    · refine ContinuousAt.continuousWithinAt (ContinuousAt.congr ?_ (near.mono fun z hz => hz.symm))
      unfold tailSum
      refine tendsto_finsetSum _ fun j hj => ?_
      obtain ⟨j1, j2⟩ := Finset.mem_Ico.1 hj
      refine coxDeBoor_continuousAt_of hm x D j (by omega) ?_ ?_
      · rintro ⟨e1, e2⟩
        have := hsep j (by omega) j2 (by rw [e1]; exact l) (by rw [e1]; exact hx.2)
        linarith
      · rintro ⟨e1, e2⟩
        have hj1 : j + 1 ≠ C := by
          intro e
          rw [e] at e1
          linarith
        have := hsep (j + 1) (by omega) (by omega) (by rw [e1]; exact l) (by rw [e1]; exact hx.2)
        rw [show j + 1 + D = j + D + 1 by omega] at this
        linarith
  · -- the end
    have hxC : x = knotAt knots C := le_antisymm (hx.2.trans tC) xC
    have hxt : x = t := le_antisymm hx.2 (hxC ▸ tC)
    have hend : legShare D C (knotAt knots) i x = 1 := by
      simp only [legShare]
      rw [if_neg (not_lt.2 xC)]
    rcases eq_or_lt_of_le hx.1 with e | l
    · subst e
      rw [← hxt, Set.Icc_self]
      exact continuousWithinAt_singleton
    by_cases hflat : knotAt knots (i + D) ≤ s
    · refine (continuousWithinAt_const (b := (1 : ℝ))).congr (fun z hz => ?_) hend
      rw [legShare_const hm v2 v1 i2 (h1.trans hz.1) (hz.2) (.inr (hflat.trans hz.1)), ← hxt, hend]
    have hw : 0 < (knotAt knots (i + D) - knotAt knots i) / D := by
      refine div_pos ?_ D0
      rcases le_or_gt (knotAt knots i) s with a | a
      · linarith [not_le.1 hflat]
      · linarith [hsep i i1 i2 a ((hm i C i2.le (by omega)).trans (hxC ▸ hxt ▸ le_rfl))]
    rw [ContinuousWithinAt, hend]
    have bound : ∀ z ∈ Set.Icc s t, 1 - (t - z) / ((knotAt knots (i + D) - knotAt knots i) / D)
        ≤ legShare D C (knotAt knots) i z ∧ legShare D C (knotAt knots) i z ≤ 1 := by
      intro z hz
      refine ⟨?_, (legShare_mem hm v2 v1 i (h1.trans hz.1)).2⟩
      have g := legShare_greville v hD (h1.trans hz.1) hz.2 h2
      have single := Finset.single_le_sum (f := fun i => (knotAt knots (i + D) - knotAt knots i) / D
        * (legShare D C (knotAt knots) i t - legShare D C (knotAt knots) i z)) (fun j hj => by
          obtain ⟨j1, j2⟩ := Finset.mem_Ico.1 hj
          have := hm j (j + D) (by omega) (by omega)
          have := legShare_mono hm v2 v1 j2.le (h1.trans hz.1) hz.2
          exact mul_nonneg (div_nonneg (by linarith) D0.le) (by linarith)) hi
      rw [g] at single
      rw [← hxt, hend] at single
      rw [hxt] at single
      have : 1 - legShare D C (knotAt knots) i z
          ≤ (t - z) / ((knotAt knots (i + D) - knotAt knots i) / D) := by
        rw [le_div_iff₀ hw, mul_comm]
        exact single
      linarith
    have lim : Tendsto (fun z => 1 - (t - z) / ((knotAt knots (i + D) - knotAt knots i) / D))
        (𝓝[Set.Icc s t] x) (𝓝 1) := by
      have hc : Continuous fun z => 1 - (t - z) / ((knotAt knots (i + D) - knotAt knots i) / D) := by
        fun_prop
      have := hc.tendsto x
      rw [hxt, sub_self, zero_div, sub_zero] at this
      rw [hxt]
      exact this.mono_left nhdsWithin_le_nhds
    exact tendsto_of_tendsto_of_tendsto_of_le_of_le' lim tendsto_const_nhds
      (eventually_nhdsWithin_of_forall fun z hz => (bound z hz).1)
      (eventually_nhdsWithin_of_forall fun z hz => (bound z hz).2)

/-- A convex polygon gives convex sums of shares. -/
theorem legShares_convex (v : ValidSpline C D knots) (hD : 1 ≤ D) (y : ℕ → ℝ) {s m t : ℝ}
    (h1 : knotAt knots D ≤ s) (hsm : s ≤ m) (hmt : m ≤ t) (h2 : BeforeOrClamped C D knots t)
    (hsep : ∀ i, 1 ≤ i → i < C → s < knotAt knots i → knotAt knots i ≤ t →
      knotAt knots i < knotAt knots (i + D))
    (hy : ∀ i, 1 ≤ i → i + 1 < C → knotAt knots (i + 1) ≤ t → s < knotAt knots (i + D) →
      legSlope (knotAt knots) D y i ≤ legSlope (knotAt knots) D y (i + 1))
    {f : ℝ → ℝ} (hf : ∀ x, f x = ∑ i ∈ Finset.Ico 1 C, (y i - y (i - 1)) * legShare D C (knotAt knots) i x) :
    (t - s) * f m ≤ (t - m) * f s + (m - s) * f t := by
  obtain ⟨v1, v2, v3⟩ := id v
  have hm := fun i j (hij : i ≤ j) (hj : j < K) => mono_knotAt v3 hij hj
  obtain ⟨d, rfl⟩ : ∃ d, D = d + 1 := ⟨D - 1, by omega⟩
  have hff : f = fun x => ∑ i ∈ Finset.Ico 1 C, (y i - y (i - 1)) * legShare (d + 1) C (knotAt knots) i x :=
    funext hf
  have tC : t ≤ knotAt knots C := by
    rcases h2 with h2 | h2
    · exact h2.le
    · exact h2.1.le
  rcases eq_or_lt_of_le hmt with rfl | hmt
  · linarith
  set g : ℝ → ℝ := fun x => ∑ i ∈ Finset.Ico 1 C, legSlope (knotAt knots) (d + 1) y i
    * coxDeBoor (knotAt knots) d i x with hg
  have cont : ContinuousOn f (Set.Icc s t) := hff ▸ legShares_continuous v hD y h1 h2 hsep
  have der : ∀ x, s ≤ x → x < t → HasDerivWithinAt f (g x) (Set.Ici x) x := fun x x1 x2 => by
    rw [hff]; exact legShares_deriv hm v2 v1 y (h1.trans x1) (x2.trans_le tC)
  have mono : ∀ x z, s ≤ x → x ≤ z → z < t → g x ≤ g z := fun x z x1 xz z2 =>
    slopes_mono hm v2 v1 _ (h1.trans x1) xz (z2.trans_le tC) fun i i1 i2 i3 i4 =>
      hy i i1 i2 (i3.trans z2.le) (x1.trans_lt i4)
  exact chord_of_right_deriv hsm hmt cont der mono

/-- The same for points, in a direction. -/
theorem side_convex_legSum (v : ValidSpline C D knots) (hD : 1 ≤ D) (a : ℕ → ℝ) {s t l : ℝ}
    (h1 : knotAt knots D ≤ s) (hst : s ≤ t) (hl : l ∈ Set.Icc (0 : ℝ) 1)
    (h2 : BeforeOrClamped C D knots t)
    (hsep : ∀ i, 1 ≤ i → i < C → s < knotAt knots i → knotAt knots i ≤ t →
      knotAt knots i < knotAt knots (i + D))
    (hy : ∀ i, 1 ≤ i → i + 1 < C → knotAt knots (i + 1) ≤ t → s < knotAt knots (i + D) →
      legSlope (knotAt knots) D (fun j => side a 0 (extend ps j)) i
        ≤ legSlope (knotAt knots) D (fun j => side a 0 (extend ps j)) (i + 1))
    {p q r : P} (hp : IsLegSum D knots ps s p) (hq : IsLegSum D knots ps t q)
    (hr : IsLegSum D knots ps ((1 - l) * s + l * t) r) :
    side a 0 r ≤ (1 - l) * side a 0 p + l * side a 0 q := by
  have m1 : s ≤ (1 - l) * s + l * t := by nlinarith [hl.1]
  have m2 : (1 - l) * s + l * t ≤ t := by nlinarith [hl.2]
  have key := legShares_convex v hD _ h1 m1 m2 h2 hsep hy (fun x => rfl)
  have e1 := side_legSum hp hr a
  have e2 := side_legSum hp hq a
  simp only [mul_sub, Finset.sum_sub_distrib] at e1 e2
  revert key e1 e2
  set A := ∑ i ∈ Finset.Ico 1 C, (side a 0 (extend ps i) - side a 0 (extend ps (i - 1)))
    * legShare D C (knotAt knots) i ((1 - l) * s + l * t)
  set B := ∑ i ∈ Finset.Ico 1 C, (side a 0 (extend ps i) - side a 0 (extend ps (i - 1)))
    * legShare D C (knotAt knots) i s with hB
  set E := ∑ i ∈ Finset.Ico 1 C, (side a 0 (extend ps i) - side a 0 (extend ps (i - 1)))
    * legShare D C (knotAt knots) i t with hE
  intro key e1 e2
  have fin : A ≤ (1 - l) * B + l * E := by
    rcases eq_or_lt_of_le hst with hlt | hlt
    · have hA : A = B := by simp only [A, B, ← hlt]; rw [show (1 - l) * s + l * s = s by ring]
      have hE' : E = B := by rw [hE, hB, ← hlt]
      rw [hA, hE']
      linarith
    · have hpos := sub_pos.2 hlt
      refine le_of_mul_le_mul_left ?_ hpos
      calc (t - s) * A ≤ _ := key
        _ = (t - s) * ((1 - l) * B + l * E) := by ring
  have : (1 - l) * side a 0 p + l * side a 0 q - side a 0 p = l * (E - B) := by rw [← e2]; ring
  linarith

/-- A point with leg shares, in a direction. -/
theorem side_legSum_eq {t : ℝ} {p : P} (hp : IsLegSum D knots ps t p) (a : ℕ → ℝ) :
    side a 0 p = side a 0 (extend ps 0) + ∑ j ∈ Finset.Ico 1 C,
      (side a 0 (extend ps j) - side a 0 (extend ps (j - 1))) * legShare D C (knotAt knots) j t := by
  unfold side
  simp only [sub_zero, ← Finset.sum_sub_distrib, ← mul_sub]
  simp only [hp _, mul_add, Finset.sum_add_distrib, Finset.mul_sum, Finset.sum_mul]
  congr 1
  rw [Finset.sum_comm]
  exact Finset.sum_congr rfl fun j _ => Finset.sum_congr rfl fun c _ => by ring

/-- A convex polygon: no point of the curve is below the line through a leg. -/
theorem above_legShares (v : ValidSpline C D knots) (hD : 1 ≤ D) (y : ℕ → ℝ) {t : ℝ}
    (h1 : knotAt knots D ≤ t) (h2 : BeforeOrClamped C D knots t)
    (hsep : ∀ i, 1 ≤ i → i < C → knotAt knots i < knotAt knots (i + D))
    (hy : ∀ i, 1 ≤ i → i + 1 < C → legSlope (knotAt knots) D y i ≤ legSlope (knotAt knots) D y (i + 1))
    {i : ℕ} (i1 : 1 ≤ i) (i2 : i < C) :
    y (i - 1) + legSlope (knotAt knots) D y i * (t - greville (knotAt knots) D (i - 1))
      ≤ y 0 + ∑ j ∈ Finset.Ico 1 C, (y j - y (j - 1)) * legShare D C (knotAt knots) j t := by
  obtain ⟨v1, v2, v3⟩ := id v
  have hm := fun i j (hij : i ≤ j) (hj : j < K) => mono_knotAt v3 hij hj
  have D0 : (0 : ℝ) < D := by exact_mod_cast hD
  set σ := legSlope (knotAt knots) D y with hσ
  set ξ := greville (knotAt knots) D with hξ
  set L := fun j => legShare D C (knotAt knots) j t with hL
  have step : ∀ j, 1 ≤ j → ξ j - ξ (j - 1) = (knotAt knots (j + D) - knotAt knots j) / D := by
    intro j hj
    obtain ⟨n, rfl⟩ : ∃ n, j = n + 1 := ⟨j - 1, by omega⟩
    rw [Nat.add_sub_cancel]
    exact greville_sub D n
  have leg : ∀ j, 1 ≤ j → j < C →
      y j - y (j - 1) = σ j * (ξ j - ξ (j - 1)) := by
    intro j j1 j2
    have := sub_pos.2 (hsep j j1 j2)
    rw [step j j1, hσ, legSlope]
    field_simp
  have mono : ∀ n j, 1 ≤ j → j + n < C → σ j ≤ σ (j + n) := by
    intro n
    induction n with
    | zero => intro j _ _; exact le_rfl
    | succ n ih => intro j j1 j2; exact (ih j j1 (by omega)).trans (hy (j + n) (by omega) (by omega))
  have hwid : ∀ j, 1 ≤ j → j < C → 0 ≤ ξ j - ξ (j - 1) := fun j j1 j2 => by
    rw [step j j1]
    exact div_nonneg (sub_nonneg.2 (hsep j j1 j2).le) D0.le
  set F := y 0 + ∑ j ∈ Finset.Ico 1 C, (y j - y (j - 1)) * L j with e1
  have e2 := legShare_param v hD h1 h2
  -- up to leg `i` and after it
  have tele : ∀ y : ℕ → ℝ, ∑ j ∈ Finset.Ico 1 i, (y j - y (j - 1)) = y (i - 1) - y 0 := by
    intro y
    rw [Finset.sum_Ico_eq_sum_range, ← Finset.sum_range_sub y (i - 1)]
    exact Finset.sum_congr rfl fun j _ => by rw [Nat.add_comm 1 j, Nat.add_sub_cancel]
  have main : ∑ j ∈ Finset.Ico 1 i, (σ j - σ i) * (ξ j - ξ (j - 1))
      ≤ ∑ j ∈ Finset.Ico 1 C, (σ j - σ i) * (ξ j - ξ (j - 1)) * L j := by
    rw [← Finset.sum_Ico_consecutive _ i1 i2.le]
    have a1 : ∑ j ∈ Finset.Ico 1 i, (σ j - σ i) * (ξ j - ξ (j - 1))
        ≤ ∑ j ∈ Finset.Ico 1 i, (σ j - σ i) * (ξ j - ξ (j - 1)) * L j := by
      refine Finset.sum_le_sum fun j hj => ?_
      obtain ⟨j1, j2⟩ := Finset.mem_Ico.1 hj
      have b1 := mono (i - j) j j1 (by omega)
      rw [Nat.add_sub_cancel' j2.le] at b1
      have b2 := hwid j j1 (by omega)
      have b3 := (legShare_mem hm v2 v1 j h1).2
      have : (σ j - σ i) * (ξ j - ξ (j - 1)) ≤ 0 := mul_nonpos_of_nonpos_of_nonneg (by linarith) b2
      nlinarith
    have a2 : 0 ≤ ∑ j ∈ Finset.Ico i C, (σ j - σ i) * (ξ j - ξ (j - 1)) * L j := by
      refine Finset.sum_nonneg fun j hj => ?_
      obtain ⟨j1, j2⟩ := Finset.mem_Ico.1 hj
      have b1 := mono (j - i) i i1 (by omega)
      rw [Nat.add_sub_cancel' j1] at b1
      have b2 := hwid j (by omega) j2
      have b3 := (legShare_mem hm v2 v1 j h1).1
      exact mul_nonneg (mul_nonneg (by linarith) b2) b3
    linarith
  have s1 : ∑ j ∈ Finset.Ico 1 i, (σ j - σ i) * (ξ j - ξ (j - 1))
      = y (i - 1) - y 0 - σ i * (ξ (i - 1) - ξ 0) := by
    rw [← tele y, ← tele ξ, Finset.mul_sum, ← Finset.sum_sub_distrib]
    refine Finset.sum_congr rfl fun j hj => ?_
    obtain ⟨j1, j2⟩ := Finset.mem_Ico.1 hj
    rw [leg j j1 (by omega)]
    ring
  have s2 : ∑ j ∈ Finset.Ico 1 C, (σ j - σ i) * (ξ j - ξ (j - 1)) * L j
      = F - y 0 - σ i * (t - ξ 0) := by
    conv_rhs => rw [e2, e1]
    rw [add_sub_cancel_left, add_sub_cancel_left, Finset.mul_sum, ← Finset.sum_sub_distrib]
    refine Finset.sum_congr rfl fun j hj => ?_
    obtain ⟨j1, j2⟩ := Finset.mem_Ico.1 hj
    rw [leg j j1 j2]
    ring
  rw [s1, s2] at main
  linarith

/-- The same for points, in a direction. -/
theorem side_above_legSum (v : ValidSpline C D knots) (hD : 1 ≤ D) (a : ℕ → ℝ) {t : ℝ}
    (h1 : knotAt knots D ≤ t) (h2 : BeforeOrClamped C D knots t)
    (hsep : ∀ i, 1 ≤ i → i < C → knotAt knots i < knotAt knots (i + D))
    (hy : ∀ i, 1 ≤ i → i + 1 < C →
      legSlope (knotAt knots) D (fun j => side a 0 (extend ps j)) i
        ≤ legSlope (knotAt knots) D (fun j => side a 0 (extend ps j)) (i + 1))
    {p : P} (hp : IsLegSum D knots ps t p) {i : ℕ} (i1 : 1 ≤ i) (i2 : i < C) :
    side a 0 (extend ps (i - 1)) + legSlope (knotAt knots) D (fun j => side a 0 (extend ps j)) i
      * (t - greville (knotAt knots) D (i - 1)) ≤ side a 0 p := by
  rw [side_legSum_eq hp a]
  exact above_legShares v hD _ h1 h2 hsep hy i1 i2

/-- The legs of the control polygon, each control point put at the average of the `D` knots after its
own, get steeper and steeper in the direction `a`. -/
def ConvexPolygon (D : ℕ) (knots : Arr ℝ K) (ps : Arr P C) (a : ℕ → ℝ) : Prop :=
  ∀ (i : ℕ) (h : i + 2 < C),
    (side a 0 (ps ⟨i + 1, by omega⟩) - side a 0 (ps ⟨i, by omega⟩))
        / (greville (knotAt knots) D (i + 1) - greville (knotAt knots) D i)
      ≤ (side a 0 (ps ⟨i + 2, h⟩) - side a 0 (ps ⟨i + 1, by omega⟩))
        / (greville (knotAt knots) D (i + 2) - greville (knotAt knots) D (i + 1))

theorem legSlope_eq (a : ℕ → ℝ) {i : ℕ} (hi : i + 1 < C) :
    legSlope (knotAt knots) D (fun j => side a 0 (extend ps j)) (i + 1)
      = (side a 0 (ps ⟨i + 1, hi⟩) - side a 0 (ps ⟨i, by omega⟩))
        / (greville (knotAt knots) D (i + 1) - greville (knotAt knots) D i) := by
  rw [legSlope, greville_sub, Nat.add_sub_cancel, extend_lt ps hi, extend_lt ps (by omega : i < C),
    div_div_eq_mul_div, div_eq_mul_inv, mul_assoc]

theorem ConvexPolygon.slopes {a : ℕ → ℝ} (hconv : ConvexPolygon D knots ps a) (i : ℕ) (i1 : 1 ≤ i)
    (i2 : i + 1 < C) : legSlope (knotAt knots) D (fun j => side a 0 (extend ps j)) i
      ≤ legSlope (knotAt knots) D (fun j => side a 0 (extend ps j)) (i + 1) := by
  obtain ⟨n, rfl⟩ : ∃ n, i = n + 1 := ⟨i - 1, by omega⟩
  rw [legSlope_eq a (by omega), legSlope_eq a i2]
  exact hconv n i2

/-- **C149** for the repaired program: if the legs of the control polygon get steeper, the curve lies
below its chords. -/
theorem C149_repaired (h : BSpline.new knots ps = .ok b) (hD : 1 ≤ D)
    (hsep : ∀ i, 1 ≤ i → i < C → knotAt knots i < knotAt knots (i + D)) (a : ℕ → ℝ)
    (hconv : ConvexPolygon D knots ps a) {s t l : ℝ} (h1 : knotAt knots D ≤ s) (hst : s ≤ t)
    (hl : l ∈ Set.Icc (0 : ℝ) 1) (h2 : BeforeOrClamped C D knots t) {p q r : P}
    (hp : b.evalFixed s = .ok p) (hq : b.evalFixed t = .ok q)
    (hr : b.evalFixed ((1 - l) * s + l * t) = .ok r) :
    side a 0 r ≤ (1 - l) * side a 0 p + l * side a 0 q := by
  have v := ((new_ok_iff _ _ _).1 h).1
  have tC : t ≤ knotAt knots C := by
    rcases h2 with h2 | h2
    · exact h2.le
    · exact h2.1.le
  have m1 : s ≤ (1 - l) * s + l * t := by nlinarith [hl.1]
  have m2 : (1 - l) * s + l * t ≤ t := by nlinarith [hl.2]
  exact side_convex_legSum v hD a h1 hst hl h2 (fun i i1 i2 _ _ => hsep i i1 i2)
    (fun i i1 i2 _ _ => hconv.slopes i i1 i2) (isLegSum_fixed h h1 (hst.trans tC) hp)
    (isLegSum_fixed h (h1.trans hst) tC hq) (isLegSum_fixed h (h1.trans m1) (m2.trans tC) hr)

/-- **C149** for the repaired program: and it lies above its control polygon, even above the lines
through the legs. -/
theorem C149_repaired_polygon (h : BSpline.new knots ps = .ok b) (hD : 1 ≤ D)
    (hsep : ∀ i, 1 ≤ i → i < C → knotAt knots i < knotAt knots (i + D)) (a : ℕ → ℝ)
    (hconv : ConvexPolygon D knots ps a) {t : ℝ} (h1 : knotAt knots D ≤ t)
    (h2 : BeforeOrClamped C D knots t) {p : P} (hp : b.evalFixed t = .ok p) {i : ℕ} (hi : i + 1 < C) :
    side a 0 (ps ⟨i, by omega⟩)
      + (side a 0 (ps ⟨i + 1, hi⟩) - side a 0 (ps ⟨i, by omega⟩))
        / (greville (knotAt knots) D (i + 1) - greville (knotAt knots) D i)
        * (t - greville (knotAt knots) D i) ≤ side a 0 p := by
  have v := ((new_ok_iff _ _ _).1 h).1
  have tC : t ≤ knotAt knots C := by
    rcases h2 with h2 | h2
    · exact h2.le
    · exact h2.1.le
  have := side_above_legSum v hD a h1 h2 hsep hconv.slopes (isLegSum_fixed h h1 tC hp)
    (i := i + 1) (by omega) hi
  rwa [legSlope_eq a hi, Nat.add_sub_cancel, extend_lt ps (by omega : i < C)] at this

/-- **C149** with the calls of this version: the points of the detour of C136. -/
theorem C149_detour (v : ValidSpline C D knots) (hc : FrontClamped D knots ∨ BackClamped D knots)
    (ps : Arr P C) (hD : 1 ≤ D) (hsep : ∀ i, 1 ≤ i → i < C → knotAt knots i < knotAt knots (i + D))
    (a : ℕ → ℝ) (hconv : ConvexPolygon D knots ps a) :
    ∃ g : ℝ → ℝ,
      (∀ (t : ℝ) (k : ℕ) (_ : D ≤ k) (hkC : k < C), knotAt knots k ≤ t → t < knotAt knots (k + 1) →
        (∀ i : Fin K, knots i < t → eps ≤ t - knots i) →
        ∃ (b : BSpline ℝ P K C D) (q : P),
          BSpline.new knots (fun i => ps i - ps ⟨k, hkC⟩) = .ok b ∧ b.eval t = .ok q ∧
          side a 0 (q + ps ⟨k, hkC⟩) = g t) ∧
      ConvexOn ℝ (Set.Ico (knotAt knots D) (knotAt knots C)) g ∧
      ∀ t ∈ Set.Ico (knotAt knots D) (knotAt knots C), ∀ (i : ℕ) (hi : i + 1 < C),
        side a 0 (ps ⟨i, by omega⟩)
          + (side a 0 (ps ⟨i + 1, hi⟩) - side a 0 (ps ⟨i, by omega⟩))
            / (greville (knotAt knots) D (i + 1) - greville (knotAt knots) D i)
            * (t - greville (knotAt knots) D i) ≤ g t := by
  obtain ⟨v1, v2, v3⟩ := id v
  have hm := fun i j (hij : i ≤ j) (hj : j < K) => mono_knotAt v3 hij hj
  obtain ⟨b, hb⟩ := (C43_accepts (D := D) _ ps).2 v
  have ex : ∀ t ∈ Set.Ico (knotAt knots D) (knotAt knots C), ∃ q, b.evalFixed t = .ok q ∧
      ∀ c, coord q c = splineCoord D knots ps t c := fun t ht => C121_bspline hb ht.1 ht.2
  refine ⟨fun t => ∑ c ∈ Finset.range (Point.dim P), a c * splineCoord D knots ps t c, ?_, ?_, ?_⟩
  · intro t k hDk hkC k1 k2 heps
    obtain ⟨b', q, hb', hq, hqc⟩ := C136_bspline v hc ps hDk hkC k1 k2 heps
    refine ⟨b', q, hb', hq, ?_⟩
    simp only [side, sub_zero, hqc]
  · refine ⟨convex_Ico _ _, fun s hs t ht α β hα hβ hαβ => ?_⟩
    wlog hst : s ≤ t generalizing s t α β
    · have := this t ht s hs β α hβ hα (by rw [add_comm]; exact hαβ) (not_le.1 hst).le
      rw [add_comm (α • s), add_comm (α • _)]
      exact this
    obtain ⟨p, hp, hpc⟩ := ex s hs
    obtain ⟨q, hq, hqc⟩ := ex t ht
    have hmid : α • s + β • t ∈ Set.Ico (knotAt knots D) (knotAt knots C) :=
      convex_Ico _ _ hs ht hα hβ hαβ
    obtain ⟨r, hr, hrc⟩ := ex _ hmid
    have hα' : α = 1 - β := by linarith
    have := C149_repaired hb hD hsep a hconv hs.1 hst (l := β) ⟨hβ, by linarith⟩ (.inl ht.2) hp hq
      (by rw [← hr, hα']; rfl)
    simp only [side, sub_zero, hpc, hqc, hrc] at this
    rw [hα'] at this ⊢
    simpa [smul_eq_mul] using this
  · intro t ht i hi
    obtain ⟨p, hp, hpc⟩ := ex t ht
    have := C149_repaired_polygon hb hD hsep a hconv ht.1 (.inl ht.2) hp hi
    simpa only [side, sub_zero, hpc] using this

/-- **C149**, the part that holds of `eval` itself: between two knots, with the origin in place of the
last control point of the span. -/
theorem C149_partial (h : BSpline.new knots ps = .ok b) (hc : FrontClamped D knots ∨ BackClamped D knots)
    (hD : 1 ≤ D) (a : ℕ → ℝ) {k : ℕ} (hDk : D ≤ k) (hkC : k < C)
    (hconv : ∀ (i : ℕ), k ≤ i + D → i + 2 < k + 1 →
      legSlope (knotAt knots) D (fun j => if j = k then 0 else side a 0 (extend ps j)) (i + 1)
        ≤ legSlope (knotAt knots) D (fun j => if j = k then 0 else side a 0 (extend ps j)) (i + 2))
    {s t l : ℝ} (s1 : knotAt knots k + eps ≤ s) (hst : s ≤ t) (t2 : t < knotAt knots (k + 1))
    (hl : l ∈ Set.Icc (0 : ℝ) 1) :
    ∃ p q r, b.eval s = .ok p ∧ b.eval t = .ok q ∧ b.eval ((1 - l) * s + l * t) = .ok r ∧
      side a 0 r ≤ (1 - l) * side a 0 p + l * side a 0 q := by
  have v := ((new_ok_iff _ _ _).1 h).1
  obtain ⟨v1, v2, v3⟩ := id v
  have hm := fun i j (hij : i ≤ j) (hj : j < K) => mono_knotAt v3 hij hj
  have m1 : s ≤ (1 - l) * s + l * t := by nlinarith [hl.1]
  have m2 : (1 - l) * s + l * t ≤ t := by nlinarith [hl.2]
  have ev := eps_pos
  have heps : ∀ x, s ≤ x → x ≤ t → ∀ i : Fin K, knots i < x → eps ≤ x - knots i := by
    intro x x1 x2 i hi
    have hk : knots i = knotAt knots i.val := by rw [knotAt_lt _ i.isLt]
    by_cases hik : i.val ≤ k
    · have := hm i.val k hik (by omega)
      linarith
    · have := hm (k + 1) i.val (by omega) i.isLt
      linarith
  have s1' : knotAt knots k ≤ s := by linarith
  obtain ⟨p, hp, hp'⟩ := isLegSum_eval h hc hDk hkC s1' (hst.trans_lt t2) (heps s le_rfl hst)
  obtain ⟨q, hq, hq'⟩ := isLegSum_eval h hc hDk hkC (s1'.trans hst) t2 (heps t hst le_rfl)
  obtain ⟨r, hr, hr'⟩ := isLegSum_eval h hc hDk hkC (s1'.trans m1) (m2.trans_lt t2) (heps _ m1 m2)
  refine ⟨p, q, r, hp, hq, hr, side_convex_legSum v hD a ((hm D k hDk (by omega)).trans s1') hst hl
    (.inl (t2.trans_le (hm (k + 1) C hkC (by omega)))) (fun i i1 i2 i3 i4 => ?_)
    (fun i i1 i2 i3 i4 => ?_) hp' hq' hr'⟩
  · exfalso
    by_cases hik : i ≤ k
    · have := hm i k hik (by omega)
      linarith
    · have := hm (k + 1) i (by omega) (by omega)
      linarith
  · have ik : i + 1 ≤ k := by
      by_contra hcon
      have := hm (k + 1) (i + 1) (by omega) (by omega)
      linarith
    have iD : k + 1 ≤ i + D := by
      by_contra hcon
      have := hm (i + D) k (by omega) (by omega)
      linarith
    obtain ⟨n, rfl⟩ : ∃ n, i = n + 1 := ⟨i - 1, by omega⟩
    have ey : ∀ j, j < C → side a 0 (extend (fun i : Fin C => if i.val = k then Point.default else ps i) j)
        = if j = k then 0 else side a 0 (extend ps j) := by
      intro j hj
      rw [extend_lt _ hj, extend_lt ps hj]
      simp only
      split_ifs
      · simp [side]
      · rfl
    have := hconv n (by omega) (by omega)
    unfold legSlope at this ⊢
    simp only [ey _ (show n + 1 < C by omega), ey _ (show n + 1 - 1 < C by omega),
      ey _ (show n + 1 + 1 < C by omega), ey _ (show n + 1 + 1 - 1 < C by omega)]
    exact this

end Splines

/-- **C149** is false of the code: the straight spline from 0 to -2 has the points 0, 0 and -2 at 0, 1/2
and 1, and the middle one is above the chord.  (The polygon has one leg only.) -/
theorem C149_false : ∃ b : BSpline ℝ (PointN ℝ 1) 4 2 1,
    BSpline.new ![0, 0, 1, 1] ![p1 0, p1 (-2)] = .ok b ∧
    ConvexPolygon 1 (![0, 0, 1, 1] : Fin 4 → ℝ) ![p1 0, p1 (-2)] (fun _ => 1) ∧
    b.eval (0 : ℝ) = .ok (p1 0) ∧ b.eval (1 / 2 : ℝ) = .ok (p1 0) ∧ b.eval (1 : ℝ) = .ok (p1 (-2)) := by
  obtain ⟨b, hb, he⟩ := eval_0011 0 (-2)
  refine ⟨b, hb, fun i hi => by omega, eval_0011_start hb, by rw [he, zero_div], ?_⟩
  have := eval_end hb
  simpa [knotAt, extend] using this

/-- The hypotheses are met: degree 2, knots 0 0 0 1 2 2 2, control points 4, 0, 0, 4 at the averages 0,
1/2, 3/2, 2 of the knots. -/
example : (∀ i, 1 ≤ i → i < 4 → knotAt (![0, 0, 0, 1, 2, 2, 2] : Fin 7 → ℝ) i
      < knotAt (![0, 0, 0, 1, 2, 2, 2] : Fin 7 → ℝ) (i + 2)) ∧
    ConvexPolygon 2 (![0, 0, 0, 1, 2, 2, 2] : Fin 7 → ℝ) ![p1 4, p1 0, p1 0, p1 4] (fun _ => 1) ∧
    BeforeOrClamped 4 2 (![0, 0, 0, 1, 2, 2, 2] : Fin 7 → ℝ) 2 := by
  refine ⟨fun i h1 h2 => ?_, fun i hi => ?_, .inr ⟨by simp [knotAt], by simp [knotAt]⟩⟩
  · interval_cases i <;> simp [knotAt]
  · have : i < 2 := by omega
    interval_cases i <;> norm_num [greville, Finset.sum_range_succ, knotAt, side_p1]

/-- And those of `C149_partial`, on the span of `k = 2`: legs from 4 to 1 and from 1 to the origin. -/
example (i : ℕ) (h1 : 2 ≤ i + 2) (h2 : i + 2 < 2 + 1) :
    legSlope (knotAt (![0, 0, 0, 1, 2, 2, 2] : Fin 7 → ℝ)) 2 (fun j => if j = 2 then 0 else
        side (fun _ => 1) 0 (extend ![p1 4, p1 1, p1 7, p1 9] j)) (i + 1)
      ≤ legSlope (knotAt (![0, 0, 0, 1, 2, 2, 2] : Fin 7 → ℝ)) 2 (fun j => if j = 2 then 0 else
        side (fun _ => 1) 0 (extend ![p1 4, p1 1, p1 7, p1 9] j)) (i + 2) := by
  have : i = 0 := by omega
  subst this
  simp [legSlope, knotAt, extend, side_p1]
  norm_num

end Stroke
