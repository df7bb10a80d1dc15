import Verif.Props.BSplineSmooth
import Mathlib.Analysis.Calculus.MeanValue

set_option linter.unusedSectionVars false

/-!
# Sorted control points and bounded speed for B-splines (C144, C145)
-/

open Filter Topology

namespace Stroke

/-! ### Sums of the last basis functions -/

section Basis
variable {u : ℕ → ℝ} {K C D : ℕ}

/-- The sum of the basis functions from number `i` on. -/
noncomputable def tailSum (u : ℕ → ℝ) (D C i : ℕ) (t : ℝ) : ℝ :=
  ∑ j ∈ Finset.Ico i C, coxDeBoor u D j t

/-- Summation by parts. -/
theorem sum_by_tails (a y : ℕ → ℝ) : ∀ C, 1 ≤ C → ∑ j ∈ Finset.range C, a j * y j
    = y 0 * ∑ j ∈ Finset.range C, a j
      + ∑ i ∈ Finset.Ico 1 C, (y i - y (i - 1)) * ∑ j ∈ Finset.Ico i C, a j := by
  intro C hC
  induction C, hC using Nat.le_induction with
  | base => simp [mul_comm]
  | succ C hC ih =>
    have tele : ∑ i ∈ Finset.Ico 1 (C + 1), (y i - y (i - 1)) = y C - y 0 := by
      rw [Finset.sum_Ico_eq_sum_range, Nat.add_sub_cancel]
      have := Finset.sum_range_sub y C
      rw [← this]
      refine Finset.sum_congr rfl fun i _ => ?_
      rw [Nat.add_comm 1 i, Nat.add_sub_cancel]
    have split : ∀ i ∈ Finset.Ico 1 (C + 1), (y i - y (i - 1)) * ∑ j ∈ Finset.Ico i (C + 1), a j
        = (y i - y (i - 1)) * ∑ j ∈ Finset.Ico i C, a j + (y i - y (i - 1)) * a C := by
      intro i hi
      rw [Finset.sum_Ico_succ_top (by have := (Finset.mem_Ico.1 hi).2; omega), mul_add]
    rw [Finset.sum_congr rfl split, Finset.sum_add_distrib, ← Finset.sum_mul, tele,
      Finset.sum_range_succ, Finset.sum_range_succ, ih, Finset.sum_Ico_succ_top (by omega),
      Finset.Ico_self, Finset.sum_empty, mul_zero, add_zero]
    ring

/-- The span of a parameter. -/
theorem exists_basis_span (hDC : D < C) {t : ℝ} (h1 : u D ≤ t) (h2 : t < u C) :
    ∃ k, D ≤ k ∧ k < C ∧ u k ≤ t ∧ t < u (k + 1) := by
  classical
  have hex : ∃ j, D ≤ j ∧ t < u j := ⟨C, hDC.le, h2⟩
  obtain ⟨f1, f2⟩ := Nat.find_spec hex
  have hle : Nat.find hex ≤ C := Nat.find_min' hex ⟨hDC.le, h2⟩
  have hne : Nat.find hex ≠ D := by
    intro e
    rw [e] at f2
    linarith
  have hmin := Nat.find_min hex (m := Nat.find hex - 1) (by omega)
  refine ⟨Nat.find hex - 1, by omega, by omega, ?_, ?_⟩
  · by_contra hcon
    exact hmin ⟨by omega, not_le.1 hcon⟩
  · rwa [show Nat.find hex - 1 + 1 = Nat.find hex by omega]

theorem basis_sum_one (hm : ∀ i j, i ≤ j → j < K → u i ≤ u j) (hK : K = C + D + 1) (hDC : D < C)
    {t : ℝ} (h1 : u D ≤ t) (h2 : t < u C) : ∑ j ∈ Finset.range C, coxDeBoor u D j t = 1 := by
  obtain ⟨k, hDk, hkC, k1, k2⟩ := exists_basis_span hDC h1 h2
  have := coxDeBoor_sum_span hm hDk hkC hK k1 k2 (fun _ => 1)
  simp only [mul_one, one_mul] at this
  rw [this]
  exact coxDeBoor_sum hm hDk (by omega) k1 k2

theorem tailSum_nonneg (hm : ∀ i j, i ≤ j → j < K → u i ≤ u j) (hK : K = C + D + 1) (i : ℕ) (t : ℝ) :
    0 ≤ tailSum u D C i t :=
  Finset.sum_nonneg fun j hj => coxDeBoor_nonneg hm D j (by have := (Finset.mem_Ico.1 hj).2; omega)

theorem tailSum_le_one (hm : ∀ i j, i ≤ j → j < K → u i ≤ u j) (hK : K = C + D + 1) (hDC : D < C)
    (i : ℕ) {t : ℝ} (h1 : u D ≤ t) (h2 : t < u C) : tailSum u D C i t ≤ 1 := by
  rw [← basis_sum_one hm hK hDC h1 h2]
  refine Finset.sum_le_sum_of_subset_of_nonneg (fun j hj => ?_) fun j hj _ =>
    coxDeBoor_nonneg hm D j (by have := Finset.mem_range.1 hj; omega)
  exact Finset.mem_range.2 (Finset.mem_Ico.1 hj).2

/-- Before its knot a tail is 0. -/
theorem tailSum_before (hm : ∀ i j, i ≤ j → j < K → u i ≤ u j) (hK : K = C + D + 1) {i : ℕ} {t : ℝ}
    (h : t < u i) : tailSum u D C i t = 0 := by
  refine Finset.sum_eq_zero fun j hj => ?_
  obtain ⟨j1, j2⟩ := Finset.mem_Ico.1 hj
  refine coxDeBoor_support hm D j (by omega) fun hs => ?_
  have := hm i j j1 (by omega)
  linarith [hs.1]

/-- `D` knots later it is 1. -/
theorem tailSum_after (hm : ∀ i j, i ≤ j → j < K → u i ≤ u j) (hK : K = C + D + 1) (hDC : D < C)
    {i : ℕ} (hi : i ≤ C) {t : ℝ} (h1 : u D ≤ t) (h2 : t < u C) (h : u (i + D) ≤ t) :
    tailSum u D C i t = 1 := by
  rw [← basis_sum_one hm hK hDC h1 h2, tailSum, ← Finset.sum_range_add_sum_Ico _ hi]
  rw [Finset.sum_eq_zero (s := Finset.range i), zero_add]
  intro j hj
  have hj := Finset.mem_range.1 hj
  refine coxDeBoor_support hm D j (by omega) fun hs => ?_
  have := hm (j + D + 1) (i + D) (by omega) (by omega)
  linarith [hs.2]

/-- The derivative of a tail is one basis function of the degree below. -/
theorem tailSum_deriv_right {d : ℕ} (hm : ∀ i j, i ≤ j → j < K → u i ≤ u j) (hK : K = C + (d + 1) + 1)
    (hDC : d + 1 < C) {i : ℕ} (hi : i ≤ C) {t : ℝ} (h1 : u (d + 1) ≤ t) (h2 : t < u C) :
    HasDerivWithinAt (tailSum u (d + 1) C i)
      ((d + 1 : ℝ) * ((u (i + d + 1) - u i)⁻¹ * coxDeBoor u d i t)) (Set.Ici t) t := by
  obtain ⟨k, hDk, hkC, k1, k2⟩ := exists_basis_span hDC h1 h2
  have inner : ∀ x, u k < x → x < u (k + 1) → HasDerivAt (tailSum u (d + 1) C i)
      ((d + 1 : ℝ) * ((u (i + d + 1) - u i)⁻¹ * coxDeBoor u d i x)) x := by
    intro x x1 x2
    have hs : HasDerivAt (tailSum u (d + 1) C i) (∑ j ∈ Finset.Ico i C,
        (d + 1 : ℝ) * ((u (j + d + 1) - u j)⁻¹ * coxDeBoor u d j x
          - (u (j + d + 2) - u (j + 1))⁻¹ * coxDeBoor u d (j + 1) x)) x := by
      unfold tailSum
      refine HasDerivAt.fun_sum fun j hj => ?_
      exact hasDerivAt_coxDeBoor hm (show k + 1 < K by omega) x1 x2 d j
        (by have := (Finset.mem_Ico.1 hj).2; omega)
    convert hs using 1
    set g : ℕ → ℝ := fun j => (u (j + d + 1) - u j)⁻¹ * coxDeBoor u d j x with hg
    have e : ∀ j, (u (j + d + 2) - u (j + 1))⁻¹ * coxDeBoor u d (j + 1) x = g (j + 1) := by
      intro j
      simp only [hg]
      rw [show j + 1 + d + 1 = j + d + 2 by omega]
    have hC : g C = 0 := by
      simp only [hg]
      rw [coxDeBoor_eq_zero hm (show k + 1 < K by omega) x1.le x2 d C (by omega) (.inl hkC), mul_zero]
    simp only [e]
    rw [← Finset.mul_sum]
    congr 1
    have tele : ∑ j ∈ Finset.Ico i C, (g j - g (j + 1)) = g i - g C := by
      rw [Finset.sum_Ico_eq_sum_range]
      have := Finset.sum_range_sub' (fun m => g (i + m)) (C - i)
      simp only [← Nat.add_assoc] at this
      rw [this, Nat.add_zero, show i + (C - i) = C by omega]
    rw [show (∑ j ∈ Finset.Ico i C, ((u (j + d + 1) - u j)⁻¹ * coxDeBoor u d j x - g (j + 1)))
      = ∑ j ∈ Finset.Ico i C, (g j - g (j + 1)) from rfl, tele, hC, sub_zero]
  rcases eq_or_lt_of_le k1 with he | hlt
  · have near : Set.Ioo t (u (k + 1)) ∈ 𝓝[>] t := Ioo_mem_nhdsGT k2
    refine hasDerivWithinAt_Ici_of_tendsto_deriv (s := Set.Ioo t (u (k + 1)))
      (fun x hx => (inner x (he ▸ hx.1) hx.2).differentiableAt.differentiableWithinAt) ?_ near ?_
    · have : ContinuousWithinAt (tailSum u (d + 1) C i) (Set.Ici t) t := by
        unfold tailSum
        exact tendsto_finsetSum _ fun j _ => coxDeBoor_continuousWithinAt t (d + 1) j
      exact this.mono fun x hx => hx.1.le
    · have hc : ContinuousWithinAt (fun x => (d + 1 : ℝ) * ((u (i + d + 1) - u i)⁻¹ * coxDeBoor u d i x))
          (Set.Ici t) t :=
        continuousWithinAt_const.mul (continuousWithinAt_const.mul (coxDeBoor_continuousWithinAt t d i))
      refine (hc.tendsto.mono_left (nhdsWithin_mono _ Set.Ioi_subset_Ici_self)).congr' ?_
      filter_upwards [near] with x hx
      exact (inner x (he ▸ hx.1) hx.2).deriv.symm
  · exact (inner t hlt k2).hasDerivWithinAt

/-- The tails do not decrease. -/
theorem tailSum_mono (hm : ∀ i j, i ≤ j → j < K → u i ≤ u j) (hK : K = C + D + 1) (hDC : D < C)
    {i : ℕ} (hi : i ≤ C) {s t : ℝ} (h1 : u D ≤ s) (hst : s ≤ t) (h2 : t < u C) :
    tailSum u D C i s ≤ tailSum u D C i t := by
  rcases lt_or_ge s (u i) with a1 | a1
  · rw [tailSum_before hm hK a1]; exact tailSum_nonneg hm hK i t
  rcases le_or_gt (u (i + D)) t with a2 | a2
  · rw [tailSum_after hm hK hDC hi (h1.trans hst) h2 a2]
    exact tailSum_le_one hm hK hDC i h1 (hst.trans_lt h2)
  rcases D with _ | d
  · exact absurd (a1.trans hst) (not_le.2 a2)
  have hcont : ContinuousOn (tailSum u (d + 1) C i) (Set.Icc s t) := by
    intro x hx
    rcases eq_or_lt_of_le hx.1 with he | hlt
    · subst he
      unfold tailSum
      exact tendsto_finsetSum _ fun j _ =>
        (coxDeBoor_continuousWithinAt s (d + 1) j).mono fun x hx => hx.1
    · refine ContinuousAt.continuousWithinAt ?_
      unfold tailSum
      refine tendsto_finsetSum _ fun j hj => ?_
      obtain ⟨j1, j2⟩ := Finset.mem_Ico.1 hj
      refine coxDeBoor_continuousAt_of hm x (d + 1) j (by omega) ?_ ?_
      · rintro ⟨-, e⟩
        have := hm (i + (d + 1)) (j + (d + 1)) (by omega) (by omega)
        linarith [hx.2]
      · rintro ⟨-, e⟩
        have := hm (i + (d + 1)) (j + (d + 1) + 1) (by omega) (by omega)
        linarith [hx.2]
  refine image_le_of_deriv_right_le_deriv_boundary (f := fun _ => tailSum u (d + 1) C i s)
    (f' := fun _ => 0) (a := s) (b := t) continuousOn_const
    (fun x _ => hasDerivWithinAt_const _ _ _) le_rfl hcont
    (fun x hx => tailSum_deriv_right hm hK hDC hi (h1.trans hx.1) (hx.2.trans h2)) (fun x hx => ?_)
    ⟨hst, le_rfl⟩
  have p1 : 0 ≤ u (i + d + 1) - u i := by
    have := hm i (i + d + 1) (by omega) (by omega)
    linarith
  have p2 := coxDeBoor_nonneg (t := x) hm d i (by omega)
  positivity

/-! ### The average of `D` knots -/

/-- The average of the `D` knots that follow knot `i` (Greville's abscissa). -/
noncomputable def greville (u : ℕ → ℝ) (D i : ℕ) : ℝ := (∑ m ∈ Finset.range D, u (i + 1 + m)) / D

theorem greville_sub (D i : ℕ) :
    greville u D (i + 1) - greville u D i = (u (i + 1 + D) - u (i + 1)) / D := by
  unfold greville
  rw [← sub_div]
  congr 1
  have := Finset.sum_range_succ (fun m => u (i + 1 + m)) D
  rw [Finset.sum_range_succ'] at this
  have e : ∑ m ∈ Finset.range D, u (i + 1 + (m + 1)) = ∑ m ∈ Finset.range D, u (i + 1 + 1 + m) :=
    Finset.sum_congr rfl fun m _ => by rw [show i + 1 + (m + 1) = i + 1 + 1 + m by omega]
  rw [e, Nat.add_zero] at this
  linarith

/-- Control points at these averages give the identity. -/
theorem basis_greville (hm : ∀ i j, i ≤ j → j < K → u i ≤ u j) (hK : K = C + D + 1) (hD : 1 ≤ D)
    (hDC : D < C) {t : ℝ} (h1 : u D ≤ t) (h2 : t < u C) :
    ∑ j ∈ Finset.range C, coxDeBoor u D j t * greville u D j = t := by
  obtain ⟨k, hDk, hkC, k1, k2⟩ := exists_basis_span hDC h1 h2
  have D0 : (D : ℝ) ≠ 0 := by positivity
  -- after some rounds of de Boor's algorithm
  have key : ∀ r ≤ D, ∑ m ∈ Finset.range (D - r + 1),
      ((∑ l ∈ Finset.range (D - r), u (k - D + r + m + 1 + l)) + r * t) / D
        * coxDeBoor u (D - r) (k - D + r + m) t
      = ∑ j ∈ Finset.range C, coxDeBoor u D j t * greville u D j := by
    intro r
    induction r with
    | zero =>
      intro _
      rw [coxDeBoor_sum_span hm hDk hkC hK k1 k2]
      simp [greville]
    | succ r ih =>
      intro hr
      rw [← ih (by omega)]
      obtain ⟨p, hp⟩ : ∃ p, D - r = p + 1 := ⟨D - r - 1, by omega⟩
      have hp' : D - (r + 1) = p := by omega
      rw [hp, hp']
      have := coxDeBoor_step hm (p := p) (a := k - D + r) (by omega) (by omega) k1 k2
        (fun i => ((∑ l ∈ Finset.range (p + 1), u (i + 1 + l)) + r * t) / D)
      rw [this]
      refine Finset.sum_congr rfl fun m hmr => ?_
      have hmr := Finset.mem_range.1 hmr
      rw [show k - D + (r + 1) + m = k - D + r + m + 1 by omega]
      set i := k - D + r + m with hi
      have hlt : u (i + 1) < u (i + 1 + p + 1) := by
        have := hm (i + 1) k (by omega) (by omega)
        have := hm (k + 1) (i + 1 + p + 1) (by omega) (by omega)
        linarith
      have hne : u (i + 1 + p + 1) - u (i + 1) ≠ 0 := by linarith [sub_pos.2 hlt]
      congr 1
      have s1 : ∑ l ∈ Finset.range (p + 1), u (i + 1 + l)
          = u (i + 1) + ∑ l ∈ Finset.range p, u (i + 1 + 1 + l) := by
        rw [Finset.sum_range_succ', Nat.add_zero, add_comm]
        congr 1
        exact Finset.sum_congr rfl fun l _ => by rw [show i + 1 + (l + 1) = i + 1 + 1 + l by omega]
      have s2 : ∑ l ∈ Finset.range (p + 1), u (i + 1 + 1 + l)
          = ∑ l ∈ Finset.range p, u (i + 1 + 1 + l) + u (i + 1 + p + 1) := by
        rw [Finset.sum_range_succ, show i + 1 + 1 + p = i + 1 + p + 1 by omega]
      rw [s1, s2]
      push_cast
      field_simp
      ring
  have := key D le_rfl
  rw [← this, Nat.sub_self, Nat.sub_add_cancel hDk]
  simp only [zero_add, Finset.sum_range_one, Finset.range_zero, Finset.sum_empty, Nat.add_zero]
  simp only [coxDeBoor]
  rw [if_pos ⟨k1, k2⟩]
  field_simp

end Basis

/-! ### Curves -/

section Splines
variable {P : Type} [Point ℝ P] [LawfulPoint P] {K C D : ℕ}
variable {knots : Arr ℝ K} {ps : Arr P C} {b : BSpline ℝ P K C D}

/-- The share of leg `i` of the control polygon that the curve has gone at `t`. -/
noncomputable def legShare (D C : ℕ) (u : ℕ → ℝ) (i : ℕ) (t : ℝ) : ℝ :=
  if t < u C then tailSum u D C i t else 1

theorem legShare_mono {u : ℕ → ℝ} (hm : ∀ i j, i ≤ j → j < K → u i ≤ u j) (hK : K = C + D + 1)
    (hDC : D < C) {i : ℕ} (hi : i ≤ C) {s t : ℝ} (h1 : u D ≤ s) (hst : s ≤ t) :
    legShare D C u i s ≤ legShare D C u i t := by
  unfold legShare
  by_cases ht : t < u C
  · rw [if_pos ht, if_pos (hst.trans_lt ht)]
    exact tailSum_mono hm hK hDC hi h1 hst ht
  · rw [if_neg ht]
    split_ifs with hs
    · exact tailSum_le_one hm hK hDC i h1 hs
    · exact le_rfl

theorem legShare_mem {u : ℕ → ℝ} (hm : ∀ i j, i ≤ j → j < K → u i ≤ u j) (hK : K = C + D + 1)
    (hDC : D < C) (i : ℕ) {t : ℝ} (h1 : u D ≤ t) :
    0 ≤ legShare D C u i t ∧ legShare D C u i t ≤ 1 := by
  unfold legShare
  split_ifs with ht
  · exact ⟨tailSum_nonneg hm hK i t, tailSum_le_one hm hK hDC i h1 ht⟩
  · exact ⟨zero_le_one, le_rfl⟩

/-- Outside the knots `i, ..., i + D` the share of leg `i` does not change. -/
theorem legShare_const {u : ℕ → ℝ} (hm : ∀ i j, i ≤ j → j < K → u i ≤ u j) (hK : K = C + D + 1)
    (hDC : D < C) {i : ℕ} (hi : i < C) {s t : ℝ} (h1 : u D ≤ s) (hst : s ≤ t)
    (h : t < u i ∨ u (i + D) ≤ s) : legShare D C u i s = legShare D C u i t := by
  unfold legShare
  rcases h with h | h
  · have hC := hm i C hi.le (by omega)
    rw [if_pos (by linarith), if_pos (by linarith), tailSum_before hm hK h,
      tailSum_before hm hK (hst.trans_lt h)]
  · have one : ∀ x, s ≤ x → (if x < u C then tailSum u D C i x else 1) = 1 := by
      intro x hx
      split_ifs with hC
      · exact tailSum_after hm hK hDC hi.le (h1.trans hx) hC (h.trans hx)
      · rfl
    rw [one s le_rfl, one t hst]

/-- `q` is the first control point plus the shares of the legs. -/
def IsLegSum (D : ℕ) (knots : Arr ℝ K) (ps : Arr P C) (t : ℝ) (q : P) : Prop :=
  ∀ c, coord q c = coord (extend ps 0) c + ∑ i ∈ Finset.Ico 1 C,
    (coord (extend ps i) c - coord (extend ps (i - 1)) c) * legShare D C (knotAt knots) i t

theorem isLegSum_of_spline (v : ValidSpline C D knots) {t : ℝ} (h1 : knotAt knots D ≤ t)
    (h2 : t < knotAt knots C) {q : P} (hq : ∀ c, coord q c = splineCoord D knots ps t c) :
    IsLegSum D knots ps t q := by
  obtain ⟨v1, v2, v3⟩ := v
  have hm := fun i j (hij : i ≤ j) (hj : j < K) => mono_knotAt v3 hij hj
  intro c
  have e1 : splineCoord D knots ps t c
      = ∑ i ∈ Finset.range C, coxDeBoor (knotAt knots) D i t * coord (extend ps i) c := by
    rw [← Fin.sum_univ_eq_sum_range (fun i => coxDeBoor (knotAt knots) D i t * coord (extend ps i) c)]
    exact Finset.sum_congr rfl fun i _ => by rw [extend_lt ps i.2]
  rw [hq, e1, sum_by_tails _ _ C (by omega), basis_sum_one hm v2 v1 h1 h2, mul_one]
  simp only [legShare, if_pos h2]
  rfl

theorem isLegSum_end (v1 : D < C) {t : ℝ} (h2 : knotAt knots C ≤ t) :
    IsLegSum D knots ps t (ps ⟨C - 1, by omega⟩) := by
  intro c
  simp only [legShare, if_neg (not_lt.2 h2), mul_one]
  rw [Finset.sum_Ico_eq_sum_range]
  have := Finset.sum_range_sub (fun i => coord (extend ps i) c) (C - 1)
  have e : ∑ i ∈ Finset.range (C - 1), (coord (extend ps (1 + i)) c - coord (extend ps (1 + i - 1)) c)
      = ∑ i ∈ Finset.range (C - 1), (coord (extend ps (i + 1)) c - coord (extend ps i) c) :=
    Finset.sum_congr rfl fun i _ => by rw [Nat.add_comm 1 i, Nat.add_sub_cancel]
  rw [e, this, extend_lt ps (by omega : C - 1 < C)]
  ring

/-- Points of the repaired program. -/
theorem isLegSum_fixed (h : BSpline.new knots ps = .ok b) {t : ℝ} (h1 : knotAt knots D ≤ t)
    (h2 : t ≤ knotAt knots C) {q : P} (hq : b.evalFixed t = .ok q) : IsLegSum D knots ps t q := by
  have v := ((new_ok_iff _ _ _).1 h).1
  rcases eq_or_lt_of_le h2 with he | hlt
  · rw [he, C121_bspline_end h, Outcome.ok.injEq] at hq
    rw [← hq]
    exact isLegSum_end v.1 he.ge
  · obtain ⟨q', hq', hc⟩ := C121_bspline h h1 hlt
    rw [hq, Outcome.ok.injEq] at hq'
    subst hq'
    exact isLegSum_of_spline v h1 hlt hc

/-- What a direction sees of the difference of two points. -/
theorem side_legSum {s t : ℝ} {p q : P} (hp : IsLegSum D knots ps s p) (hq : IsLegSum D knots ps t q)
    (a : ℕ → ℝ) : side a 0 q - side a 0 p = ∑ i ∈ Finset.Ico 1 C,
      (side a 0 (extend ps i) - side a 0 (extend ps (i - 1)))
        * (legShare D C (knotAt knots) i t - legShare D C (knotAt knots) i s) := by
  unfold side
  simp only [sub_zero, ← Finset.sum_sub_distrib, ← mul_sub]
  have e : ∀ c, coord q c - coord p c = ∑ i ∈ Finset.Ico 1 C,
      (coord (extend ps i) c - coord (extend ps (i - 1)) c)
        * (legShare D C (knotAt knots) i t - legShare D C (knotAt knots) i s) := by
    intro c
    rw [hq c, hp c, add_sub_add_left_eq_sub, ← Finset.sum_sub_distrib]
    exact Finset.sum_congr rfl fun i _ => by ring
  simp only [e, Finset.mul_sum, Finset.sum_mul]
  rw [Finset.sum_comm]
  exact Finset.sum_congr rfl fun i _ => Finset.sum_congr rfl fun c _ => by ring

theorem pdist_legSum (v : ValidSpline C D knots) {s t : ℝ} (h1 : knotAt knots D ≤ s) (hst : s ≤ t)
    {p q : P} (hp : IsLegSum D knots ps s p) (hq : IsLegSum D knots ps t q) :
    pdist p q ≤ ∑ i ∈ Finset.Ico 1 C, pdist (extend ps (i - 1)) (extend ps i)
        * (legShare D C (knotAt knots) i t - legShare D C (knotAt knots) i s) := by
  obtain ⟨v1, v2, v3⟩ := v
  have hm := fun i j (hij : i ≤ j) (hj : j < K) => mono_knotAt v3 hij hj
  have e : toE p - toE q = ∑ i ∈ Finset.Ico 1 C,
      (legShare D C (knotAt knots) i t - legShare D C (knotAt knots) i s)
        • (toE (extend ps (i - 1)) - toE (extend ps i)) := by
    ext c
    have := congrArg Neg.neg (show coord q c.val - coord p c.val = ∑ i ∈ Finset.Ico 1 C,
      (coord (extend ps i) c - coord (extend ps (i - 1)) c)
        * (legShare D C (knotAt knots) i t - legShare D C (knotAt knots) i s) by
      rw [hq c, hp c, add_sub_add_left_eq_sub, ← Finset.sum_sub_distrib]
      exact Finset.sum_congr rfl fun i _ => by ring)
    rw [neg_sub] at this
    simp only [PiLp.sub_apply, toE_apply]
    rw [this, ← Finset.sum_neg_distrib, WithLp.ofLp_sum, Finset.sum_apply]
    refine Finset.sum_congr rfl fun i _ => ?_
    simp
    ring
  rw [pdist_eq_norm, e]
  refine (norm_sum_le _ _).trans (Finset.sum_le_sum fun i hi => ?_)
  have := legShare_mono hm v2 v1 (Finset.mem_Ico.1 hi).2.le h1 hst
  rw [norm_smul, Real.norm_of_nonneg (by linarith), ← pdist_eq_norm, mul_comm]

/-- `t` is before the end of the domain, or at the end and the spline is clamped there. -/
def BeforeOrClamped (C D : ℕ) (knots : Arr ℝ K) (t : ℝ) : Prop :=
  t < knotAt knots C ∨ t = knotAt knots C ∧ knotAt knots (C + D - 1) = knotAt knots C

/-- The shares, weighted with the knot differences, add up to the parameter. -/
theorem legShare_param (v : ValidSpline C D knots) (hD : 1 ≤ D) {x : ℝ} (h1 : knotAt knots D ≤ x)
    (h2 : BeforeOrClamped C D knots x) : x = greville (knotAt knots) D 0
      + ∑ i ∈ Finset.Ico 1 C, (greville (knotAt knots) D i - greville (knotAt knots) D (i - 1))
        * legShare D C (knotAt knots) i x := by
  obtain ⟨v1, v2, v3⟩ := v
  have hm := fun i j (hij : i ≤ j) (hj : j < K) => mono_knotAt v3 hij hj
  rcases h2 with x2 | ⟨x2, hcl⟩
  · have g := basis_greville hm v2 hD v1 h1 x2
    rw [sum_by_tails _ _ C (by omega), basis_sum_one hm v2 v1 h1 x2, mul_one] at g
    conv_lhs => rw [← g]
    simp only [legShare, if_pos x2]
    rfl
  · simp only [legShare, if_neg (show ¬ x < knotAt knots C by rw [x2]; exact lt_irrefl _), mul_one]
    rw [Finset.sum_Ico_eq_sum_range]
    have e : ∑ i ∈ Finset.range (C - 1), (greville (knotAt knots) D (1 + i)
          - greville (knotAt knots) D (1 + i - 1))
        = greville (knotAt knots) D (C - 1) - greville (knotAt knots) D 0 := by
      rw [← Finset.sum_range_sub (fun i => greville (knotAt knots) D i) (C - 1)]
      exact Finset.sum_congr rfl fun i _ => by rw [Nat.add_comm 1 i, Nat.add_sub_cancel]
    rw [e, add_sub_cancel]
    unfold greville
    have e2 : ∀ m ∈ Finset.range D, knotAt knots (C - 1 + 1 + m) = x := by
      intro m hmD
      have hmD := Finset.mem_range.1 hmD
      rw [Nat.sub_add_cancel (by omega)]
      have a1 := hm C (C + m) (by omega) (by omega)
      have a2 := hm (C + m) (C + D - 1) (by omega) (by omega)
      linarith
    rw [Finset.sum_congr rfl e2, Finset.sum_const, Finset.card_range, nsmul_eq_mul]
    field_simp

theorem legShare_greville (v : ValidSpline C D knots) (hD : 1 ≤ D) {s t : ℝ} (h1 : knotAt knots D ≤ s)
    (hst : s ≤ t) (h2 : BeforeOrClamped C D knots t) :
    ∑ i ∈ Finset.Ico 1 C, (knotAt knots (i + D) - knotAt knots i) / D
      * (legShare D C (knotAt knots) i t - legShare D C (knotAt knots) i s) = t - s := by
  have h2s : BeforeOrClamped C D knots s := by
    rcases h2 with h2 | ⟨rfl, h3⟩
    · exact .inl (hst.trans_lt h2)
    · rcases eq_or_lt_of_le hst with e | l
      · exact .inr ⟨e, h3⟩
      · exact .inl l
  have e1 := legShare_param v hD h1 h2s
  have e2 := legShare_param v hD (h1.trans hst) h2
  conv_rhs => rw [e2, e1]
  rw [add_sub_add_left_eq_sub, ← Finset.sum_sub_distrib]
  refine Finset.sum_congr rfl fun i hi => ?_
  obtain ⟨j, rfl⟩ : ∃ j, i = j + 1 := ⟨i - 1, by have := (Finset.mem_Ico.1 hi).1; omega⟩
  rw [Nat.add_sub_cancel, greville_sub]
  ring

/-- Speed from the legs that matter between two parameters. -/
theorem speed_legSum (v : ValidSpline C D knots) (hD : 1 ≤ D) (V : ℝ) {s t : ℝ}
    (hV : ∀ i, i + 1 < C → knotAt knots (i + 1) ≤ t → s < knotAt knots (i + 1 + D) →
      D * pdist (extend ps i) (extend ps (i + 1))
        ≤ V * (knotAt knots (i + 1 + D) - knotAt knots (i + 1)))
    (h1 : knotAt knots D ≤ s) (hst : s ≤ t) (h2 : BeforeOrClamped C D knots t) {p q : P}
    (hp : IsLegSum D knots ps s p) (hq : IsLegSum D knots ps t q) : pdist p q ≤ V * (t - s) := by
  obtain ⟨v1, v2, v3⟩ := id v
  have hm := fun i j (hij : i ≤ j) (hj : j < K) => mono_knotAt v3 hij hj
  have D0 : (0 : ℝ) < D := by exact_mod_cast hD
  rw [← legShare_greville v hD h1 hst h2, Finset.mul_sum]
  refine (pdist_legSum v h1 hst hp hq).trans (Finset.sum_le_sum fun i hi => ?_)
  obtain ⟨i1, i2⟩ := Finset.mem_Ico.1 hi
  obtain ⟨j, rfl⟩ : ∃ j, i = j + 1 := ⟨i - 1, by omega⟩
  by_cases hin : knotAt knots (j + 1) ≤ t ∧ s < knotAt knots (j + 1 + D)
  · have := hV j i2 hin.1 hin.2
    rw [Nat.add_sub_cancel, ← mul_assoc]
    refine mul_le_mul_of_nonneg_right ?_ (sub_nonneg.2 (legShare_mono hm v2 v1 i2.le h1 hst))
    rw [← mul_div_assoc, le_div_iff₀ D0, mul_comm]
    exact this
  · rw [legShare_const hm v2 v1 i2 h1 hst (by
      by_contra hcon
      rw [not_or, not_lt, not_le] at hcon
      exact hin hcon), sub_self, mul_zero, mul_zero, mul_zero]

/-- `eval` of the straight spline at its start. -/
theorem eval_0011_start {a c : ℝ} {b : BSpline ℝ (PointN ℝ 1) 4 2 1}
    (hb : BSpline.new ![0, 0, 1, 1] ![p1 a, p1 c] = .ok b) : b.eval (0 : ℝ) = .ok (p1 a) := by
  have hc : FrontClamped 1 (![0, 0, 1, 1] : Fin 4 → ℝ) := by
    intro i hi
    fin_cases i <;> simp_all [knotAt, eps_pos]
  have hb' : BackClamped 1 (![0, 0, 1, 1] : Fin 4 → ℝ) := by
    intro i hi
    fin_cases i <;> simp_all [knotAt, eps_pos]
  have hd := C45_partial hb ⟨fun _ => hb', fun _ => hc⟩
  obtain ⟨_, h⟩ := C49_start_partial hb hc hb' le_rfl (by simp [knotAt]) hd
  simpa [knotAt] using h

/-! ### C144 -/

/-- Points with leg shares follow the order of the control points that matter between them. -/
theorem side_mono_legSum (v : ValidSpline C D knots) {s t : ℝ} (h1 : knotAt knots D ≤ s) (hst : s ≤ t)
    {p q : P} (hp : IsLegSum D knots ps s p) (hq : IsLegSum D knots ps t q) (a : ℕ → ℝ)
    (hleg : ∀ i, i + 1 < C → knotAt knots (i + 1) ≤ t → s < knotAt knots (i + 1 + D) →
      side a 0 (extend ps i) ≤ side a 0 (extend ps (i + 1))) : side a 0 p ≤ side a 0 q := by
  obtain ⟨v1, v2, v3⟩ := id v
  have hm := fun i j (hij : i ≤ j) (hj : j < K) => mono_knotAt v3 hij hj
  rw [← sub_nonneg, side_legSum hp hq]
  refine Finset.sum_nonneg fun i hi => ?_
  obtain ⟨i1, i2⟩ := Finset.mem_Ico.1 hi
  obtain ⟨j, rfl⟩ : ∃ j, i = j + 1 := ⟨i - 1, by omega⟩
  by_cases hin : knotAt knots (j + 1) ≤ t ∧ s < knotAt knots (j + 1 + D)
  · have := hleg j i2 hin.1 hin.2
    have := legShare_mono hm v2 v1 i2.le h1 hst
    exact mul_nonneg (by rw [Nat.add_sub_cancel]; linarith) (by linarith)
  · rw [legShare_const hm v2 v1 i2 h1 hst (by
      by_contra hcon
      rw [not_or, not_lt, not_le] at hcon
      exact hin hcon), sub_self, mul_zero]

/-- **C144** for the repaired program: control points that do not go back in a direction give a
curve that does not go back in it. -/
theorem C144_repaired (h : BSpline.new knots ps = .ok b) (a : ℕ → ℝ)
    (hmono : ∀ j k : Fin C, j ≤ k → side a 0 (ps j) ≤ side a 0 (ps k)) {s t : ℝ}
    (h1 : knotAt knots D ≤ s) (hst : s ≤ t) (h2 : t ≤ knotAt knots C) {p q : P}
    (hp : b.evalFixed s = .ok p) (hq : b.evalFixed t = .ok q) : side a 0 p ≤ side a 0 q := by
  have v := ((new_ok_iff _ _ _).1 h).1
  refine side_mono_legSum v h1 hst (isLegSum_fixed h h1 (hst.trans h2) hp)
    (isLegSum_fixed h (h1.trans hst) h2 hq) a fun i hi _ _ => ?_
  rw [extend_lt ps (by omega : i < C), extend_lt ps hi]
  exact hmono _ _ (by simp)

/-- **C144** for the repaired program: if every leg advances, so does the curve; in particular it has
no loops. -/
theorem C144_repaired_strict (h : BSpline.new knots ps = .ok b) (hD : 1 ≤ D) (a : ℕ → ℝ)
    (hadv : ∀ j k : Fin C, j < k → side a 0 (ps j) < side a 0 (ps k)) {s t : ℝ}
    (h1 : knotAt knots D ≤ s) (hst : s < t) (h2 : t ≤ knotAt knots C) {p q : P}
    (hp : b.evalFixed s = .ok p) (hq : b.evalFixed t = .ok q) : side a 0 p < side a 0 q ∧ p ≠ q := by
  have v := ((new_ok_iff _ _ _).1 h).1
  obtain ⟨v1, v2, v3⟩ := id v
  have hm := fun i j (hij : i ≤ j) (hj : j < K) => mono_knotAt v3 hij hj
  have inner : ∀ x, s < x → x < knotAt knots C → ∀ r, IsLegSum D knots ps x r →
      side a 0 p < side a 0 r := by
    intro x sx xC r hr
    have hp' := isLegSum_fixed h h1 (hst.le.trans h2) hp
    rw [← sub_pos, side_legSum hp' hr]
    have hx := legShare_greville v hD h1 sx.le (.inl xC)
    obtain ⟨i, hi, hpos⟩ : ∃ i ∈ Finset.Ico 1 C, 0 < (knotAt knots (i + D) - knotAt knots i) / D
        * (legShare D C (knotAt knots) i x - legShare D C (knotAt knots) i s) := by
      by_contra hcon
      simp only [not_exists, not_and, not_lt] at hcon
      have := Finset.sum_nonpos hcon
      linarith
    have dw : ∀ i ∈ Finset.Ico 1 C,
        0 ≤ legShare D C (knotAt knots) i x - legShare D C (knotAt knots) i s := fun i hi =>
      sub_nonneg.2 (legShare_mono hm v2 v1 (Finset.mem_Ico.1 hi).2.le h1 sx.le)
    have leg : ∀ i ∈ Finset.Ico 1 C, 0 < side a 0 (extend ps i) - side a 0 (extend ps (i - 1)) := by
      intro i hi
      obtain ⟨i1, i2⟩ := Finset.mem_Ico.1 hi
      rw [extend_lt ps i2, extend_lt ps (by omega : i - 1 < C), sub_pos]
      exact hadv _ _ (Fin.lt_def.2 (by simp only; omega))
    refine Finset.sum_pos' (fun i hi => mul_nonneg (leg i hi).le (dw i hi)) ⟨i, hi, mul_pos (leg i hi) ?_⟩
    refine lt_of_le_of_ne (dw i hi) fun e => ?_
    rw [← e, mul_zero] at hpos
    exact lt_irrefl _ hpos
  have hlt : side a 0 p < side a 0 q := by
    obtain ⟨x, sx, xt⟩ := exists_between hst
    obtain ⟨r, hr, hc⟩ := C121_bspline h (h1.trans sx.le) (xt.trans_le h2)
    refine (inner x sx (xt.trans_le h2) r
      (isLegSum_of_spline v (h1.trans sx.le) (xt.trans_le h2) hc)).trans_le ?_
    refine C144_repaired h a (fun j k hjk => ?_) (h1.trans sx.le) xt.le h2 hr hq
    rcases eq_or_lt_of_le hjk with e | l
    · rw [e]
    · exact (hadv j k l).le
  exact ⟨hlt, fun e => by rw [e] at hlt; exact lt_irrefl _ hlt⟩

/-- **C144** with the calls of this version: the points that the detour of C136 returns do not go
back either, also across knots. -/
theorem C144_detour (v : ValidSpline C D knots) (hc : FrontClamped D knots ∨ BackClamped D knots)
    (ps : Arr P C) (a : ℕ → ℝ) (hmono : ∀ j k : Fin C, j ≤ k → side a 0 (ps j) ≤ side a 0 (ps k))
    {s t : ℝ} (hst : s ≤ t) {k l : ℕ} (hDk : D ≤ k) (hkC : k < C) (hDl : D ≤ l) (hlC : l < C)
    (s1 : knotAt knots k ≤ s) (s2 : s < knotAt knots (k + 1))
    (t1 : knotAt knots l ≤ t) (t2 : t < knotAt knots (l + 1))
    (hs : ∀ i : Fin K, knots i < s → eps ≤ s - knots i)
    (ht : ∀ i : Fin K, knots i < t → eps ≤ t - knots i) :
    ∃ (b b' : BSpline ℝ P K C D) (p q : P),
      BSpline.new knots (fun i => ps i - ps ⟨k, hkC⟩) = .ok b ∧ b.eval s = .ok p ∧
      BSpline.new knots (fun i => ps i - ps ⟨l, hlC⟩) = .ok b' ∧ b'.eval t = .ok q ∧
      side a 0 (p + ps ⟨k, hkC⟩) ≤ side a 0 (q + ps ⟨l, hlC⟩) := by
  obtain ⟨b, p, hb, hp, hpc⟩ := C136_bspline v hc ps hDk hkC s1 s2 hs
  obtain ⟨b', q, hb', hq, hqc⟩ := C136_bspline v hc ps hDl hlC t1 t2 ht
  obtain ⟨v1, v2, v3⟩ := id v
  have hm := fun i j (hij : i ≤ j) (hj : j < K) => mono_knotAt v3 hij hj
  have a1 := hm D k hDk (by omega)
  have a2 := hm (k + 1) C hkC (by omega)
  have a3 := hm (l + 1) C hlC (by omega)
  refine ⟨b, b', p, q, hb, hp, hb', hq, side_mono_legSum v (a1.trans s1) hst
    (isLegSum_of_spline v (a1.trans s1) (s2.trans_le a2) hpc)
    (isLegSum_of_spline v ((a1.trans s1).trans hst) (t2.trans_le a3) hqc) a fun i hi _ _ => ?_⟩
  rw [extend_lt ps (by omega : i < C), extend_lt ps hi]
  exact hmono _ _ (by simp)

/-- What `eval` of this version computes on a span: the spline with the origin in place of the last
control point of the span. -/
theorem isLegSum_eval (h : BSpline.new knots ps = .ok b) (hc : FrontClamped D knots ∨ BackClamped D knots)
    {t : ℝ} {k : ℕ} (hDk : D ≤ k) (hkC : k < C) (h1 : knotAt knots k ≤ t) (h2 : t < knotAt knots (k + 1))
    (heps : ∀ i : Fin K, knots i < t → eps ≤ t - knots i) :
    ∃ q, b.eval t = .ok q ∧
      IsLegSum D knots (fun i : Fin C => if i.val = k then Point.default else ps i) t q := by
  obtain ⟨q, hq, hco⟩ := C48_partial h hc hDk hkC h1 h2 heps
  have v := ((new_ok_iff _ _ _).1 h).1
  obtain ⟨v1, v2, v3⟩ := id v
  have hm := fun i j (hij : i ≤ j) (hj : j < K) => mono_knotAt v3 hij hj
  refine ⟨q, hq, isLegSum_of_spline v ((hm D k hDk (by omega)).trans h1)
    (h2.trans_le (hm (k + 1) C hkC (by omega))) fun c => ?_⟩
  have split : ∀ g : Fin C → ℝ, ∑ i, g i = ∑ i ∈ Finset.univ.erase (⟨k, hkC⟩ : Fin C), g i + g ⟨k, hkC⟩ :=
    fun g => (Finset.sum_erase_add _ _ (Finset.mem_univ _)).symm
  rw [hco, splineCoord, splineCoord, sub_eq_iff_eq_add, split, split fun i : Fin C =>
    coxDeBoor (knotAt knots) D i.val t * coord (if i.val = k then Point.default else ps i) c]
  simp only [if_true, coord_default, mul_zero, add_zero]
  congr 1
  refine Finset.sum_congr rfl fun i hi => ?_
  rw [if_neg fun e => (Finset.mem_erase.1 hi).1 (Fin.ext e)]

/-- **C144**, the part that holds of `eval` itself: on the span of knot `k`, if the control points
`k - D, ..., k - 1` do not go back and stay on the negative side of the origin. -/
theorem C144_partial (h : BSpline.new knots ps = .ok b) (hc : FrontClamped D knots ∨ BackClamped D knots)
    (a : ℕ → ℝ) {k : ℕ} (hDk : D ≤ k) (hkC : k < C)
    (hmono : ∀ i j : Fin C, k ≤ i.val + D → i ≤ j → j.val < k → side a 0 (ps i) ≤ side a 0 (ps j))
    (hneg : ∀ i : Fin C, k ≤ i.val + D → i.val < k → side a 0 (ps i) ≤ 0)
    {s t : ℝ} (s1 : knotAt knots k ≤ s) (hst : s ≤ t) (t2 : t < knotAt knots (k + 1))
    (hs : ∀ i : Fin K, knots i < s → eps ≤ s - knots i)
    (ht : ∀ i : Fin K, knots i < t → eps ≤ t - knots i) :
    ∃ p q, b.eval s = .ok p ∧ b.eval t = .ok q ∧ side a 0 p ≤ side a 0 q := by
  obtain ⟨p, hp, hp'⟩ := isLegSum_eval h hc hDk hkC s1 (hst.trans_lt t2) hs
  obtain ⟨q, hq, hq'⟩ := isLegSum_eval h hc hDk hkC (s1.trans hst) t2 ht
  have v := ((new_ok_iff _ _ _).1 h).1
  obtain ⟨v1, v2, v3⟩ := id v
  have hm := fun i j (hij : i ≤ j) (hj : j < K) => mono_knotAt v3 hij hj
  refine ⟨p, q, hp, hq, side_mono_legSum v ((hm D k hDk (by omega)).trans s1) hst hp' hq' a
    fun i hi hit his => ?_⟩
  have ik : i + 1 ≤ k := by
    by_contra hcon
    have := hm (k + 1) (i + 1) (by omega) (by omega)
    linarith
  have iD : k ≤ i + D := by
    by_contra hcon
    have := hm (i + 1 + D) k (by omega) (by omega)
    linarith
  rw [extend_lt _ (by omega : i < C), extend_lt _ hi]
  simp only
  rw [if_neg (by omega)]
  split_ifs with e
  · have : side a 0 (Point.default : P) = 0 := by simp [side]
    rw [this]
    exact hneg _ iD (by simp only; omega)
  · exact hmono _ _ iD (by simp) (by simp only; omega)

/-- **C144** is false of the code: the spline from 1 to 2 goes back to 1/2. -/
theorem C144_false : ∃ b : BSpline ℝ (PointN ℝ 1) 4 2 1,
    BSpline.new ![0, 0, 1, 1] ![p1 1, p1 2] = .ok b ∧ b.eval (0 : ℝ) = .ok (p1 1) ∧
    b.eval (1 / 2 : ℝ) = .ok (p1 (1 / 2)) := by
  obtain ⟨b, hb, he⟩ := eval_0011 1 2
  refine ⟨b, hb, ?_, he⟩
  exact eval_0011_start hb

/-! ### C145 -/

/-- **C145** for the repaired program: if no leg of the control polygon is longer than `V` times its
share `(u_{i+D} - u_i) / D` of the parameters, the curve moves at speed at most `V`. -/
theorem C145_repaired (h : BSpline.new knots ps = .ok b) (hD : 1 ≤ D) (V : ℝ)
    (hV : ∀ (i : ℕ) (hi : i + 1 < C), D * pdist (ps ⟨i, by omega⟩) (ps ⟨i + 1, hi⟩)
      ≤ V * (knotAt knots (i + 1 + D) - knotAt knots (i + 1)))
    {s t : ℝ} (h1 : knotAt knots D ≤ s) (hst : s ≤ t) (h2 : BeforeOrClamped C D knots t) {p q : P}
    (hp : b.evalFixed s = .ok p) (hq : b.evalFixed t = .ok q) : pdist p q ≤ V * (t - s) := by
  have v := ((new_ok_iff _ _ _).1 h).1
  have h2' : t ≤ knotAt knots C := by
    rcases h2 with h2 | h2
    · exact h2.le
    · exact h2.1.le
  exact speed_legSum v hD V (fun i hi _ _ => by
    rw [extend_lt ps (by omega : i < C), extend_lt ps hi]; exact hV i hi) h1 hst h2
    (isLegSum_fixed h h1 (hst.trans h2') hp) (isLegSum_fixed h (h1.trans hst) h2' hq)

/-- **C145** for the repaired program: no polyline with its corners on the curve, in order, is longer
than the control polygon. -/
theorem C145_repaired_polyline (h : BSpline.new knots ps = .ok b) (τ : ℕ → ℝ) (hτ : Monotone τ)
    (f : ℕ → P) (n : ℕ) (hin : ∀ i ≤ n, knotAt knots D ≤ τ i ∧ τ i ≤ knotAt knots C)
    (hf : ∀ i ≤ n, b.evalFixed (τ i) = .ok (f i)) :
    polylineLength f 0 n ≤ controlPolygonLength ps := by
  have v := ((new_ok_iff _ _ _).1 h).1
  obtain ⟨v1, v2, v3⟩ := id v
  have hm := fun i j (hij : i ≤ j) (hj : j < K) => mono_knotAt v3 hij hj
  have leg : ∀ i ≤ n, IsLegSum D knots ps (τ i) (f i) := fun i hi =>
    isLegSum_fixed h (hin i hi).1 (hin i hi).2 (hf i hi)
  have step : ∀ j ∈ Finset.Ico 0 n, pdist (f j) (f (j + 1)) ≤ ∑ i ∈ Finset.Ico 1 C,
      pdist (extend ps (i - 1)) (extend ps i) * (legShare D C (knotAt knots) i (τ (j + 1))
        - legShare D C (knotAt knots) i (τ j)) := by
    intro j hj
    have hj := (Finset.mem_Ico.1 hj).2
    exact pdist_legSum v (hin j hj.le).1 (hτ (Nat.le_succ j)) (leg j hj.le) (leg (j + 1) hj)
  refine (Finset.sum_le_sum step).trans ?_
  rw [Finset.sum_comm]
  have tele : ∀ i ∈ Finset.Ico 1 C, ∑ j ∈ Finset.Ico 0 n, pdist (extend ps (i - 1)) (extend ps i)
      * (legShare D C (knotAt knots) i (τ (j + 1)) - legShare D C (knotAt knots) i (τ j))
      ≤ pdist (extend ps (i - 1)) (extend ps i) := by
    intro i _
    rw [← Finset.mul_sum, ← Finset.range_eq_Ico, Finset.sum_range_sub
      (fun j => legShare D C (knotAt knots) i (τ j))]
    have a1 := (legShare_mem hm v2 v1 i (hin n le_rfl).1).2
    have a2 := (legShare_mem hm v2 v1 i (hin 0 (Nat.zero_le n)).1).1
    exact mul_le_of_le_one_right (pdist_nonneg _ _) (by linarith)
  refine (Finset.sum_le_sum tele).trans (le_of_eq ?_)
  unfold controlPolygonLength
  rw [Finset.sum_Ico_eq_sum_range]
  refine Finset.sum_congr rfl fun i hi => ?_
  have hi := Finset.mem_range.1 hi
  rw [dif_pos (by omega : i + 1 < C), Nat.add_comm 1 i, Nat.add_sub_cancel,
    extend_lt ps (by omega : i < C), extend_lt ps (by omega : i + 1 < C)]

/-- **C145** for the repaired program: `arclen` does not exceed the length of the control polygon. -/
theorem C145_repaired_arclen (h : BSpline.new knots ps = .ok b) (n : ℕ) :
    ∃ x, b.arclenFixed n = some x ∧ x ≤ controlPolygonLength ps := by
  obtain ⟨f, hf, ha⟩ := C121_bspline_arclen h
  obtain ⟨v1, v2, v3⟩ := ((new_ok_iff _ _ _).1 h).1
  have hle : knotAt knots D ≤ knotAt knots C := mono_knotAt v3 (by omega) (by omega)
  have w : 0 ≤ knotAt knots C - knotAt knots D := by linarith
  refine ⟨_, ha n, ?_⟩
  have hin : ∀ i ≤ n, knotAt knots D
        ≤ knotAt knots D + (i : ℝ) / n * (knotAt knots C - knotAt knots D) ∧
      knotAt knots D + (i : ℝ) / n * (knotAt knots C - knotAt knots D) ≤ knotAt knots C := by
    intro i hi
    have q0 : (0 : ℝ) ≤ (i : ℝ) / n := by positivity
    have q1 : (i : ℝ) / n ≤ 1 := div_le_one_of_le₀ (by exact_mod_cast hi) (by positivity)
    have := mul_nonneg q0 w
    have := mul_le_mul_of_nonneg_right q1 w
    exact ⟨by linarith, by linarith⟩
  refine C145_repaired_polyline h
    (fun i : ℕ => knotAt knots D + (i : ℝ) / n * (knotAt knots C - knotAt knots D)) (fun i j hij => ?_)
    _ n hin (fun i hi => hf _ (hin i hi).1 (hin i hi).2)
  have : (i : ℝ) / n ≤ (j : ℝ) / n := div_le_div_of_nonneg_right (by exact_mod_cast hij) (by positivity)
  have := mul_le_mul_of_nonneg_right this w
  simp only
  linarith

/-- **C145** for the repaired program: control points on a line, spaced like the averages of `D`
neighbouring knots, are passed at constant speed. -/
theorem C145_repaired_line (h : BSpline.new knots ps = .ok b) (hD : 1 ≤ D) (o w : P)
    (hps : ∀ (i : Fin C) c, coord (ps i) c = coord o c + greville (knotAt knots) D i.val * coord w c)
    {t : ℝ} (h1 : knotAt knots D ≤ t) (h2 : BeforeOrClamped C D knots t) :
    b.evalFixed t = .ok (o + w * t) := by
  have v := ((new_ok_iff _ _ _).1 h).1
  have v1 := v.1
  have h2' : t ≤ knotAt knots C := by
    rcases h2 with h2 | h2
    · exact h2.le
    · exact h2.1.le
  obtain ⟨W, hW⟩ := C121_bspline_convex h h1 h2'
  obtain ⟨q, hq, -⟩ := hW ps b h
  rw [hq]
  congr 1
  apply point_ext
  intro c
  rw [isLegSum_fixed h h1 h2' hq c, coord_add, coord_mul]
  have e := legShare_param v hD h1 h2
  conv_rhs => rw [e]
  rw [extend_lt ps (by omega : 0 < C), hps]
  have e2 : ∀ i ∈ Finset.Ico 1 C, (coord (extend ps i) c - coord (extend ps (i - 1)) c)
        * legShare D C (knotAt knots) i t
      = coord w c * ((greville (knotAt knots) D i - greville (knotAt knots) D (i - 1))
        * legShare D C (knotAt knots) i t) := by
    intro i hi
    obtain ⟨i1, i2⟩ := Finset.mem_Ico.1 hi
    rw [extend_lt ps i2, extend_lt ps (by omega : i - 1 < C), hps, hps]
    ring
  rw [Finset.sum_congr rfl e2, ← Finset.mul_sum]
  ring

/-- **C145** with the calls of this version: the points of the detour of C136 move at bounded speed. -/
theorem C145_detour (v : ValidSpline C D knots) (hc : FrontClamped D knots ∨ BackClamped D knots)
    (ps : Arr P C) (hD : 1 ≤ D) (V : ℝ)
    (hV : ∀ (i : ℕ) (hi : i + 1 < C), D * pdist (ps ⟨i, by omega⟩) (ps ⟨i + 1, hi⟩)
      ≤ V * (knotAt knots (i + 1 + D) - knotAt knots (i + 1)))
    {s t : ℝ} (hst : s ≤ t) {k l : ℕ} (hDk : D ≤ k) (hkC : k < C) (hDl : D ≤ l) (hlC : l < C)
    (s1 : knotAt knots k ≤ s) (s2 : s < knotAt knots (k + 1))
    (t1 : knotAt knots l ≤ t) (t2 : t < knotAt knots (l + 1))
    (hs : ∀ i : Fin K, knots i < s → eps ≤ s - knots i)
    (ht : ∀ i : Fin K, knots i < t → eps ≤ t - knots i) :
    ∃ (b b' : BSpline ℝ P K C D) (p q : P),
      BSpline.new knots (fun i => ps i - ps ⟨k, hkC⟩) = .ok b ∧ b.eval s = .ok p ∧
      BSpline.new knots (fun i => ps i - ps ⟨l, hlC⟩) = .ok b' ∧ b'.eval t = .ok q ∧
      pdist (p + ps ⟨k, hkC⟩) (q + ps ⟨l, hlC⟩) ≤ V * (t - s) := by
  obtain ⟨b, p, hb, hp, hpc⟩ := C136_bspline v hc ps hDk hkC s1 s2 hs
  obtain ⟨b', q, hb', hq, hqc⟩ := C136_bspline v hc ps hDl hlC t1 t2 ht
  obtain ⟨v1, v2, v3⟩ := id v
  have hm := fun i j (hij : i ≤ j) (hj : j < K) => mono_knotAt v3 hij hj
  have a1 := hm D k hDk (by omega)
  have a2 := hm (k + 1) C hkC (by omega)
  have a3 := hm (l + 1) C hlC (by omega)
  exact ⟨b, b', p, q, hb, hp, hb', hq, speed_legSum v hD V (fun i hi _ _ => by
    rw [extend_lt ps (by omega : i < C), extend_lt ps hi]; exact hV i hi) (a1.trans s1) hst
    (.inl (t2.trans_le a3)) (isLegSum_of_spline v (a1.trans s1) (s2.trans_le a2) hpc)
    (isLegSum_of_spline v ((a1.trans s1).trans hst) (t2.trans_le a3) hqc)⟩

/-- **C145**, the part that holds of `eval` itself: between two knots it moves at bounded speed, but
as if control point `k` of the span were the origin. -/
theorem C145_partial (h : BSpline.new knots ps = .ok b) (hc : FrontClamped D knots ∨ BackClamped D knots)
    (hD : 1 ≤ D) {k : ℕ} (hDk : D ≤ k) (hkC : k < C) (V : ℝ)
    (hV : ∀ (i : ℕ) (hi : i + 1 < k), k ≤ i + D → D * pdist (ps ⟨i, by omega⟩) (ps ⟨i + 1, by omega⟩)
      ≤ V * (knotAt knots (i + 1 + D) - knotAt knots (i + 1)))
    (hV' : D * pdist (ps ⟨k - 1, by omega⟩) Point.default ≤ V * (knotAt knots (k + D) - knotAt knots k))
    {s t : ℝ} (s1 : knotAt knots k ≤ s) (hst : s ≤ t) (t2 : t < knotAt knots (k + 1))
    (hs : ∀ i : Fin K, knots i < s → eps ≤ s - knots i)
    (ht : ∀ i : Fin K, knots i < t → eps ≤ t - knots i) :
    ∃ p q, b.eval s = .ok p ∧ b.eval t = .ok q ∧ pdist p q ≤ V * (t - s) := by
  obtain ⟨p, hp, hp'⟩ := isLegSum_eval h hc hDk hkC s1 (hst.trans_lt t2) hs
  obtain ⟨q, hq, hq'⟩ := isLegSum_eval h hc hDk hkC (s1.trans hst) t2 ht
  have v := ((new_ok_iff _ _ _).1 h).1
  obtain ⟨v1, v2, v3⟩ := id v
  have hm := fun i j (hij : i ≤ j) (hj : j < K) => mono_knotAt v3 hij hj
  refine ⟨p, q, hp, hq, speed_legSum v hD V (fun i hi hit his => ?_)
    ((hm D k hDk (by omega)).trans s1) hst (.inl (t2.trans_le (hm (k + 1) C hkC (by omega)))) hp' hq'⟩
  have ik : i + 1 ≤ k := by
    by_contra hcon
    have := hm (k + 1) (i + 1) (by omega) (by omega)
    linarith
  have iD : k ≤ i + D := by
    by_contra hcon
    have := hm (i + 1 + D) k (by omega) (by omega)
    linarith
  rw [extend_lt _ (by omega : i < C), extend_lt _ hi]
  simp only
  rw [if_neg (by omega)]
  rcases eq_or_lt_of_le ik with e | l
  · subst e
    rw [if_pos rfl]
    exact hV'
  · rw [if_neg (by omega)]
    exact hV i l iD

/-- **C145** is false of the code: with both control points at 1 (control polygon of length 0) the
curve goes from 1 to 1/2. -/
theorem C145_false : ∃ b : BSpline ℝ (PointN ℝ 1) 4 2 1,
    BSpline.new ![0, 0, 1, 1] ![p1 1, p1 1] = .ok b ∧ b.eval (0 : ℝ) = .ok (p1 1) ∧
    b.eval (1 / 2 : ℝ) = .ok (p1 (1 / 2)) := by
  obtain ⟨b, hb, he⟩ := eval_0011 1 1
  exact ⟨b, hb, eval_0011_start hb, he⟩

end Splines

/-! ### Worked cases -/

theorem valid_0001222 : ValidSpline 4 2 (![0, 0, 0, 1, 2, 2, 2] : Fin 7 → ℝ) := by
  refine ⟨by norm_num, by norm_num, ?_⟩
  intro i j hij
  fin_cases i <;> fin_cases j <;> simp at hij ⊢

theorem front_0001222 : FrontClamped 2 (![0, 0, 0, 1, 2, 2, 2] : Fin 7 → ℝ) :=
  (frontClamped_iff valid_0001222).2 (by simp [knotAt, eps_pos])

theorem side_p1 (x : ℝ) : side (fun _ => 1) 0 (p1 x) = x := by
  have : Point.dim (PointN ℝ 1) = 1 := rfl
  simp [side, this]

theorem pdist_p1 (x y : ℝ) : pdist (p1 x) (p1 y) = |x - y| := by
  have : Point.dim (PointN ℝ 1) = 1 := rfl
  simp [pdist, this, Real.sqrt_sq_eq_abs]

theorem eps_le_quarter : eps ≤ 1 / 4 := by unfold eps; norm_num

/-- `C144_repaired_strict` (and `C144_repaired`), `C145_repaired`, `C145_repaired_arclen`: a quadratic
spline of two pieces over 0, 1, 3, 4. -/
example : ∃ b : BSpline ℝ (PointN ℝ 1) 7 4 2,
    BSpline.new ![0, 0, 0, 1, 2, 2, 2] ![p1 0, p1 1, p1 3, p1 4] = .ok b ∧
    (∀ s t p q, 0 ≤ s → s < t → t ≤ 2 → b.evalFixed s = .ok p → b.evalFixed t = .ok q →
      side (fun _ => 1) 0 p < side (fun _ => 1) 0 q ∧ pdist p q ≤ 2 * (t - s)) ∧
    ∃ x, b.arclenFixed 10 = some x ∧ x ≤ 4 := by
  obtain ⟨b, hb⟩ := (C43_accepts (D := 2) ![0, 0, 0, 1, 2, 2, 2] ![p1 0, p1 1, p1 3, p1 4]).2 valid_0001222
  refine ⟨b, hb, fun s t p q s0 st t2 hp hq => ⟨?_, ?_⟩, ?_⟩
  · refine (C144_repaired_strict hb (by norm_num) (fun _ => 1) ?_ (by simpa [knotAt] using s0) st
      (by simpa [knotAt] using t2) hp hq).1
    intro j k hjk
    fin_cases j <;> fin_cases k <;> simp [side_p1] at hjk ⊢ <;> norm_num
  · refine C145_repaired hb (by norm_num) 2 ?_ (by simpa [knotAt] using s0) st.le ?_ hp hq
    · intro i hi
      have : i = 0 ∨ i = 1 ∨ i = 2 := by omega
      rcases this with rfl | rfl | rfl <;> simp [knotAt, pdist_p1] <;> norm_num
    · rcases eq_or_lt_of_le t2 with e | l
      · exact .inr ⟨by simp [knotAt, e], by simp [knotAt]⟩
      · exact .inl (by simpa [knotAt] using l)
  · obtain ⟨x, hx, hle⟩ := C145_repaired_arclen hb 10
    refine ⟨x, hx, hle.trans (le_of_eq ?_)⟩
    simp [controlPolygonLength, Finset.sum_range_succ, pdist_p1]
    norm_num

/-- `C144_detour`, `C145_detour`: from 1/2 to 3/2, across the knot at 1. -/
example : ∃ (b b' : BSpline ℝ (PointN ℝ 1) 7 4 2) (p q : PointN ℝ 1),
    BSpline.new ![0, 0, 0, 1, 2, 2, 2] (fun i => (![p1 0, p1 1, p1 3, p1 4] : Fin 4 → PointN ℝ 1) i - p1 3)
      = .ok b ∧ b.eval (1 / 2 : ℝ) = .ok p ∧
    BSpline.new ![0, 0, 0, 1, 2, 2, 2] (fun i => (![p1 0, p1 1, p1 3, p1 4] : Fin 4 → PointN ℝ 1) i - p1 4)
      = .ok b' ∧ b'.eval (3 / 2 : ℝ) = .ok q ∧
    side (fun _ => 1) 0 (p + p1 3) ≤ side (fun _ => 1) 0 (q + p1 4) ∧
    pdist (p + p1 3) (q + p1 4) ≤ 2 := by
  have e := eps_le_quarter
  have hs : ∀ i : Fin 7, (![0, 0, 0, 1, 2, 2, 2] : Fin 7 → ℝ) i < 1 / 2 →
      eps ≤ 1 / 2 - (![0, 0, 0, 1, 2, 2, 2] : Fin 7 → ℝ) i := by
    intro i
    fin_cases i <;> simp <;> first | (intro; linarith) | linarith
  have ht : ∀ i : Fin 7, (![0, 0, 0, 1, 2, 2, 2] : Fin 7 → ℝ) i < 3 / 2 →
      eps ≤ 3 / 2 - (![0, 0, 0, 1, 2, 2, 2] : Fin 7 → ℝ) i := by
    intro i
    fin_cases i <;> simp <;> first | (intro; linarith) | linarith
  obtain ⟨b, b', p, q, hb, hp, hb', hq, hle⟩ := C144_detour valid_0001222 (.inl front_0001222)
    ![p1 0, p1 1, p1 3, p1 4] (fun _ => 1) (by
      intro j k hjk
      fin_cases j <;> fin_cases k <;> simp [side_p1] at hjk ⊢ <;> norm_num)
    (s := 1 / 2) (t := 3 / 2) (by norm_num) (k := 2) (l := 3) le_rfl (by norm_num) (by norm_num) (by norm_num)
    (by simp [knotAt]) (by simp [knotAt]; norm_num) (by simp [knotAt]; norm_num)
    (by simp [knotAt]; norm_num) hs ht
  obtain ⟨c, c', p', q', hc, hp', hc', hq', hle'⟩ := C145_detour valid_0001222 (.inl front_0001222)
    ![p1 0, p1 1, p1 3, p1 4] (by norm_num) 2 (by
      intro i hi
      have : i = 0 ∨ i = 1 ∨ i = 2 := by omega
      rcases this with rfl | rfl | rfl <;> simp [knotAt, pdist_p1] <;> norm_num)
    (s := 1 / 2) (t := 3 / 2) (by norm_num) (k := 2) (l := 3) le_rfl (by norm_num) (by norm_num) (by norm_num)
    (by simp [knotAt]) (by simp [knotAt]; norm_num) (by simp [knotAt]; norm_num)
    (by simp [knotAt]; norm_num) hs ht
  rw [hb] at hc
  rw [hb'] at hc'
  cases hc
  cases hc'
  rw [hp] at hp'
  rw [hq] at hq'
  cases hp'
  cases hq'
  refine ⟨b, b', p, q, hb, hp, hb', hq, hle, hle'.trans (by norm_num)⟩

/-- `C144_partial`, `C145_partial`: the first piece of a quadratic spline whose first two control
points lie at -2 and -1. -/
example : ∃ b : BSpline ℝ (PointN ℝ 1) 7 4 2,
    BSpline.new ![0, 0, 0, 1, 2, 2, 2] ![p1 (-2), p1 (-1), p1 3, p1 4] = .ok b ∧
    ∃ p q, b.eval (1 / 4 : ℝ) = .ok p ∧ b.eval (1 / 2 : ℝ) = .ok q ∧
      side (fun _ => 1) 0 p ≤ side (fun _ => 1) 0 q ∧ pdist p q ≤ 2 * (1 / 2 - 1 / 4) := by
  obtain ⟨b, hb⟩ :=
    (C43_accepts (D := 2) ![0, 0, 0, 1, 2, 2, 2] ![p1 (-2), p1 (-1), p1 3, p1 4]).2 valid_0001222
  have e : eps ≤ 1 / 4 := eps_le_quarter
  have hs : ∀ i : Fin 7, (![0, 0, 0, 1, 2, 2, 2] : Fin 7 → ℝ) i < 1 / 4 →
      eps ≤ 1 / 4 - (![0, 0, 0, 1, 2, 2, 2] : Fin 7 → ℝ) i := by
    intro i
    fin_cases i <;> simp <;> first | (intro; linarith) | linarith
  have ht : ∀ i : Fin 7, (![0, 0, 0, 1, 2, 2, 2] : Fin 7 → ℝ) i < 1 / 2 →
      eps ≤ 1 / 2 - (![0, 0, 0, 1, 2, 2, 2] : Fin 7 → ℝ) i := by
    intro i
    fin_cases i <;> simp <;> first | (intro; linarith) | linarith
  obtain ⟨p, q, hp, hq, h1⟩ := C144_partial hb (.inl front_0001222) (fun _ => 1) (k := 2) le_rfl (by norm_num)
    (by
      intro i j _ hij hj
      fin_cases i <;> fin_cases j <;> simp [side_p1] at hij hj ⊢ <;> norm_num)
    (by
      intro i _ hi
      fin_cases i <;> simp [side_p1] at hi ⊢)
    (s := 1 / 4) (t := 1 / 2) (by simp [knotAt]) (by norm_num) (by simp [knotAt]; norm_num) hs ht
  obtain ⟨p', q', hp', hq', h2⟩ := C145_partial hb (.inl front_0001222) (by norm_num) (k := 2) le_rfl
    (by norm_num) 2
    (by
      intro i hi _
      have : i = 0 := by omega
      subst this
      simp [knotAt, pdist_p1]; norm_num)
    (by
      have : (Point.default : PointN ℝ 1) = p1 0 := by
        apply point_ext
        intro c
        rcases Nat.eq_zero_or_pos c with rfl | hc
        · simp
        · rw [coord_out _ (show ¬ c < 1 by omega), coord_out _ (show ¬ c < 1 by omega)]
      simp [knotAt, this, pdist_p1])
    (s := 1 / 4) (t := 1 / 2) (by simp [knotAt]) (by norm_num) (by simp [knotAt]; norm_num) hs ht
  rw [hp] at hp'
  rw [hq] at hq'
  cases hp'
  cases hq'
  exact ⟨b, hb, p, q, hp, hq, h1, h2⟩

/-- `C145_repaired_line`: the averages of neighbouring knots of this spline are 0, 1/2, 3/2, 2. -/
example : ∃ b : BSpline ℝ (PointN ℝ 1) 7 4 2,
    BSpline.new ![0, 0, 0, 1, 2, 2, 2] ![p1 0, p1 (1 / 2), p1 (3 / 2), p1 2] = .ok b ∧
    b.evalFixed (1 / 3 : ℝ) = .ok (p1 0 + p1 1 * (1 / 3 : ℝ)) := by
  obtain ⟨b, hb⟩ :=
    (C43_accepts (D := 2) ![0, 0, 0, 1, 2, 2, 2] ![p1 0, p1 (1 / 2), p1 (3 / 2), p1 2]).2 valid_0001222
  refine ⟨b, hb, C145_repaired_line hb (by norm_num) (p1 0) (p1 1) ?_ (by simp [knotAt])
    (.inl (by simp [knotAt]; norm_num))⟩
  intro i c
  rcases Nat.eq_zero_or_pos c with rfl | hc
  · fin_cases i <;> simp [greville, knotAt, Finset.sum_range_succ] <;> norm_num
  · have z : ∀ p : PointN ℝ 1, coord p c = 0 := fun p => coord_out _ (show ¬ c < 1 by omega)
    simp [z]

end Stroke
