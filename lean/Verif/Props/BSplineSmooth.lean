import Verif.Props.RepairedBSplineMore
import Verif.Props.BSplineJoints
import Verif.Props.Workarounds
import Mathlib.Analysis.Calculus.FDeriv.Extend
import Mathlib.Analysis.Calculus.ContDiff.Operations
import Mathlib.Analysis.Calculus.ContDiff.Polynomial

set_option linter.unusedSectionVars false

/-!
# Smoothness of B-splines at their knots (C143)
-/

open Filter Topology

namespace Stroke

section Basis
variable {u : ℕ → ℝ} {K : ℕ}

/-- A number between the first and the last knot that is not a knot lies in a span. -/
theorem exists_open_span (hK : 0 < K) {y : ℝ} (h0 : u 0 < y) (h1 : y < u (K - 1))
    (hy : ∀ j < K, u j ≠ y) : ∃ k, k + 1 < K ∧ u k < y ∧ y < u (k + 1) := by
  classical
  have hex : ∃ j, y < u j := ⟨K - 1, h1⟩
  have hj := Nat.find_spec hex
  have hle : Nat.find hex ≤ K - 1 := Nat.find_min' hex h1
  have hpos : Nat.find hex ≠ 0 := by
    intro e
    rw [e] at hj
    linarith
  have hmin := Nat.find_min hex (m := Nat.find hex - 1) (by omega)
  refine ⟨Nat.find hex - 1, by omega, ?_, ?_⟩
  · exact lt_of_le_of_ne (not_lt.1 hmin) (hy _ (by omega))
  · rwa [show Nat.find hex - 1 + 1 = Nat.find hex by omega]

theorem eventually_not_knot (x : ℝ) : ∀ᶠ y in 𝓝[≠] x, ∀ j < K, u j ≠ y := by
  have : ∀ᶠ y in 𝓝[≠] x, ∀ j ∈ Finset.range K, u j ≠ y := by
    rw [eventually_all_finset]
    intro j _
    by_cases e : u j = x
    · rw [e]
      filter_upwards [self_mem_nhdsWithin] with y hy
      exact fun h => hy h.symm
    · exact mem_nhdsWithin_of_mem_nhds
        (by filter_upwards [isOpen_ne.mem_nhds (show x ≠ u j from fun h => e h.symm)] with y hy
            exact fun h => hy h.symm)
  filter_upwards [this] with y hy j hj
  exact hy j (Finset.mem_range.2 hj)

/-- Differentiability at a point from the derivatives nearby. -/
theorem hasDerivAt_of_nearby {f g : ℝ → ℝ} {x : ℝ} (h : ∀ᶠ y in 𝓝[≠] x, HasDerivAt f (g y) y)
    (hf : ContinuousAt f x) (hg : ContinuousAt g x) : HasDerivAt f (g x) x := by
  have hR : ∀ᶠ y in 𝓝[>] x, HasDerivAt f (g y) y := nhdsWithin_mono _ (fun y hy => ne_of_gt hy) h
  have hL : ∀ᶠ y in 𝓝[<] x, HasDerivAt f (g y) y := nhdsWithin_mono _ (fun y hy => ne_of_lt hy) h
  have r : HasDerivWithinAt f (g x) (Set.Ici x) x := by
    refine hasDerivWithinAt_Ici_of_tendsto_deriv (s := {y | HasDerivAt f (g y) y})
      (fun y hy => (HasDerivAt.differentiableAt hy).differentiableWithinAt) hf.continuousWithinAt hR ?_
    refine (hg.tendsto.mono_left nhdsWithin_le_nhds).congr' ?_
    filter_upwards [hR] with y hy
    exact hy.deriv.symm
  have l : HasDerivWithinAt f (g x) (Set.Iic x) x := by
    refine hasDerivWithinAt_Iic_of_tendsto_deriv (s := {y | HasDerivAt f (g y) y})
      (fun y hy => (HasDerivAt.differentiableAt hy).differentiableWithinAt) hf.continuousWithinAt hL ?_
    refine (hg.tendsto.mono_left nhdsWithin_le_nhds).congr' ?_
    filter_upwards [hL] with y hy
    exact hy.deriv.symm
  have := l.union r
  rwa [Set.Iic_union_Ici, hasDerivWithinAt_univ] at this

/-- A basis function of degree `q` is `r` times continuously differentiable at a knot of multiplicity
at most `q - r`. -/
theorem coxDeBoor_contDiffAt (hm : ∀ i j, i ≤ j → j < K → u i ≤ u j) {x : ℝ} (h0 : u 0 < x)
    (h1 : x < u (K - 1)) {m : ℕ} (hmult : ∀ i, i + m < K → ¬ (u i = x ∧ u (i + m) = x)) (r : ℕ) :
    ∀ q i, r + m ≤ q → i + q + 1 < K → ContDiffAt ℝ r (coxDeBoor u q i) x := by
  -- equal knots are consecutive
  have hmult' : ∀ q, m ≤ q → ∀ i, i + q < K → ¬ (u i = x ∧ u (i + q) = x) := by
    rintro q hq i hi ⟨e1, e2⟩
    refine hmult i (by omega) ⟨e1, le_antisymm ?_ ?_⟩
    · rw [← e2]; exact hm _ _ (by omega) hi
    · rw [← e1]; exact hm _ _ (by omega) (by omega)
  have hcont : ∀ q i, m ≤ q → i + q + 1 < K → ContinuousAt (coxDeBoor u q i) x := by
    intro q i hq hi
    refine coxDeBoor_continuousAt_of hm x q i hi (hmult' q hq i (by omega)) ?_
    have := hmult' q hq (i + 1) (by omega)
    rwa [show i + 1 + q = i + q + 1 by omega] at this
  induction r with
  | zero =>
    intro q i hq hi
    rw [show ((0 : ℕ) : WithTop ℕ∞) = 0 from rfl, contDiffAt_zero]
    have all : ∀ᶠ y in 𝓝 x, ContinuousAt (coxDeBoor u q i) y := by
      filter_upwards [eventually_nhdsWithin_iff.1 (eventually_not_knot (u := u) (K := K) x)] with y hy
      by_cases e : y = x
      · rw [e]; exact hcont q i (by omega) hi
      · have hy := hy e
        exact coxDeBoor_continuousAt_of hm y q i hi (fun h => hy i (by omega) h.1)
          (fun h => hy (i + 1) (by omega) h.1)
    exact ⟨_, all, fun y hy => (hy : ContinuousAt _ _).continuousWithinAt⟩
  | succ r ih =>
    intro q i hq hi
    obtain ⟨d, rfl⟩ : ∃ d, q = d + 1 := ⟨q - 1, by omega⟩
    set g : ℝ → ℝ := fun t => (d + 1 : ℝ) * ((u (i + d + 1) - u i)⁻¹ * coxDeBoor u d i t
        - (u (i + d + 2) - u (i + 1))⁻¹ * coxDeBoor u d (i + 1) t) with hg
    have hgr : ContDiffAt ℝ r g x :=
      contDiffAt_const.mul ((contDiffAt_const.mul (ih d i (by omega) (by omega))).sub
        (contDiffAt_const.mul (ih d (i + 1) (by omega) (by omega))))
    have hgc : ContinuousAt g x :=
      continuousAt_const.mul ((continuousAt_const.mul (hcont d i (by omega) (by omega))).sub
        (continuousAt_const.mul (hcont d (i + 1) (by omega) (by omega))))
    have near : ∀ᶠ y in 𝓝[≠] x, HasDerivAt (coxDeBoor u (d + 1) i) (g y) y := by
      filter_upwards [eventually_not_knot (u := u) (K := K) x, mem_nhdsWithin_of_mem_nhds (lt_mem_nhds h0),
        mem_nhdsWithin_of_mem_nhds (gt_mem_nhds h1)] with y hy y0 y1
      obtain ⟨k, hk, k1, k2⟩ := exists_open_span (by omega) y0 y1 hy
      exact hasDerivAt_coxDeBoor hm hk k1 k2 d i (by omega)
    have atx := hasDerivAt_of_nearby near (hcont (d + 1) i (by omega) hi) hgc
    have all : ∀ᶠ y in 𝓝 x, HasDerivAt (coxDeBoor u (d + 1) i) (g y) y := by
      filter_upwards [eventually_nhdsWithin_iff.1 near] with y hy
      by_cases e : y = x
      · rw [e]; exact atx
      · exact hy e
    push_cast
    rw [contDiffAt_succ_iff_hasFDerivAt]
    refine ⟨fun y => ContinuousLinearMap.toSpanSingleton ℝ (g y), ⟨_, all, fun y hy => ?_⟩, ?_⟩
    · exact (hy : HasDerivAt _ _ _).hasFDerivAt
    · have e : (fun y => ContinuousLinearMap.toSpanSingleton ℝ (g y))
          = fun y => (1 : ℝ →L[ℝ] ℝ).smulRight (g y) := by
        funext y
        ext
        simp
      rw [e]
      exact contDiffAt_const.smulRight hgr

end Basis

section Splines
variable {P : Type} [Point ℝ P] [LawfulPoint P] {K C D : ℕ}
variable {knots : Arr ℝ K} {ps : Arr P C} {b : BSpline ℝ P K C D}

/-- How often `x` occurs among the knots. -/
noncomputable def knotMultiplicity (knots : Fin K → ℝ) (x : ℝ) : ℕ :=
  (Finset.univ.filter fun i => knots i = x).card

theorem knotMult_spread (v3 : ∀ i j : Fin K, i ≤ j → knots i ≤ knots j) {x : ℝ} {m : ℕ}
    (h : knotMultiplicity knots x ≤ m) (i : ℕ) (hi : i + m < K) :
    ¬ (knotAt knots i = x ∧ knotAt knots (i + m) = x) := by
  rintro ⟨e1, e2⟩
  have all : ∀ j : Fin (m + 1), knots ⟨i + j, by have := j.2; omega⟩ = x := by
    intro j
    have hj := j.2
    have a := mono_knotAt v3 (show i ≤ i + j.val by omega) (show i + j.val < K by omega)
    have b := mono_knotAt v3 (show i + j.val ≤ i + m by omega) hi
    rw [e1, knotAt_lt knots (show i + j.val < K by omega)] at a
    rw [e2, knotAt_lt knots (show i + j.val < K by omega)] at b
    exact le_antisymm b a
  have hinj : Function.Injective fun j : Fin (m + 1) => (⟨i + j, by have := j.2; omega⟩ : Fin K) := by
    intro a b hab
    have := congrArg Fin.val hab
    simp only at this
    exact Fin.ext (by omega)
  have := Finset.card_le_card_of_injOn (s := (Finset.univ : Finset (Fin (m + 1))))
    (t := Finset.univ.filter fun i => knots i = x) _
    (fun j _ => Finset.mem_filter.2 ⟨Finset.mem_univ _, all j⟩) hinj.injOn
  rw [Finset.card_univ, Fintype.card_fin] at this
  unfold knotMultiplicity at h
  omega

theorem splineCoord_contDiffAt (v : ValidSpline C D knots) (ps : Arr P C) {x : ℝ}
    (h0 : knotAt knots D < x) (h1 : x < knotAt knots C) {r : ℕ} (hr : r + knotMultiplicity knots x ≤ D)
    (c : ℕ) : ContDiffAt ℝ r (fun t => splineCoord D knots ps t c) x := by
  obtain ⟨v1, v2, v3⟩ := v
  have hm : ∀ i j, i ≤ j → j < K → knotAt knots i ≤ knotAt knots j :=
    fun i j hij hj => mono_knotAt v3 hij hj
  unfold splineCoord
  refine ContDiffAt.sum fun i _ => ContDiffAt.mul ?_ contDiffAt_const
  have hi := i.2
  exact coxDeBoor_contDiffAt hm ((hm 0 D (by omega) (by omega)).trans_lt h0)
    (h1.trans_le (hm C (K - 1) (by omega) (by omega)))
    (knotMult_spread v3 le_rfl) r D i.val hr (by omega)

/-- Between the knots the curve is a polynomial. -/
theorem splineCoord_smooth_between (v : ValidSpline C D knots) (ps : Arr P C) {x : ℝ}
    (h0 : knotAt knots D < x) (h1 : x < knotAt knots C) (hx : knotMultiplicity knots x = 0) (r c : ℕ) :
    ContDiffAt ℝ r (fun t => splineCoord D knots ps t c) x := by
  obtain ⟨v1, v2, v3⟩ := v
  have hm : ∀ i j, i ≤ j → j < K → knotAt knots i ≤ knotAt knots j :=
    fun i j hij hj => mono_knotAt v3 hij hj
  have hne : ∀ j < K, knotAt knots j ≠ x := by
    intro j hj e
    have := Finset.card_eq_zero.1 hx
    exact Finset.notMem_empty (⟨j, hj⟩ : Fin K)
      (this ▸ Finset.mem_filter.2 ⟨Finset.mem_univ _, by rw [← knotAt_lt knots hj]; exact e⟩)
  obtain ⟨k, hk, k1, k2⟩ := exists_open_span (u := knotAt knots) (K := K) (by omega)
    ((hm 0 D (by omega) (by omega)).trans_lt h0) (h1.trans_le (hm C (K - 1) (by omega) (by omega))) hne
  unfold splineCoord
  refine ContDiffAt.sum fun i _ => ContDiffAt.mul ?_ contDiffAt_const
  obtain ⟨g, -, hg⟩ := coxDeBoor_polynomial hm hk D i.val (by omega)
  have hp : ContDiffAt ℝ r (fun t => g.eval t) x := by
    simpa using (g.contDiff_aeval (𝕜 := ℝ) (r : WithTop ℕ∞)).contDiffAt (x := x)
  refine hp.congr_of_eventuallyEq ?_
  filter_upwards [lt_mem_nhds k1, gt_mem_nhds k2] with t t1 t2
  exact hg t t1.le t2

/-- **C143** for the repaired program: inside its domain the curve is `D - m` times continuously
differentiable at an `m`-fold knot, and arbitrarily often at parameters that are not knots. -/
theorem C143_repaired (h : BSpline.new knots ps = .ok b) :
    ∃ f : ℝ → P, (∀ t, knotAt knots D ≤ t → t ≤ knotAt knots C → b.evalFixed t = .ok (f t)) ∧
      ∀ x, knotAt knots D < x → x < knotAt knots C → ∀ r,
        r + knotMultiplicity knots x ≤ D ∨ knotMultiplicity knots x = 0 →
        ∀ c, ContDiffAt ℝ r (fun t => coord (f t) c) x := by
  have v := ((new_ok_iff _ _ _).1 h).1
  have v1 := v.1
  have ex : ∀ t, ∃ q : P, (knotAt knots D ≤ t → t ≤ knotAt knots C → b.evalFixed t = .ok q) ∧
      (knotAt knots D ≤ t → t < knotAt knots C → ∀ c, coord q c = splineCoord D knots ps t c) := by
    intro t
    by_cases ht : knotAt knots D ≤ t ∧ t < knotAt knots C
    · obtain ⟨q, hq, hc⟩ := C121_bspline h ht.1 ht.2
      exact ⟨q, fun _ _ => hq, fun _ _ => hc⟩
    · by_cases he : t = knotAt knots C
      · exact ⟨ps ⟨C - 1, by omega⟩, fun _ _ => by rw [he]; exact C121_bspline_end h,
          fun a b => absurd ⟨a, b⟩ ht⟩
      · exact ⟨Point.default, fun a b => absurd ⟨a, lt_of_le_of_ne b he⟩ ht,
          fun a b => absurd ⟨a, b⟩ ht⟩
  choose f hf1 hf2 using ex
  refine ⟨f, hf1, fun x h0 h1 r hr c => ?_⟩
  refine (hr.elim (splineCoord_contDiffAt v ps h0 h1 · c)
    (splineCoord_smooth_between v ps h0 h1 · r c)).congr_of_eventuallyEq ?_
  filter_upwards [lt_mem_nhds h0, gt_mem_nhds h1] with t t0 t1
  exact hf2 t t0.le t1 c

/-- **C143** with the calls of this version: subtracting control point `k`, evaluating and adding it
again (C136) returns, on every span, points of one curve that is `D - m` times continuously
differentiable at every `m`-fold knot inside the domain. -/
theorem C143_detour (v : ValidSpline C D knots) (hc : FrontClamped D knots ∨ BackClamped D knots)
    (ps : Arr P C) :
    ∃ g : ℝ → ℕ → ℝ,
      (∀ x, knotAt knots D < x → x < knotAt knots C → ∀ r,
        r + knotMultiplicity knots x ≤ D ∨ knotMultiplicity knots x = 0 →
        ∀ c, ContDiffAt ℝ r (fun t => g t c) x) ∧
      ∀ (t : ℝ) (k : ℕ) (_ : D ≤ k) (hkC : k < C), knotAt knots k ≤ t → t < knotAt knots (k + 1) →
        (∀ i : Fin K, knots i < t → eps ≤ t - knots i) →
        ∃ (b : BSpline ℝ P K C D) (q : P),
          BSpline.new knots (fun i => ps i - ps ⟨k, hkC⟩) = .ok b ∧ b.eval t = .ok q ∧
          ∀ c, coord (q + ps ⟨k, hkC⟩) c = g t c :=
  ⟨fun t c => splineCoord D knots ps t c, fun _ h0 h1 r hr c =>
      hr.elim (splineCoord_contDiffAt v ps h0 h1 · c) (splineCoord_smooth_between v ps h0 h1 · r c),
    fun _ _ hDk hkC h1 h2 heps => C136_bspline v hc ps hDk hkC h1 h2 heps⟩

/-- **C143**, the part that holds of `eval` itself: between the knots the curve is smooth (up to the
`EPSILON` above a knot in which the parameter is moved to the knot). -/
theorem C143_partial (h : BSpline.new knots ps = .ok b) (hc : FrontClamped D knots ∨ BackClamped D knots)
    {k : ℕ} (hDk : D ≤ k) (hkC : k < C) :
    ∃ f : ℝ → P, (∀ t, knotAt knots k + eps < t → t < knotAt knots (k + 1) → b.eval t = .ok (f t)) ∧
      ∀ x, knotAt knots k + eps < x → x < knotAt knots (k + 1) →
        ∀ (r : ℕ) (c : ℕ), ContDiffAt ℝ r (fun t => coord (f t) c) x := by
  obtain ⟨g, -, hg⟩ := C81_partial h hc hDk hkC
  have ex : ∀ t, ∃ q : P, knotAt knots k + eps < t → t < knotAt knots (k + 1) →
      b.eval t = .ok q ∧ ∀ c, coord q c = (g c).eval t := by
    intro t
    by_cases ht : knotAt knots k + eps < t ∧ t < knotAt knots (k + 1)
    · obtain ⟨q, hq⟩ := hg t ht.1.le ht.2
      exact ⟨q, fun _ _ => hq⟩
    · exact ⟨Point.default, fun a b => absurd ⟨a, b⟩ ht⟩
  choose f hf using ex
  refine ⟨f, fun t a b => (hf t a b).1, fun x h0 h1 r c => ?_⟩
  have hp : ContDiffAt ℝ r (fun t => (g c).eval t) x := by
    simpa using ((g c).contDiff_aeval (𝕜 := ℝ) (r : WithTop ℕ∞)).contDiffAt (x := x)
  refine hp.congr_of_eventuallyEq ?_
  filter_upwards [lt_mem_nhds h0, gt_mem_nhds h1] with t t0 t1
  exact (hf t t0 t1).2 c

/-- **C143** is false of the code: `eval` is not even continuous at an inner knot of multiplicity at
most the degree, unless the control point with the index of the span before it is the origin. -/
theorem C143_false (h : BSpline.new knots ps = .ok b) (hc : FrontClamped D knots ∨ BackClamped D knots)
    {k m : ℕ} (hm1 : 1 ≤ m) (hmD : m ≤ D) (hDk : D ≤ k) (hkC : k + m < C)
    (hk : knotAt knots k + eps < knotAt knots (k + 1))
    (heq : knotAt knots (k + 1) = knotAt knots (k + m))
    (hk' : knotAt knots (k + m) < knotAt knots (k + m + 1)) (hp : ps ⟨k, by omega⟩ ≠ Point.default)
    (f : ℝ → P) (hf : ∀ t, knotAt knots k + eps ≤ t → t ≤ knotAt knots (k + 1) → b.eval t = .ok (f t)) :
    ∃ c, ¬ ContinuousAt (fun t => coord (f t) c) (knotAt knots (k + 1)) := by
  obtain ⟨e, he, hiff⟩ := C81_joints h hc hm1 hmD hDk hkC hk heq hk'
  by_contra hcon
  simp only [not_exists, not_not] at hcon
  refine hp (hiff.1 fun c => ?_)
  have hfe : ∀ t, knotAt knots k + eps ≤ t → t ≤ knotAt knots (k + 1) → f t = e t := by
    intro t a b
    have := hf t a b
    rw [he t a b, Outcome.ok.injEq] at this
    exact this.symm
  have hT := (hcon c).tendsto.mono_left (nhdsWithin_le_nhds (s := Set.Iio (knotAt knots (k + 1))))
  rw [hfe _ hk.le le_rfl] at hT
  refine hT.congr' ?_
  filter_upwards [self_mem_nhdsWithin, mem_nhdsWithin_of_mem_nhds (lt_mem_nhds hk)] with t t1 t0
  rw [hfe t (le_of_lt t0) (le_of_lt t1)]

end Splines

/-! ### Worked cases -/

/-- A quadratic spline with a simple knot at 1 is once continuously differentiable there. -/
example (ps : Arr (PointN ℝ 2) 4) : ∃ (b : BSpline ℝ (PointN ℝ 2) 7 4 2) (f : ℝ → PointN ℝ 2),
    BSpline.new ![0, 0, 0, 1, 2, 2, 2] ps = .ok b ∧ (∀ t, 0 ≤ t → t ≤ 2 → b.evalFixed t = .ok (f t)) ∧
    ∀ c, ContDiffAt ℝ 1 (fun t => coord (f t) c) 1 := by
  obtain ⟨b, hb⟩ := (C43_accepts (D := 2) ![0, 0, 0, 1, 2, 2, 2] ps).2 ⟨by omega, rfl, by
    intro i j hij
    fin_cases i <;> fin_cases j <;> simp at hij ⊢⟩
  obtain ⟨f, hf, hs⟩ := C143_repaired hb
  refine ⟨b, f, hb, fun t t0 t1 => hf t (by simpa [knotAt] using t0) (by simpa [knotAt] using t1),
    fun c => hs 1 (by simp [knotAt]) (by simp [knotAt]) 1 (Or.inl ?_) c⟩
  have : knotMultiplicity (![0, 0, 0, 1, 2, 2, 2] : Fin 7 → ℝ) 1 = 1 := by
    unfold knotMultiplicity
    rw [Finset.card_eq_one]
    refine ⟨3, ?_⟩
    ext i
    fin_cases i <;> simp
  rw [this]

/-- The same spline with the code as it is: a jump at the knot if control point 2 is not the origin. -/
example (ps : Arr (PointN ℝ 2) 4) (hp : ps 2 ≠ Point.default) (f : ℝ → PointN ℝ 2)
    (b : BSpline ℝ (PointN ℝ 2) 7 4 2) (hb : BSpline.new ![0, 0, 0, 1, 2, 2, 2] ps = .ok b)
    (hf : ∀ t, 0 ≤ t → t ≤ 2 → b.eval t = .ok (f t)) :
    ∃ c, ¬ ContinuousAt (fun t => coord (f t) c) 1 := by
  have hc : FrontClamped 2 (![0, 0, 0, 1, 2, 2, 2] : Fin 7 → ℝ) := by
    intro i hi
    fin_cases i <;> simp_all [knotAt, eps_pos]
  have := eps_lt_one
  have := eps_pos
  have h := C143_false (k := 2) (m := 1) hb (.inl hc) le_rfl (by omega) le_rfl (by omega)
    (by simpa [knotAt] using eps_lt_one) rfl (by simp [knotAt]) hp f
    (fun t t0 t1 => by
      have e2 : knotAt (![0, 0, 0, 1, 2, 2, 2] : Fin 7 → ℝ) 2 = 0 := by simp [knotAt]
      have e3 : knotAt (![0, 0, 0, 1, 2, 2, 2] : Fin 7 → ℝ) (2 + 1) = 1 := by simp [knotAt]
      rw [e2] at t0
      rw [e3] at t1
      exact hf t (by linarith) (by linarith))
  have e3 : knotAt (![0, 0, 0, 1, 2, 2, 2] : Fin 7 → ℝ) (2 + 1) = 1 := by simp [knotAt]
  rwa [e3] at h

end Stroke
