import Verif.Props.BSplineSmooth
import Verif.Props.RepairedBSplineMore
import Verif.Props.Workarounds

set_option linter.unusedSectionVars false

/-!
# Reversing a B-spline (C156)

The B-spline with the knots `-u_{K-1}, ..., -u_0` and the control points in reverse order is accepted exactly
if the original is; its domain is the mirror image of the original domain, and its point at `-t` is the
original point at `t`, except at knots so often repeated that the curve may jump there.

`evalFixed` (Verif/Repaired/Model.lean) has the property; `eval` ignores another control point in the two
directions (`C156_partial`, `C156_false`).
-/

namespace Stroke

open Filter Topology

/-- The knots of the reversed spline. -/
noncomputable def reversedKnots {K : ℕ} (knots : Arr ℝ K) : Arr ℝ K := fun i => -knots i.rev

/-- The control points in reverse order. -/
def reversedPoints {P : Type} {C : ℕ} (ps : Arr P C) : Arr P C := fun i => ps i.rev

section Basis
variable {K C D : ℕ} {knots : Arr ℝ K} {t : ℝ}

theorem knotAt_reversed {i : ℕ} (hi : i < K) :
    knotAt (reversedKnots knots) i = -knotAt knots (K - 1 - i) := by
  rw [knotAt_lt _ hi, knotAt_lt _ (show K - 1 - i < K by omega), reversedKnots]
  congr 2
  apply Fin.ext
  simp [Fin.val_rev]
  omega

theorem reversedKnots_twice : reversedKnots (reversedKnots knots) = knots := by
  funext i
  simp [reversedKnots]

theorem valid_reversed (v : ValidSpline C D knots) : ValidSpline C D (reversedKnots knots) := by
  refine ⟨v.1, v.2.1, fun i j hij => ?_⟩
  unfold reversedKnots
  exact neg_le_neg (v.2.2 _ _ (Fin.rev_le_rev.2 hij))

theorem valid_reversed_iff : ValidSpline C D (reversedKnots knots) ↔ ValidSpline C D knots :=
  ⟨fun h => by have := valid_reversed h; rwa [reversedKnots_twice] at this, valid_reversed⟩

theorem front_reversed (hK : 1 ≤ K) : FrontClamped D (reversedKnots knots) ↔ BackClamped D knots := by
  constructor
  · intro h i hi
    have := h i.rev (by simp [Fin.val_rev]; omega)
    rw [knotAt_reversed (by omega), reversedKnots, Fin.rev_rev, Nat.sub_zero, ← abs_neg] at this
    convert this using 2
    ring
  · intro h i hi
    have := h i.rev (by simp [Fin.val_rev]; omega)
    rw [knotAt_reversed (by omega), reversedKnots, Nat.sub_zero, ← abs_neg]
    convert this using 2
    ring

theorem back_reversed (hK : 1 ≤ K) : BackClamped D (reversedKnots knots) ↔ FrontClamped D knots := by
  rw [← front_reversed hK, reversedKnots_twice]

theorem multiplicity_reversed : knotMultiplicity (reversedKnots knots) (-t) = knotMultiplicity knots t := by
  unfold knotMultiplicity
  refine Finset.card_bij (fun i _ => i.rev) ?_ ?_ ?_
  · intro i hi
    simp only [Finset.mem_filter, Finset.mem_univ, true_and, reversedKnots, neg_inj] at hi ⊢
    exact hi
  · intro i _ j _ h
    exact Fin.rev_injective h
  · intro i hi
    refine ⟨i.rev, ?_, Fin.rev_rev i⟩
    simp only [Finset.mem_filter, Finset.mem_univ, true_and, reversedKnots, neg_inj, Fin.rev_rev] at hi ⊢
    exact hi

/-- Away from the knots the basis functions are mirror images. -/
theorem coxDeBoor_reversed (ht : ∀ i, i < K → knotAt knots i ≠ t) : ∀ d i, i + d + 1 < K →
    coxDeBoor (knotAt (reversedKnots knots)) d i (-t) = coxDeBoor (knotAt knots) d (K - d - 2 - i) t := by
  intro d
  induction d with
  | zero =>
    intro i hi
    simp only [coxDeBoor]
    rw [knotAt_reversed (by omega), knotAt_reversed (by omega), show K - 1 - (i + 1) = K - 0 - 2 - i by omega,
      show K - 0 - 2 - i + 1 = K - 1 - i by omega]
    have h1 := ht (K - 0 - 2 - i) (by omega)
    have h2 := ht (K - 1 - i) (by omega)
    by_cases h : knotAt knots (K - 0 - 2 - i) ≤ t ∧ t < knotAt knots (K - 1 - i)
    · rw [if_pos h, if_pos ⟨by linarith [h.2], by linarith [lt_of_le_of_ne h.1 h1]⟩]
    · rw [if_neg h, if_neg]
      rintro ⟨a, b⟩
      exact h ⟨by linarith, lt_of_le_of_ne (by linarith) h2.symm⟩
  | succ d ih =>
    intro i hi
    simp only [coxDeBoor]
    rw [ih i (by omega), ih (i + 1) (by omega), knotAt_reversed (show i + d + 1 < K by omega),
      knotAt_reversed (show i < K by omega), knotAt_reversed (show i + d + 2 < K by omega),
      knotAt_reversed (show i + 1 < K by omega), show K - d - 2 - (i + 1) = K - (d + 1) - 2 - i by omega,
      show K - (d + 1) - 2 - i + 1 = K - d - 2 - i by omega,
      show K - (d + 1) - 2 - i + d + 2 = K - 1 - i by omega,
      show K - (d + 1) - 2 - i + d + 1 = K - 1 - (i + 1) by omega,
      show K - 1 - (i + d + 1) = K - d - 2 - i by omega,
      show K - 1 - (i + d + 2) = K - (d + 1) - 2 - i by omega, add_comm]
    congr 1
    · by_cases h : knotAt knots (K - 1 - (i + 1)) = knotAt knots (K - (d + 1) - 2 - i)
      · rw [if_pos h, if_pos (by rw [h])]
      · rw [if_neg h, if_neg fun e => h (neg_injective e).symm]
        congr 1
        rw [show -knotAt knots (K - (d + 1) - 2 - i) - -t = t - knotAt knots (K - (d + 1) - 2 - i) by ring,
          show -knotAt knots (K - (d + 1) - 2 - i) - -knotAt knots (K - 1 - (i + 1))
            = knotAt knots (K - 1 - (i + 1)) - knotAt knots (K - (d + 1) - 2 - i) by ring]
    · by_cases h : knotAt knots (K - 1 - i) = knotAt knots (K - d - 2 - i)
      · rw [if_pos h, if_pos (by rw [h])]
      · rw [if_neg h, if_neg fun e => h (neg_injective e).symm]
        congr 1
        rw [show -t - -knotAt knots (K - 1 - i) = knotAt knots (K - 1 - i) - t by ring,
          show -knotAt knots (K - d - 2 - i) - -knotAt knots (K - 1 - i)
            = knotAt knots (K - 1 - i) - knotAt knots (K - d - 2 - i) by ring]

end Basis

section Reverse
variable {P : Type} [Point ℝ P] [LawfulPoint P] {K C D k : ℕ} {t : ℝ}
variable {knots : Arr ℝ K} {ps : Arr P C} {b b' : BSpline ℝ P K C D}

theorem splineCoord_reversed (v : ValidSpline C D knots) (ht : ∀ i, i < K → knotAt knots i ≠ t) (c : ℕ) :
    splineCoord D (reversedKnots knots) (reversedPoints ps) (-t) c = splineCoord D knots ps t c := by
  obtain ⟨v1, v2, v3⟩ := v
  unfold splineCoord
  rw [← Equiv.sum_comp Fin.revPerm]
  refine Finset.sum_congr rfl fun i _ => ?_
  rw [coxDeBoor_reversed ht D _ (by simp only [Fin.revPerm_apply, Fin.val_rev]; omega)]
  unfold reversedPoints
  rw [Fin.revPerm_apply, Fin.rev_rev]
  congr 2
  simp only [Fin.val_rev]
  omega

/-- The same at knots at which the curve is continuous. -/
theorem splineCoord_reversed_knot (v : ValidSpline C D knots) (h1 : knotAt knots D < t)
    (h2 : t < knotAt knots C) (hmult : knotMultiplicity knots t ≤ D) (c : ℕ) :
    splineCoord D (reversedKnots knots) (reversedPoints ps) (-t) c = splineCoord D knots ps t c := by
  have v1 := v.1
  have v2 := v.2.1
  have f := (splineCoord_contDiffAt v ps h1 h2 (r := 0) (by omega) c).continuousAt
  have g := (splineCoord_contDiffAt (valid_reversed v) (reversedPoints ps) (x := -t)
    (by rw [knotAt_reversed (by omega), show K - 1 - D = C by omega]; linarith)
    (by rw [knotAt_reversed (by omega), show K - 1 - C = D by omega]; linarith) (r := 0)
    (by rw [multiplicity_reversed]; omega) c).continuousAt
  have g' : ContinuousAt (fun s => splineCoord D (reversedKnots knots) (reversedPoints ps) (-s) c) t :=
    ContinuousAt.comp (f := fun s : ℝ => -s) g continuous_neg.continuousAt
  have ev : ∀ᶠ s in 𝓝[≠] t, splineCoord D (reversedKnots knots) (reversedPoints ps) (-s) c
      = splineCoord D knots ps s c := by
    have fin : (Set.range (fun i : Fin K => knotAt knots i.val) \ {t}).Finite := (Set.finite_range _).sdiff
    have near : ∀ᶠ s in 𝓝 t, s ∉ Set.range (fun i : Fin K => knotAt knots i.val) \ {t} :=
      fin.isClosed.isOpen_compl.mem_nhds (by simp)
    filter_upwards [near.filter_mono nhdsWithin_le_nhds, self_mem_nhdsWithin] with s hs hst
    refine splineCoord_reversed v (fun i hi e => hs ⟨⟨⟨i, hi⟩, e⟩, hst⟩) c
  exact tendsto_nhds_unique (g'.tendsto.mono_left nhdsWithin_le_nhds)
    ((f.tendsto.mono_left nhdsWithin_le_nhds).congr' (ev.mono fun s h => h.symm))

/-- **C156**: the reversed spline is accepted exactly if the spline is. -/
theorem C156_accepts (knots : Arr ℝ K) (ps : Arr P C) :
    (∃ b : BSpline ℝ P K C D, BSpline.new (reversedKnots knots) (reversedPoints ps) = .ok b) ↔
      ∃ b : BSpline ℝ P K C D, BSpline.new knots ps = .ok b := by
  rw [C43_accepts, C43_accepts, valid_reversed_iff]

/-- **C156**: the knot domain of the reversed spline is the mirror image. -/
theorem C156_domain (h : BSpline.new knots ps = .ok b)
    (h' : BSpline.new (reversedKnots knots) (reversedPoints ps) = .ok b') :
    ∃ lo hi, b.knotDomain = some (lo, hi) ∧ b'.knotDomain = some (-hi, -lo) := by
  obtain ⟨v1, v2, v3⟩ := ((new_ok_iff _ _ _).1 h).1
  refine ⟨_, _, knotDomain_eq h, ?_⟩
  rw [knotDomain_eq h', front_reversed (by omega), back_reversed (by omega),
    knotAt_reversed (show 0 < K by omega), knotAt_reversed (show D < K by omega),
    knotAt_reversed (show K - 1 < K by omega), knotAt_reversed (show C < K by omega),
    show K - 1 - (K - 1) = 0 by omega, Nat.sub_zero, show K - 1 - D = C by omega, show K - 1 - C = D by omega]
  by_cases f : FrontClamped D knots <;> by_cases g : BackClamped D knots <;> simp [f, g]

/-- **C156** for the repaired program: the point at `-t` of the reversed spline is the point at `t`. -/
theorem C156_repaired (h : BSpline.new knots ps = .ok b)
    (h' : BSpline.new (reversedKnots knots) (reversedPoints ps) = .ok b') (h1 : knotAt knots D < t)
    (h2 : t < knotAt knots C) (hmult : knotMultiplicity knots t ≤ D) : b'.evalFixed (-t) = b.evalFixed t := by
  have v := ((new_ok_iff _ _ _).1 h).1
  have v1 := v.1
  have v2 := v.2.1
  obtain ⟨q, hq, e⟩ := C121_bspline h h1.le h2
  obtain ⟨q', hq', e'⟩ := C121_bspline h'
    (t := -t) (by rw [knotAt_reversed (by omega), show K - 1 - D = C by omega]; linarith)
    (by rw [knotAt_reversed (by omega), show K - 1 - C = D by omega]; linarith)
  rw [hq, hq']
  congr 1
  apply point_ext
  intro c
  rw [e, e', splineCoord_reversed_knot v h1 h2 hmult]

/-- **C156** for the repaired program: if the first and the last `D + 1` knots coincide, the same holds at the
ends. -/
theorem C156_repaired_ends (h : BSpline.new knots ps = .ok b)
    (h' : BSpline.new (reversedKnots knots) (reversedPoints ps) = .ok b')
    (f1 : knotAt knots 0 = knotAt knots D) (f2 : knotAt knots D < knotAt knots (D + 1))
    (l1 : knotAt knots C = knotAt knots (K - 1)) (l2 : knotAt knots (C - 1) < knotAt knots C) :
    b'.evalFixed (-knotAt knots D) = b.evalFixed (knotAt knots D) ∧
    b'.evalFixed (-knotAt knots C) = b.evalFixed (knotAt knots C) := by
  have v := ((new_ok_iff _ _ _).1 h).1
  have v1 := v.1
  have v2 := v.2.1
  have eD : knotAt (reversedKnots knots) D = -knotAt knots C := by
    rw [knotAt_reversed (by omega), show K - 1 - D = C by omega]
  have eC : knotAt (reversedKnots knots) C = -knotAt knots D := by
    rw [knotAt_reversed (by omega), show K - 1 - C = D by omega]
  constructor
  · rw [C121_bspline_start h f1 f2, ← eC, C121_bspline_end h', reversedPoints]
    congr 2
    apply Fin.ext
    simp only [Fin.val_rev]
    omega
  · rw [C121_bspline_end h, ← eD, C121_bspline_start h'
      (by rw [eD, knotAt_reversed (by omega), Nat.sub_zero, l1])
      (by rw [eD, knotAt_reversed (by omega), show K - 1 - (D + 1) = C - 1 by omega]; linarith), reversedPoints]
    congr 2

/-- **C156** for the repaired program: both directions have the same length. -/
theorem C156_repaired_arclen (h : BSpline.new knots ps = .ok b)
    (h' : BSpline.new (reversedKnots knots) (reversedPoints ps) = .ok b')
    (f1 : knotAt knots 0 = knotAt knots D) (f2 : knotAt knots D < knotAt knots (D + 1))
    (l1 : knotAt knots C = knotAt knots (K - 1)) (l2 : knotAt knots (C - 1) < knotAt knots C)
    (hmult : ∀ x, knotAt knots D < x → x < knotAt knots C → knotMultiplicity knots x ≤ D) (n : ℕ) :
    b'.arclenFixed n = b.arclenFixed n := by
  have v := ((new_ok_iff _ _ _).1 h).1
  have v1 := v.1
  have v2 := v.2.1
  have hDC : knotAt knots D ≤ knotAt knots C := mono_knotAt v.2.2 v1.le (by omega)
  obtain ⟨f, hf, af⟩ := C121_bspline_arclen h
  obtain ⟨g, hg, ag⟩ := C121_bspline_arclen h'
  have eD : knotAt (reversedKnots knots) D = -knotAt knots C := by
    rw [knotAt_reversed (by omega), show K - 1 - D = C by omega]
  have eC : knotAt (reversedKnots knots) C = -knotAt knots D := by
    rw [knotAt_reversed (by omega), show K - 1 - C = D by omega]
  have same : ∀ t, knotAt knots D ≤ t → t ≤ knotAt knots C → g (-t) = f t := by
    intro t t1 t2
    have a := hf t t1 t2
    have a' := hg (-t) (by rw [eD]; linarith) (by rw [eC]; linarith)
    have e : b'.evalFixed (-t) = b.evalFixed t := by
      obtain ⟨e1, e2⟩ := C156_repaired_ends h h' f1 f2 l1 l2
      rcases eq_or_lt_of_le t1 with rfl | t1
      · exact e1
      rcases eq_or_lt_of_le t2 with rfl | t2
      · exact e2
      exact C156_repaired h h' t1 t2 (hmult t t1 t2)
    rw [a, a'] at e
    exact Outcome.ok.inj e
  rw [af n, ag n, eD, eC]
  congr 1
  unfold polylineLength
  rcases Nat.eq_zero_or_pos n with rfl | hn
  · simp
  have n0 : (n : ℝ) ≠ 0 := by positivity
  rw [← Finset.range_eq_Ico, ← Finset.sum_range_reflect]
  refine Finset.sum_congr rfl fun i hi => ?_
  have hin := Finset.mem_range.1 hi
  have at' : ∀ j ≤ n, g (-knotAt knots C + ((n - j : ℕ) : ℝ) / n * (-knotAt knots D - -knotAt knots C))
      = f (knotAt knots D + (j : ℝ) / n * (knotAt knots C - knotAt knots D)) := by
    intro j hj
    have j0 : 0 ≤ (j : ℝ) / n := by positivity
    have j1 : (j : ℝ) / n ≤ 1 := by rw [div_le_one (by positivity)]; exact_mod_cast hj
    rw [← same _ (by nlinarith) (by nlinarith)]
    congr 1
    rw [Nat.cast_sub hj]
    field_simp
    ring
  have e1 := at' (i + 1) hin
  have e2 := at' i hin.le
  rw [show n - (i + 1) = n - 1 - i by omega] at e1
  rw [show n - i = n - 1 - i + 1 by omega] at e2
  beta_reduce
  rw [e1, e2, pdist_comm]

/-- The span of the reversed spline that corresponds to span `k`. -/
theorem reversed_span (v : ValidSpline C D knots) (hDk : D ≤ k) (hkC : k < C) (k1 : knotAt knots k < t)
    (k2 : t < knotAt knots (k + 1)) :
    D ≤ K - 2 - k ∧ K - 2 - k < C ∧ knotAt (reversedKnots knots) (K - 2 - k) ≤ -t ∧
      -t < knotAt (reversedKnots knots) (K - 2 - k + 1) ∧ ∀ i, i < K → knotAt knots i ≠ t := by
  obtain ⟨v1, v2, v3⟩ := v
  refine ⟨by omega, by omega, ?_, ?_, fun i hi e => ?_⟩
  · rw [knotAt_reversed (by omega), show K - 1 - (K - 2 - k) = k + 1 by omega]
    linarith
  · rw [knotAt_reversed (by omega), show K - 1 - (K - 2 - k + 1) = k by omega]
    linarith
  · rcases Nat.lt_or_ge k i with h | h
    · linarith [mono_knotAt v3 (show k + 1 ≤ i from h) hi]
    · linarith [mono_knotAt v3 h (by omega)]

/-- **C156**, what holds of `eval` itself: the two directions leave out different control points, the last one
and the first one of the span. -/
theorem C156_partial (h : BSpline.new knots ps = .ok b)
    (h' : BSpline.new (reversedKnots knots) (reversedPoints ps) = .ok b')
    (hc : FrontClamped D knots ∨ BackClamped D knots) (hDk : D ≤ k) (hkC : k < C) (k1 : knotAt knots k < t)
    (k2 : t < knotAt knots (k + 1)) (heps : ∀ i : Fin K, knots i ≠ t → eps ≤ |t - knots i|) :
    ∃ q q', b.eval t = .ok q ∧ b'.eval (-t) = .ok q' ∧
      q' + ps ⟨k - D, by omega⟩ * coxDeBoor (knotAt knots) D (k - D) t
        = q + ps ⟨k, hkC⟩ * coxDeBoor (knotAt knots) D k t := by
  have v := ((new_ok_iff _ _ _).1 h).1
  have v1 := v.1
  have v2 := v.2.1
  obtain ⟨r1, r2, r3, r4, r5⟩ := reversed_span v hDk hkC k1 k2
  obtain ⟨q, hq, e⟩ := C48_partial h hc hDk hkC k1.le k2 (fun i hi => by
    have := heps i hi.ne
    rwa [abs_of_pos (by linarith)] at this)
  obtain ⟨q', hq', e'⟩ := C48_partial h' (by rw [front_reversed (by omega), back_reversed (by omega)]; exact hc.symm)
    r1 r2 r3 r4 (fun i hi => by
      unfold reversedKnots at hi ⊢
      have := heps i.rev (by intro e; rw [e] at hi; exact lt_irrefl _ hi)
      rw [abs_of_neg (by linarith)] at this
      linarith)
  refine ⟨q, q', hq, hq', ?_⟩
  apply point_ext
  intro c
  have idx : reversedPoints ps ⟨K - 2 - k, r2⟩ = ps ⟨k - D, by omega⟩ := by
    unfold reversedPoints
    congr 1
    apply Fin.ext
    simp only [Fin.val_rev]
    omega
  rw [coord_add, coord_add, coord_mul, coord_mul, e, e', splineCoord_reversed v r5, idx,
    coxDeBoor_reversed r5 D _ (by omega), show K - D - 2 - (K - 2 - k) = k - D by omega]
  ring

/-- **C156** with the calls of this version: the points of the detour of C136. -/
theorem C156_detour (v : ValidSpline C D knots) (ps : Arr P C)
    (hc : FrontClamped D knots ∨ BackClamped D knots) (hDk : D ≤ k) (hkC : k < C) (k1 : knotAt knots k < t)
    (k2 : t < knotAt knots (k + 1)) (heps : ∀ i : Fin K, knots i ≠ t → eps ≤ |t - knots i|) :
    ∃ (b b' : BSpline ℝ P K C D) (q q' : P),
      BSpline.new knots (fun i => ps i - ps ⟨k, hkC⟩) = .ok b ∧ b.eval t = .ok q ∧
      BSpline.new (reversedKnots knots) (fun i => reversedPoints ps i - ps ⟨k - D, by omega⟩) = .ok b' ∧
      b'.eval (-t) = .ok q' ∧ q' + ps ⟨k - D, by omega⟩ = q + ps ⟨k, hkC⟩ := by
  have v1 := v.1
  have v2 := v.2.1
  obtain ⟨r1, r2, r3, r4, r5⟩ := reversed_span v hDk hkC k1 k2
  obtain ⟨b, q, hb, hq, e⟩ := C136_bspline v hc ps hDk hkC k1.le k2 (fun i hi => by
    have := heps i hi.ne
    rwa [abs_of_pos (by linarith)] at this)
  obtain ⟨b', q', hb', hq', e'⟩ := C136_bspline (valid_reversed v)
    (by rw [front_reversed (by omega), back_reversed (by omega)]; exact hc.symm) (reversedPoints ps)
    r1 r2 r3 r4 (fun i hi => by
      unfold reversedKnots at hi ⊢
      have := heps i.rev (by intro e; rw [e] at hi; exact lt_irrefl _ hi)
      rw [abs_of_neg (by linarith)] at this
      linarith)
  have idx : reversedPoints ps ⟨K - 2 - k, r2⟩ = ps ⟨k - D, by omega⟩ := by
    unfold reversedPoints
    congr 1
    apply Fin.ext
    simp only [Fin.val_rev]
    omega
  rw [idx] at hb' e'
  refine ⟨b, b', q, q', hb, hq, hb', hq', ?_⟩
  apply point_ext
  intro c
  rw [e, e', splineCoord_reversed v r5]

/-- **C156** is false of `eval`: for example wherever the first control point of the span is the origin and
the last one is not. -/
theorem C156_false (h : BSpline.new knots ps = .ok b)
    (h' : BSpline.new (reversedKnots knots) (reversedPoints ps) = .ok b')
    (hc : FrontClamped D knots ∨ BackClamped D knots) (hDk : D ≤ k) (hkC : k < C) (k1 : knotAt knots k < t)
    (k2 : t < knotAt knots (k + 1)) (heps : ∀ i : Fin K, knots i ≠ t → eps ≤ |t - knots i|)
    (p0 : ps ⟨k - D, by omega⟩ = Point.default) (p1 : ps ⟨k, hkC⟩ ≠ Point.default) :
    ∃ q q', b.eval t = .ok q ∧ b'.eval (-t) = .ok q' ∧ q ≠ q' := by
  obtain ⟨v1, v2, v3⟩ := ((new_ok_iff _ _ _).1 h).1
  have hm := fun i j (hij : i ≤ j) (hj : j < K) => mono_knotAt v3 hij hj
  obtain ⟨q, q', hq, hq', e⟩ := C156_partial h h' hc hDk hkC k1 k2 heps
  refine ⟨q, q', hq, hq', fun hqq => p1 ?_⟩
  have pos := coxDeBoor_pos hm D k t (by omega) k1 (k2.trans_le (hm _ _ (by omega) (by omega)))
  subst hqq
  apply point_ext
  intro c
  have := congrArg (fun z => coord z c) e
  simp only [coord_add, coord_mul, p0, coord_default] at this
  rw [coord_default]
  have z : coord (ps ⟨k, hkC⟩) c * coxDeBoor (knotAt knots) D k t = 0 := by linarith
  exact (mul_eq_zero.1 z).resolve_right pos.ne'

/-- Hypotheses of the theorems about `eval`: knots 0 0 0 1 2 2 2 at the parameter 3/2, in span 3. -/
example : ValidSpline 4 2 (![0, 0, 0, 1, 2, 2, 2] : Arr ℝ 7) ∧ FrontClamped 2 (![0, 0, 0, 1, 2, 2, 2] : Arr ℝ 7) ∧
    (knotAt (![0, 0, 0, 1, 2, 2, 2] : Arr ℝ 7) 3 < 3 / 2 ∧
      3 / 2 < knotAt (![0, 0, 0, 1, 2, 2, 2] : Arr ℝ 7) 4) ∧
    ∀ i, (![0, 0, 0, 1, 2, 2, 2] : Arr ℝ 7) i ≠ 3 / 2 →
      eps ≤ |3 / 2 - (![0, 0, 0, 1, 2, 2, 2] : Arr ℝ 7) i| := by
  refine ⟨⟨by norm_num, by norm_num, ?_⟩, ?_, ?_, ?_⟩
  · intro i j hij
    fin_cases i <;> fin_cases j <;> simp_all [Fin.le_def]
  · intro i hi
    fin_cases i <;> simp_all [knotAt, eps_pos]
  · norm_num [knotAt]
  · intro i _
    unfold eps
    fin_cases i <;> norm_num

/-- Hypotheses of the theorems about the repaired program: the same knots, at every parameter. -/
example : knotAt (![0, 0, 0, 1, 2, 2, 2] : Arr ℝ 7) 0 = knotAt (![0, 0, 0, 1, 2, 2, 2] : Arr ℝ 7) 2 ∧
    knotAt (![0, 0, 0, 1, 2, 2, 2] : Arr ℝ 7) 2 < knotAt (![0, 0, 0, 1, 2, 2, 2] : Arr ℝ 7) 3 ∧
    knotAt (![0, 0, 0, 1, 2, 2, 2] : Arr ℝ 7) 4 = knotAt (![0, 0, 0, 1, 2, 2, 2] : Arr ℝ 7) 6 ∧
    knotAt (![0, 0, 0, 1, 2, 2, 2] : Arr ℝ 7) 3 < knotAt (![0, 0, 0, 1, 2, 2, 2] : Arr ℝ 7) 4 ∧
    ∀ x : ℝ, 0 < x → x < 2 → knotMultiplicity (![0, 0, 0, 1, 2, 2, 2] : Arr ℝ 7) x ≤ 2 := by
  refine ⟨by norm_num [knotAt], by norm_num [knotAt], by norm_num [knotAt], by norm_num [knotAt], fun x h1 h2 => ?_⟩
  unfold knotMultiplicity
  refine (Finset.card_le_card (t := {3}) fun i hi => ?_).trans (by simp)
  have := (Finset.mem_filter.1 hi).2
  fin_cases i <;> first | exact Finset.mem_singleton_self _ | (exfalso; norm_num at this; linarith)

end Reverse
end Stroke
