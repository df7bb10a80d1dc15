import Verif.Props.BSplinePieces
import Verif.Lemmas.CoxDeBoorContinuity

set_option linter.unusedSectionVars false

/-!
# B-splines next to the knots (C48 near the knots, C81 at the joints)
-/

namespace Stroke

open Filter Topology

variable {P : Type} [Point ℝ P] [LawfulPoint P] {K C D : ℕ}

/-! ### Parameters within the machine epsilon above a knot -/

theorem dbr_between {a : ℕ → ℕ → ℝ} {x : ℕ → ℝ} {n : ℕ} {lo hi : ℝ}
    (ha : ∀ r j, 1 ≤ r → r ≤ j → j < n → 0 ≤ a r j ∧ a r j ≤ 1)
    (hx : ∀ j < n, lo ≤ x j ∧ x j ≤ hi) (r j : ℕ) (hj : j < n) :
    lo ≤ dbr a x r j ∧ dbr a x r j ≤ hi := by
  induction r generalizing j with
  | zero => exact hx j hj
  | succ r ih =>
    simp only [dbr]
    split_ifs with h
    · obtain ⟨a0, a1⟩ := ha (r + 1) j (by omega) h hj
      obtain ⟨l1, u1⟩ := ih (j - 1) (by omega)
      obtain ⟨l2, u2⟩ := ih j hj
      constructor <;> nlinarith
    · exact ih j hj

/-- How far the triangle moves when its factors move by at most `δ`. -/
theorem dbr_perturb {a a' : ℕ → ℕ → ℝ} {x : ℕ → ℝ} {n : ℕ} {lo hi δ : ℝ} (hδ : 0 ≤ δ)
    (ha : ∀ r j, 1 ≤ r → r ≤ j → j < n → 0 ≤ a r j ∧ a r j ≤ 1)
    (ha' : ∀ r j, 1 ≤ r → r ≤ j → j < n → 0 ≤ a' r j ∧ a' r j ≤ 1)
    (hd : ∀ r j, 1 ≤ r → r ≤ j → j < n → |a r j - a' r j| ≤ δ)
    (hx : ∀ j < n, lo ≤ x j ∧ x j ≤ hi) (r j : ℕ) (hj : j < n) :
    |dbr a x r j - dbr a' x r j| ≤ r * (δ * (hi - lo)) := by
  have hW : 0 ≤ hi - lo := by linarith [(hx j hj).1, (hx j hj).2]
  induction r generalizing j with
  | zero => simp [dbr]
  | succ r ih =>
    simp only [dbr]
    split_ifs with h
    · obtain ⟨a0, a1⟩ := ha (r + 1) j (by omega) h hj
      have d0 := hd (r + 1) j (by omega) h hj
      have e1 := ih (j - 1) (by omega)
      have e2 := ih j hj
      have b1 := dbr_between ha' hx r (j - 1) (by omega)
      have b2 := dbr_between ha' hx r j hj
      set A0 := dbr a x r (j - 1)
      set A1 := dbr a x r j
      set B0 := dbr a' x r (j - 1)
      set B1 := dbr a' x r j
      have hB : |B1 - B0| ≤ hi - lo := abs_sub_le_iff.2 ⟨by linarith, by linarith⟩
      have key : A0 * (1 - a (r + 1) j) + A1 * a (r + 1) j
          - (B0 * (1 - a' (r + 1) j) + B1 * a' (r + 1) j)
          = (A0 - B0) * (1 - a (r + 1) j) + (A1 - B1) * a (r + 1) j
            + (a (r + 1) j - a' (r + 1) j) * (B1 - B0) := by ring
      rw [key]
      have t1 : |(A0 - B0) * (1 - a (r + 1) j)| ≤ r * (δ * (hi - lo)) * (1 - a (r + 1) j) := by
        rw [abs_mul, abs_of_nonneg (show 0 ≤ 1 - a (r + 1) j by linarith)]
        exact mul_le_mul_of_nonneg_right e1 (by linarith)
      have t2 : |(A1 - B1) * a (r + 1) j| ≤ r * (δ * (hi - lo)) * a (r + 1) j := by
        rw [abs_mul, abs_of_nonneg a0]
        exact mul_le_mul_of_nonneg_right e2 a0
      have t3 : |(a (r + 1) j - a' (r + 1) j) * (B1 - B0)| ≤ δ * (hi - lo) := by
        rw [abs_mul]
        exact mul_le_mul d0 hB (abs_nonneg _) hδ
      push_cast
      refine (abs_add_three _ _ _).trans ?_
      linarith
    · refine (ih j hj).trans ?_
      push_cast
      nlinarith [mul_nonneg hδ hW]

/-- **C48** for every parameter of a non-empty span: close above a knot the code replaces
interpolation factors by 0, which moves every coordinate by at most `2 D M ε / (length of the
span)`, where `M` bounds the coordinates of the control points of the span and `ε` is the machine
epsilon. -/
theorem C48_near_knots {knots : Arr ℝ K} {ps : Arr P C} {b : BSpline ℝ P K C D}
    (h : BSpline.new knots ps = .ok b) (hc : FrontClamped D knots ∨ BackClamped D knots) {t : ℝ}
    {k : ℕ} (hDk : D ≤ k) (hkC : k < C) (h1 : knotAt knots k ≤ t) (h2 : t < knotAt knots (k + 1)) :
    ∃ q, b.eval t = .ok q ∧ ∀ c M, (∀ i : Fin C, k ≤ i.val + D → i.val < k → |coord (ps i) c| ≤ M) →
      0 ≤ M →
      |coord q c - (splineCoord D knots ps t c
          - coxDeBoor (knotAt knots) D k t * coord (ps ⟨k, hkC⟩) c)|
        ≤ 2 * D * M * (eps / (knotAt knots (k + 1) - knotAt knots k)) := by
  have v := ((new_ok_iff _ _ _).1 h).1
  obtain ⟨v1, v2, v3⟩ := id v
  refine ⟨_, eval_in_span h hc hDk hkC h1 h2, fun c M hM hM0 => ?_⟩
  have hg : 0 < knotAt knots (k + 1) - knotAt knots k := by linarith
  set x : ℕ → ℝ := fun j => if j < D then coord (extend ps (j + k - D)) c else 0 with hx
  have hexact : splineCoord D knots ps t c
        - coxDeBoor (knotAt knots) D k t * coord (ps ⟨k, hkC⟩) c
      = dbr (fun r j => (t - knotAt knots (j + k - D))
          / (knotAt knots (j + k - D + D + 1 - r) - knotAt knots (j + k - D))) x D D := by
    rw [deBoor_correct (fun i j hij hj => mono_knotAt v3 hij hj) hDk (by omega) h1 h2,
      Finset.sum_range_succ, hx]
    simp only [lt_irrefl, if_false, zero_mul, add_zero]
    rw [splineCoord]
    have e1 : ∑ i : Fin C, coxDeBoor (knotAt knots) D i.val t * coord (ps i) c
        = ∑ i ∈ Finset.range C, coxDeBoor (knotAt knots) D i t * coord (extend ps i) c := by
      rw [← Fin.sum_univ_eq_sum_range
        (fun i => coxDeBoor (knotAt knots) D i t * coord (extend ps i) c)]
      exact Finset.sum_congr rfl fun i _ => by rw [extend_lt ps i.2]
    rw [e1, coxDeBoor_sum_span (fun i j hij hj => mono_knotAt v3 hij hj) hDk hkC v2 h1 h2
      (fun i => coord (extend ps i) c), Finset.sum_range_succ, show k - D + D = k by omega,
      extend_lt ps hkC, mul_comm (coord _ c), add_sub_cancel_right]
    apply Finset.sum_congr rfl
    intro m hm
    rw [if_pos (Finset.mem_range.1 hm), show m + k - D = k - D + m by omega]
  rw [hexact, coord_deBoorValue]
  have hfac : ∀ r j, 1 ≤ r → r ≤ j → j < D + 1 →
      knotAt knots (j + k - D) ≤ knotAt knots k ∧
      knotAt knots (k + 1) ≤ knotAt knots (j + k - D + D + 1 - r) := by
    intro r j hr1 hr hj
    exact ⟨mono_knotAt v3 (by omega) (by omega), mono_knotAt v3 (by omega) (by omega)⟩
  have hbound := dbr_perturb (n := D + 1) (lo := -M) (hi := M) (x := x)
    (a := fun r j => alphaVal (knotAt knots) D t r (j + k - D))
    (a' := fun r j => (t - knotAt knots (j + k - D))
          / (knotAt knots (j + k - D + D + 1 - r) - knotAt knots (j + k - D)))
    (δ := eps / (knotAt knots (k + 1) - knotAt knots k)) (by have := eps_pos; positivity)
    ?_ ?_ ?_ ?_ D D (Nat.lt_succ_self D)
  · refine hbound.trans (le_of_eq ?_)
    ring
  · intro r j hr1 hr hj
    obtain ⟨f1, f2⟩ := hfac r j hr1 hr hj
    unfold alphaVal
    split_ifs
    · norm_num
    · norm_num
    · exact ⟨div_nonneg (by linarith) (by linarith), (div_le_one (by linarith)).2 (by linarith)⟩
  · intro r j hr1 hr hj
    obtain ⟨f1, f2⟩ := hfac r j hr1 hr hj
    exact ⟨div_nonneg (by linarith) (by linarith), (div_le_one (by linarith)).2 (by linarith)⟩
  · intro r j hr1 hr hj
    obtain ⟨f1, f2⟩ := hfac r j hr1 hr hj
    have hden : 0 < knotAt knots (j + k - D + D + 1 - r) - knotAt knots (j + k - D) := by linarith
    unfold alphaVal
    split_ifs with c1 c2
    · rw [zero_sub, abs_neg, abs_of_nonneg (div_nonneg (by linarith) hden.le)]
      exact div_le_div₀ eps_pos.le c1.le hg (by linarith)
    · rw [abs_of_pos hden] at c2
      linarith
    · rw [sub_self, abs_zero]
      have := eps_pos
      positivity
  · intro j hj
    rw [hx]
    beta_reduce
    split_ifs with hjD
    · have := hM ⟨j + k - D, by omega⟩ (by simp only; omega) (by simp only; omega)
      rw [extend_lt ps (show j + k - D < C by omega)]
      exact abs_le.1 this
    · constructor <;> linarith

/-! ### The joints -/

section Continuity
variable {u : ℕ → ℝ} {m : ℕ}

theorem coxDeBoor_full (p : ℕ) : ∀ i (t : ℝ), (∀ j ≤ p, u (i + j) = t) → t < u (i + p + 1) →
    coxDeBoor u p i t = 1 := by
  induction p with
  | zero =>
    intro i t h1 h2
    simp only [coxDeBoor]
    rw [if_pos ⟨(h1 0 le_rfl).le, h2⟩]
  | succ p ih =>
    intro i t h1 h2
    simp only [coxDeBoor]
    have e0 : u i = t := h1 0 (by omega)
    have e1 : u (i + 1) = t := h1 1 (by omega)
    have e2 : u (i + p + 1) = t := h1 (p + 1) le_rfl
    have h2' : t < u (i + p + 2) := h2
    rw [if_pos (by rw [e0, e2]), e1, if_neg h2'.ne', div_self (by linarith),
      ih (i + 1) t (fun j hj => by rw [show i + 1 + j = i + (j + 1) by omega]; exact h1 _ (by omega))
        (by rw [show i + 1 + p + 1 = i + p + 2 by omega]; exact h2')]
    ring

/-- Basis functions are positive inside their support. -/
theorem coxDeBoor_pos (hm : ∀ i j, i ≤ j → j < K → u i ≤ u j) (p : ℕ) : ∀ i (t : ℝ),
    i + p + 1 < K → u i < t → t < u (i + p + 1) → 0 < coxDeBoor u p i t := by
  induction p with
  | zero =>
    intro i t _ h1 h2
    simp only [coxDeBoor]
    rw [if_pos ⟨h1.le, h2⟩]; exact one_pos
  | succ p ih =>
    intro i t hi h1 h2
    have n1 := coxDeBoor_nonneg (t := t) hm p i (by omega)
    have n2 := coxDeBoor_nonneg (t := t) hm p (i + 1) (by omega)
    have h2' : t < u (i + p + 2) := h2
    have m1 : u i ≤ u (i + p + 1) := hm _ _ (by omega) (by omega)
    have m2 : u (i + 1) ≤ u (i + p + 2) := hm _ _ (by omega) (by omega)
    have w1 : 0 ≤ (if u (i + p + 1) = u i then 0
        else (t - u i) / (u (i + p + 1) - u i) * coxDeBoor u p i t) := by
      split_ifs
      · exact le_rfl
      · exact mul_nonneg (div_nonneg (by linarith) (by linarith)) n1
    have w2 : 0 ≤ (if u (i + p + 2) = u (i + 1) then 0
        else (u (i + p + 2) - t) / (u (i + p + 2) - u (i + 1)) * coxDeBoor u p (i + 1) t) := by
      split_ifs
      · exact le_rfl
      · exact mul_nonneg (div_nonneg (by linarith) (by linarith)) n2
    simp only [coxDeBoor]
    rcases lt_or_ge t (u (i + p + 1)) with c | c
    · refine add_pos_of_pos_of_nonneg ?_ w2
      rw [if_neg (by linarith)]
      exact mul_pos (div_pos (by linarith) (by linarith)) (ih i t (by omega) h1 c)
    · refine add_pos_of_nonneg_of_pos w1 ?_
      have m3 : u (i + 1) ≤ u (i + p + 1) := hm _ _ (by omega) (by omega)
      rw [if_neg (by linarith)]
      refine mul_pos (div_pos (by linarith) (by linarith)) ?_
      rcases lt_or_ge (u (i + 1)) t with c' | c'
      · exact ih (i + 1) t (by omega) c' (by rwa [show i + 1 + p + 1 = i + p + 2 by omega])
      · rw [coxDeBoor_full p (i + 1) t (fun j hj => le_antisymm
          ((hm (i + 1 + j) (i + p + 1) (by omega) (by omega)).trans c)
          (c'.trans (hm _ _ (by omega) (by omega))))
          (by rwa [show i + 1 + p + 1 = i + p + 2 by omega])]
        exact one_pos

end Continuity

/-- **C81** at the joints of a spline clamped on at least one side: at an interior knot of any
multiplicity `m` up to the degree the curve is continuous from the left exactly when the control point
with the index of the span that ends there is the origin. -/
theorem C81_joints {knots : Arr ℝ K} {ps : Arr P C} {b : BSpline ℝ P K C D}
    (h : BSpline.new knots ps = .ok b) (hc : FrontClamped D knots ∨ BackClamped D knots)
    {k m : ℕ} (hm1 : 1 ≤ m) (hmD : m ≤ D) (hDk : D ≤ k) (hkC : k + m < C)
    (hk : knotAt knots k + eps < knotAt knots (k + 1))
    (heq : knotAt knots (k + 1) = knotAt knots (k + m))
    (hk' : knotAt knots (k + m) < knotAt knots (k + m + 1)) :
    ∃ e : ℝ → P, (∀ t, knotAt knots k + eps ≤ t → t ≤ knotAt knots (k + 1) → b.eval t = .ok (e t)) ∧
      ((∀ c, Tendsto (fun t => coord (e t) c) (𝓝[<] knotAt knots (k + 1))
          (𝓝 (coord (e (knotAt knots (k + 1))) c))) ↔ ps ⟨k, by omega⟩ = Point.default) := by
  have v := ((new_ok_iff _ _ _).1 h).1
  obtain ⟨v1, v2, v3⟩ := id v
  have hm : ∀ i j, i ≤ j → j < K → knotAt knots i ≤ knotAt knots j :=
    fun i j hij hj => mono_knotAt v3 hij hj
  have hep := eps_pos
  set x := knotAt knots (k + 1) with hxdef
  obtain ⟨qx, hqx, hcx⟩ := C48_at_knots h hc (by omega) (k := k + m) (by omega) hkC hk' (by
    intro i hi
    have e : knotAt knots i.val = knots i := by simp [knotAt]
    rw [← heq] at hi ⊢
    have hik : i.val ≤ k := by
      by_contra hlt
      have := hm (k + 1) i.val (by omega) i.2
      rw [e] at this
      linarith
    have := hm i.val k hik (by omega)
    rw [e] at this
    linarith)
  rw [← heq] at hqx hcx
  have hin : ∀ t, knotAt knots k + eps ≤ t → t < x → ∃ q, b.eval t = .ok q ∧ ∀ c, coord q c
      = splineCoord D knots ps t c
        - coxDeBoor (knotAt knots) D k t * coord (ps ⟨k, by omega⟩) c := by
    intro t h1 h2
    refine C48_partial h hc hDk (by omega) (by linarith) h2 fun i hi => ?_
    have e : knotAt knots i.val = knots i := by simp [knotAt]
    have hik : i.val ≤ k := by
      by_contra hlt
      have := hm (k + 1) i.val (by omega) i.2
      rw [e] at this
      linarith
    have := hm i.val k hik (by omega)
    rw [e] at this
    linarith
  have hex : ∀ t : ℝ, ∃ q : P, knotAt knots k + eps ≤ t → t ≤ x → b.eval t = .ok q := by
    intro t
    by_cases ht : knotAt knots k + eps ≤ t ∧ t ≤ x
    · rcases eq_or_lt_of_le ht.2 with heq | hlt
      · exact ⟨qx, fun _ _ => by rw [heq]; exact hqx⟩
      · obtain ⟨q, hq, _⟩ := hin t ht.1 hlt
        exact ⟨q, fun _ _ => hq⟩
    · exact ⟨Point.default, fun h1 h2 => absurd ⟨h1, h2⟩ ht⟩
  choose e he using hex
  have hcont : ∀ i : ℕ, i + D + 1 < K → ContinuousAt (coxDeBoor (knotAt knots) D i) x := by
    intro i hi
    have hne : ∀ j, j + D < K → ¬ (knotAt knots j = x ∧ knotAt knots (j + D) = x) := by
      rintro j hj ⟨e1, e2⟩
      rcases Nat.lt_or_ge k j with c | c
      · have := hm (k + m + 1) (j + D) (by omega) hj
        linarith
      · have := hm j k c (by omega)
        linarith
    refine coxDeBoor_continuousAt_of hm x D i hi (hne i (by omega)) ?_
    have := hne (i + 1) (by omega)
    rwa [show i + 1 + D = i + D + 1 by omega] at this
  have hlim : ∀ c, Tendsto (fun t => coord (e t) c) (𝓝[<] x)
      (𝓝 (splineCoord D knots ps x c
        - coxDeBoor (knotAt knots) D k x * coord (ps ⟨k, by omega⟩) c)) := by
    intro c
    have hca : ContinuousAt (fun t => splineCoord D knots ps t c
        - coxDeBoor (knotAt knots) D k t * coord (ps ⟨k, by omega⟩) c) x := by
      unfold splineCoord
      refine ContinuousAt.sub ?_ ((hcont k (by omega)).mul continuousAt_const)
      exact tendsto_finsetSum _ fun i _ => (hcont i.val (by omega)).mul continuousAt_const
    refine (hca.tendsto.mono_left nhdsWithin_le_nhds).congr' ?_
    have hmem : Set.Ioo (knotAt knots k + eps) x ∈ 𝓝[<] x := Ioo_mem_nhdsLT hk
    filter_upwards [hmem] with t ht
    obtain ⟨q, hq, hcq⟩ := hin t ht.1.le ht.2
    have h1 := he t ht.1.le ht.2.le
    rw [hq] at h1
    cases h1
    exact (hcq c).symm
  have hex' : e x = qx := by
    have h1 := he x hk.le le_rfl
    rw [hqx] at h1
    cases h1; rfl
  have hpos : 0 < coxDeBoor (knotAt knots) D k x :=
    coxDeBoor_pos hm D k x (by omega) (by linarith)
      (by rw [heq]; exact hk'.trans_le (hm _ _ (by omega) (by omega)))
  refine ⟨e, he, fun hall => ?_, fun hz c => ?_⟩
  · apply point_ext; intro c
    rw [coord_default]
    have := tendsto_nhds_unique (hall c) (hlim c)
    rw [hex', hcx] at this
    have h0 : coxDeBoor (knotAt knots) D k x * coord (ps ⟨k, by omega⟩) c = 0 := by linarith
    exact (mul_eq_zero.1 h0).resolve_left hpos.ne'
  · have := hlim c
    rw [hz, coord_default, mul_zero, sub_zero, ← hcx c, ← hex'] at this
    exact this

/-- The knots 0 0 0 1 1 2 2 2 with degree 2 meet the conditions of `C81_joints` with k = 2, m = 2. -/
example : ValidSpline 5 2 (![0, 0, 0, 1, 1, 2, 2, 2] : Fin 8 → ℝ) ∧
    FrontClamped 2 (![0, 0, 0, 1, 1, 2, 2, 2] : Fin 8 → ℝ) ∧
    knotAt (![0, 0, 0, 1, 1, 2, 2, 2] : Fin 8 → ℝ) 2 + eps
      < knotAt (![0, 0, 0, 1, 1, 2, 2, 2] : Fin 8 → ℝ) (2 + 1) ∧
    knotAt (![0, 0, 0, 1, 1, 2, 2, 2] : Fin 8 → ℝ) (2 + 1)
      = knotAt (![0, 0, 0, 1, 1, 2, 2, 2] : Fin 8 → ℝ) (2 + 2) ∧
    knotAt (![0, 0, 0, 1, 1, 2, 2, 2] : Fin 8 → ℝ) (2 + 2)
      < knotAt (![0, 0, 0, 1, 1, 2, 2, 2] : Fin 8 → ℝ) (2 + 2 + 1) := by
  refine ⟨⟨by omega, rfl, ?_⟩, ?_, ?_, ?_, ?_⟩
  · intro i j hij
    fin_cases i <;> fin_cases j <;> simp at hij ⊢
  · intro i hi
    fin_cases i <;> simp_all [knotAt, eps_pos]
  · have := eps_lt_one
    simpa [knotAt] using this
  · simp [knotAt]
  · simp [knotAt]

end Stroke
