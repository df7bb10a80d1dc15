import Verif.Props.BSplineShape
import Verif.Props.Bezier
import Mathlib.Algebra.Polynomial.Eval.Degree
import Mathlib.Algebra.Polynomial.Degree.Lemmas
import Mathlib.Topology.Algebra.Polynomial

set_option linter.unusedSectionVars false

/-!
# The pieces of a B-spline (C48 at the knots, C81, C82)
-/

namespace Stroke

open Polynomial Filter Topology

variable {P : Type} [Point ℝ P] [LawfulPoint P] {K C D : ℕ}

/-! ### At the knots -/

theorem coxDeBoor_at_start {u : ℕ → ℝ} {k : ℕ} (hm : ∀ i j, i ≤ j → j < K → u i ≤ u j) (p : ℕ)
    (hK : k + p + 2 < K) (hk : u k < u (k + 1)) : coxDeBoor u (p + 1) k (u k) = 0 := by
  simp only [coxDeBoor]
  rw [sub_self, zero_div, zero_mul, ite_self, zero_add,
    coxDeBoor_support hm p (k + 1) (by omega) (fun h => absurd h.1 (not_le.2 hk)), mul_zero, ite_self]

/-- **C48** at the knots: there the dropped contribution vanishes, so for degree at least 1 and
knot vectors clamped on at least one side `eval` returns exactly the point of the B-spline. -/
theorem C48_at_knots {knots : Arr ℝ K} {ps : Arr P C} {b : BSpline ℝ P K C D}
    (h : BSpline.new knots ps = .ok b) (hc : FrontClamped D knots ∨ BackClamped D knots)
    (hD : 1 ≤ D) {k : ℕ} (hDk : D ≤ k) (hkC : k < C) (hk : knotAt knots k < knotAt knots (k + 1))
    (heps : ∀ i : Fin K, knots i < knotAt knots k → eps ≤ knotAt knots k - knots i) :
    ∃ q, b.eval (knotAt knots k) = .ok q ∧
      ∀ c, coord q c = splineCoord D knots ps (knotAt knots k) c := by
  obtain ⟨q, hq, hcoord⟩ := C48_partial h hc hDk hkC le_rfl hk heps
  refine ⟨q, hq, fun c => ?_⟩
  have v := ((new_ok_iff _ _ _).1 h).1
  obtain ⟨d, rfl⟩ : ∃ d, D = d + 1 := ⟨D - 1, by omega⟩
  rw [hcoord, coxDeBoor_at_start (fun i j hij hj => mono_knotAt v.2.2 hij hj) d
    (by have := v.2.1; omega) hk]
  ring

/-! ### Polynomial pieces -/

/-- On a knot span every basis function is a polynomial. -/
theorem coxDeBoor_polynomial {u : ℕ → ℝ} {k : ℕ} (hm : ∀ i j, i ≤ j → j < K → u i ≤ u j)
    (hk : k + 1 < K) (p : ℕ) : ∀ i, i + p + 1 < K →
    ∃ g : ℝ[X], g.natDegree ≤ p ∧ ∀ t, u k ≤ t → t < u (k + 1) → coxDeBoor u p i t = g.eval t := by
  induction p with
  | zero =>
    intro i hi
    by_cases hik : i = k
    · subst hik
      refine ⟨1, by simp, fun t h1 h2 => ?_⟩
      simp only [coxDeBoor, eval_one]
      rw [if_pos ⟨h1, h2⟩]
    · refine ⟨0, by simp, fun t h1 h2 => ?_⟩
      rw [eval_zero]
      exact coxDeBoor_eq_zero hm hk h1 h2 0 i hi (by omega)
  | succ p ih =>
    intro i hi
    obtain ⟨g1, d1, e1⟩ := ih i (by omega)
    obtain ⟨g2, d2, e2⟩ := ih (i + 1) (by omega)
    have hdeg : ∀ (a x : ℝ) (g : ℝ[X]), g.natDegree ≤ p →
        (C a * (X - C x) * g).natDegree ≤ p + 1 := by
      intro a x g hg
      refine natDegree_mul_le.trans ?_
      have h1 : (C a * (X - C x) : ℝ[X]).natDegree ≤ 1 :=
        (natDegree_C_mul_le _ _).trans (by rw [natDegree_X_sub_C])
      omega
    refine ⟨(if u (i + p + 1) = u i then 0
        else C (1 / (u (i + p + 1) - u i)) * (X - C (u i)) * g1)
      + (if u (i + p + 2) = u (i + 1) then 0
        else C (-1 / (u (i + p + 2) - u (i + 1))) * (X - C (u (i + p + 2))) * g2), ?_, ?_⟩
    · refine natDegree_add_le_of_degree_le ?_ ?_
      · split_ifs
        · simp
        · exact hdeg _ _ _ d1
      · split_ifs
        · simp
        · exact hdeg _ _ _ d2
    · intro t h1 h2
      simp only [coxDeBoor]
      rw [e1 t h1 h2, e2 t h1 h2, eval_add]
      congr 1
      · split_ifs
        · simp
        · simp only [eval_mul, eval_sub, eval_X, Polynomial.eval_C]; ring
      · split_ifs
        · simp
        · simp only [eval_mul, eval_sub, eval_X, Polynomial.eval_C]; ring

/-- **C81** (the part that holds): between two knots every coordinate of the curve is a
polynomial of degree at most the degree of the spline (outside the machine epsilon above the
knots), for knot vectors clamped on at least one side.  Missing for the full claim: the pieces
need not fit together (`C81_false`). -/
theorem C81_partial {knots : Arr ℝ K} {ps : Arr P C} {b : BSpline ℝ P K C D}
    (h : BSpline.new knots ps = .ok b) (hc : FrontClamped D knots ∨ BackClamped D knots)
    {k : ℕ} (hDk : D ≤ k) (hkC : k < C) :
    ∃ g : ℕ → ℝ[X], (∀ c, (g c).natDegree ≤ D) ∧
      ∀ t, knotAt knots k + eps ≤ t → t < knotAt knots (k + 1) →
        ∃ q, b.eval t = .ok q ∧ ∀ c, coord q c = (g c).eval t := by
  have v := ((new_ok_iff _ _ _).1 h).1
  have hm : ∀ i j, i ≤ j → j < K → knotAt knots i ≤ knotAt knots j :=
    fun i j hij hj => mono_knotAt v.2.2 hij hj
  have v2 := v.2.1
  choose G hG1 hG2 using fun i : Fin C =>
    coxDeBoor_polynomial hm (show k + 1 < K by omega) D i.val (by omega)
  refine ⟨fun c => (∑ i : Fin C, G i * Polynomial.C (coord (ps i) c))
    - G ⟨k, hkC⟩ * Polynomial.C (coord (ps ⟨k, hkC⟩) c), fun c => ?_, fun t h1 h2 => ?_⟩
  · beta_reduce
    refine (natDegree_sub_le _ _).trans (max_le ?_ ?_)
    · refine natDegree_sum_le_of_forall_le _ _ fun i _ => ?_
      exact (natDegree_mul_C_le _ _).trans (hG1 i)
    · exact (natDegree_mul_C_le _ _).trans (hG1 _)
  · have h1' : knotAt knots k ≤ t := by have := eps_pos; linarith
    have heps : ∀ i : Fin K, knots i < t → eps ≤ t - knots i := by
      intro i hi
      have hik : i.val ≤ k := by
        by_contra hlt
        have := hm (k + 1) i.val (by omega) i.2
        have e : knotAt knots i.val = knots i := by simp [knotAt]
        rw [e] at this
        linarith
      have := hm i.val k hik (by omega)
      have e : knotAt knots i.val = knots i := by simp [knotAt]
      rw [e] at this
      linarith
    obtain ⟨q, hq, hcoord⟩ := C48_partial h hc hDk hkC h1' h2 heps
    refine ⟨q, hq, fun c => ?_⟩
    rw [hcoord, splineCoord, hG2 ⟨k, hkC⟩ t h1' h2]
    simp only [eval_sub, eval_mul, Polynomial.eval_C, Polynomial.eval_finsetSum]
    congr 1
    exact Finset.sum_congr rfl fun i _ => by rw [hG2 i t h1' h2]

/-! ### Bezier curves as B-splines -/

/-- The knot vector 0 ... 0 1 ... 1 (`D + 1` times each). -/
def bezierKnots (D : ℕ) : Fin (D + 1 + D + 1) → ℝ := fun i => if i.val ≤ D then 0 else 1

theorem knotAt_bezier {D i : ℕ} (hi : i < D + 1 + D + 1) :
    knotAt (bezierKnots D) i = if i ≤ D then 0 else 1 := by
  simp [knotAt, hi, bezierKnots]

theorem valid_bezier (D : ℕ) : ValidSpline (D + 1) D (bezierKnots D) := by
  refine ⟨by omega, rfl, fun i j hij => ?_⟩
  have : i.val ≤ j.val := hij
  unfold bezierKnots
  split_ifs <;> first | omega | norm_num

theorem front_bezier (D : ℕ) : FrontClamped D (bezierKnots D) := by
  intro i hi
  rw [knotAt_bezier (by omega)]
  simp [bezierKnots, hi, eps_pos]

theorem back_bezier (D : ℕ) : BackClamped D (bezierKnots D) := by
  intro i hi
  rw [knotAt_bezier (by omega)]
  have h1 : ¬ i.val ≤ D := by omega
  simp [bezierKnots, h1, eps_pos]

theorem bernstein_rec (n j : ℕ) (t : ℝ) :
    bernstein (n + 1) (j + 1) t = t * bernstein n j t + (1 - t) * bernstein n (j + 1) t := by
  unfold bernstein
  rw [Nat.choose_succ_succ', show n + 1 - (j + 1) = n - j by omega]
  rcases Nat.lt_or_ge n (j + 1) with h | h
  · rw [Nat.choose_eq_zero_of_lt h]; push_cast; ring
  · rw [show n - j = n - (j + 1) + 1 by omega]; push_cast; ring

/-- The basis functions of the knots 0 ... 0 1 ... 1 are the Bernstein polynomials. -/
theorem coxDeBoor_bezier {D : ℕ} {t : ℝ} (h0 : 0 ≤ t) (h1 : t < 1) (d : ℕ) (hd : d ≤ D) :
    ∀ i, i ≤ D → coxDeBoor (knotAt (bezierKnots D)) d i t
      = if D ≤ i + d then bernstein d (i + d - D) t else 0 := by
  induction d with
  | zero =>
    intro i hi
    simp only [coxDeBoor]
    rw [knotAt_bezier (by omega), knotAt_bezier (by omega), if_pos hi]
    by_cases h : D ≤ i
    · rw [if_neg (show ¬ i + 1 ≤ D by omega), if_pos ⟨h0, h1⟩, if_pos (show D ≤ i + 0 by omega),
        show i + 0 - D = 0 by omega]
      simp [bernstein]
    · rw [if_pos (show i + 1 ≤ D by omega), if_neg (by intro h; linarith [h.1, h.2]),
        if_neg (show ¬ D ≤ i + 0 by omega)]
  | succ d ih =>
    intro i hi
    simp only [coxDeBoor]
    rw [ih (by omega) i hi, knotAt_bezier (show i + d + 1 < _ by omega),
      knotAt_bezier (show i < _ by omega), knotAt_bezier (show i + d + 2 < _ by omega),
      knotAt_bezier (show i + 1 < _ by omega), if_pos hi]
    rcases Nat.lt_or_ge i D with hiD | hiD
    · rw [ih (by omega) (i + 1) hiD, if_pos (show i + 1 ≤ D by omega)]
      rcases Nat.lt_trichotomy (i + d + 1) D with h | h | h
      · simp only [show i + d + 1 ≤ D by omega, show i + d + 2 ≤ D by omega, if_true]
        rw [if_neg (show ¬ D ≤ i + (d + 1) by omega)]; ring
      · simp only [show i + d + 1 ≤ D by omega, show ¬ i + d + 2 ≤ D by omega, if_true, if_false,
          one_ne_zero]
        rw [if_pos (show D ≤ i + 1 + d by omega), if_pos (show D ≤ i + (d + 1) by omega),
          show i + 1 + d - D = 0 by omega, show i + (d + 1) - D = 0 by omega]
        simp [bernstein]; ring
      · simp only [show ¬ i + d + 1 ≤ D by omega, show ¬ i + d + 2 ≤ D by omega, if_false,
          one_ne_zero]
        rw [if_pos (show D ≤ i + d by omega), if_pos (show D ≤ i + 1 + d by omega),
          if_pos (show D ≤ i + (d + 1) by omega), show i + (d + 1) - D = (i + d - D) + 1 by omega,
          show i + 1 + d - D = (i + d - D) + 1 by omega, bernstein_rec]
        ring
    · have hi' : i = D := by omega
      subst hi'
      simp only [show ¬ i + d + 1 ≤ i by omega, show ¬ i + d + 2 ≤ i by omega,
        show ¬ i + 1 ≤ i by omega, if_false, if_true, one_ne_zero]
      rw [if_pos (show i ≤ i + d by omega), if_pos (show i ≤ i + (d + 1) by omega),
        show i + d - i = d by omega, show i + (d + 1) - i = d + 1 by omega]
      simp [bernstein]; ring

/-- **C82** (the part that holds): the B-spline with knots 0 ... 0 1 ... 1 has the end points of
the Bezier curve with the same control points, and in between it differs from it by exactly
`t^D` times the last control point.  Missing for the full claim: that this difference is 0
(`C82_false`). -/
theorem C82_partial {D : ℕ} (hD : 1 ≤ D) (ps : Arr P (D + 1)) :
    ∃ b : BSpline ℝ P (D + 1 + D + 1) (D + 1) D, BSpline.new (bezierKnots D) ps = .ok b ∧
      b.knotDomain = some (0, 1) ∧
      (∃ q, b.eval (0 : ℝ) = .ok q ∧ (Bezier.new ps).eval (0 : ℝ) = some q) ∧
      (∃ q, b.eval (1 : ℝ) = .ok q ∧ (Bezier.new ps).eval (1 : ℝ) = some q) ∧
      ∀ t : ℝ, eps ≤ t → t < 1 → ∃ q q', b.eval t = .ok q ∧ (Bezier.new ps).eval t = some q' ∧
        ∀ c, coord q c = coord q' c - t ^ D * coord (ps ⟨D, by omega⟩) c := by
  obtain ⟨b, hb⟩ := (C43_accepts (D := D) _ ps).2 (valid_bezier D)
  have hf := front_bezier D
  have hg := back_bezier D
  have hd : b.knotDomain = some (0, 1) := by
    rw [C45_partial hb ⟨fun _ => hg, fun _ => hf⟩, knotAt_bezier (by omega),
      knotAt_bezier (by omega), if_pos le_rfl, if_neg (by omega)]
  refine ⟨b, hb, hd, ?_, ?_, fun t h0 h1 => ?_⟩
  · obtain ⟨hC, e⟩ := C49_start_partial hb hf hg hD (by
      rw [knotAt_bezier (by omega), knotAt_bezier (by omega), if_pos le_rfl, if_neg (by omega)]
      norm_num) hd
    exact ⟨_, e, (C31_endpoints (Bezier.new ps) (by omega)).1⟩
  · obtain ⟨hC, e⟩ := C49_end hb hf hg hd
    exact ⟨_, e, (C31_endpoints (Bezier.new ps) (by omega)).2⟩
  · have ht0 : 0 ≤ t := eps_pos.le.trans h0
    obtain ⟨q, hq, hcoord⟩ := C48_partial hb (Or.inl hf) (t := t) (k := D) le_rfl (by omega)
      (by rw [knotAt_bezier (by omega), if_pos le_rfl]; exact ht0)
      (by rw [knotAt_bezier (by omega), if_neg (by omega)]; exact h1)
      (by
        intro i hi
        unfold bezierKnots at hi ⊢
        split_ifs at hi ⊢
        · linarith
        · linarith)
    obtain ⟨q', hq', hc'⟩ := C30_eval (Bezier.new ps) (by omega) t
    refine ⟨q, q', hq, hq', fun c => ?_⟩
    rw [hcoord, hc', coxDeBoor_bezier ht0 h1 D le_rfl D le_rfl, if_pos (by omega),
      show D + D - D = D by omega]
    congr 1
    · unfold splineCoord bezierCoord
      refine Finset.sum_congr rfl fun i _ => ?_
      rw [coxDeBoor_bezier ht0 h1 D le_rfl i.val (by omega), if_pos (by omega),
        show i.val + D - D = i.val by omega, show D + 1 - 1 = D by omega]
      rfl
    · simp [bernstein]

/-- **C82** is false of the code: for every degree at least 1, whenever the last control point
is not the origin, the B-spline with knots 0 ... 0 1 ... 1 differs from the Bezier curve at 1/2. -/
theorem C82_false {D : ℕ} (hD : 1 ≤ D) (ps : Arr P (D + 1))
    (hne : ps ⟨D, by omega⟩ ≠ Point.default) :
    ∃ b : BSpline ℝ P (D + 1 + D + 1) (D + 1) D, BSpline.new (bezierKnots D) ps = .ok b ∧
      ∃ q q', b.eval (1 / 2 : ℝ) = .ok q ∧ (Bezier.new ps).eval (1 / 2 : ℝ) = some q' ∧ q ≠ q' := by
  obtain ⟨b, hb, -, -, -, h⟩ := C82_partial hD ps
  obtain ⟨q, q', hq, hq', hc⟩ := h (1 / 2) (by unfold eps; norm_num) (by norm_num)
  refine ⟨b, hb, q, q', hq, hq', fun heq => hne ?_⟩
  apply point_ext; intro c
  have := hc c
  rw [heq] at this
  have h2 : (1 / 2 : ℝ) ^ D ≠ 0 := by positivity
  rw [coord_default]
  have h3 : (1 / 2 : ℝ) ^ D * coord (ps ⟨D, by omega⟩) c = 0 := by linarith
  exact (mul_eq_zero.1 h3).resolve_left h2

/-- **C81** is false for the joints: for every degree at least 1 the spline with knots
0 ... 0 1 ... 1 runs into the origin as t tends to 1, but its value at 1 is the last control
point. -/
theorem C81_false {D : ℕ} (hD : 1 ≤ D) (ps : Arr P (D + 1)) :
    ∃ (b : BSpline ℝ P (D + 1 + D + 1) (D + 1) D) (e : ℝ → P),
      BSpline.new (bezierKnots D) ps = .ok b ∧ b.knotDomain = some (0, 1) ∧
      (∀ t, eps ≤ t → t ≤ 1 → b.eval t = .ok (e t)) ∧ e 1 = ps ⟨D, by omega⟩ ∧
      ∀ c, Tendsto (fun t => coord (e t) c) (𝓝[<] 1) (𝓝 0) := by
  obtain ⟨b, hb, hd, -, ⟨q1, hq1, hq1'⟩, h⟩ := C82_partial hD ps
  have hex : ∀ t : ℝ, ∃ q : P, eps ≤ t → t ≤ 1 → b.eval t = .ok q := by
    intro t
    by_cases ht : eps ≤ t ∧ t ≤ 1
    · rcases eq_or_lt_of_le ht.2 with rfl | hlt
      · exact ⟨q1, fun _ _ => hq1⟩
      · obtain ⟨q, _, hq, _⟩ := h t ht.1 hlt
        exact ⟨q, fun _ _ => hq⟩
    · exact ⟨Point.default, fun h1 h2 => absurd ⟨h1, h2⟩ ht⟩
  choose e he using hex
  have hB1 : (Bezier.new ps).eval (1 : ℝ) = some (ps ⟨D, by omega⟩) :=
    (C31_endpoints (Bezier.new ps) (by omega)).2
  refine ⟨b, e, hb, hd, he, ?_, fun c => ?_⟩
  · have h1 := he 1 eps_lt_one.le le_rfl
    rw [hq1] at h1
    rw [hB1] at hq1'
    cases h1
    exact (Option.some.inj hq1').symm
  · have hcont : Continuous fun t : ℝ => bezierCoord ps t c - t ^ D * coord (ps ⟨D, by omega⟩) c := by
      unfold bezierCoord bernstein
      fun_prop
    have hval : bezierCoord ps 1 c - 1 ^ D * coord (ps ⟨D, by omega⟩) c = 0 := by
      obtain ⟨q, hq, hc⟩ := C30_eval (Bezier.new ps) (by omega) 1
      rw [hB1] at hq
      have e1 : coord q c = bezierCoord ps 1 c := hc c
      rw [← e1, ← Option.some.inj hq]; ring
    have hlim := (hcont.tendsto 1).mono_left (nhdsWithin_le_nhds (s := Set.Iio 1))
    rw [hval] at hlim
    refine hlim.congr' ?_
    have hmem : Set.Ioo eps 1 ∈ 𝓝[<] (1 : ℝ) := Ioo_mem_nhdsLT eps_lt_one
    filter_upwards [hmem] with t ht
    obtain ⟨q, q', hq, hq', hc⟩ := h t ht.1.le ht.2
    have h1 := he t ht.1.le ht.2.le
    rw [hq] at h1
    cases h1
    obtain ⟨q2, hq2, hc2⟩ := C30_eval (Bezier.new ps) (by omega) t
    rw [hq'] at hq2
    cases hq2
    rw [hc c, hc2 c]
    rfl

/-- Test: the knot vector 0 0 1 1 meets the conditions of `C48_at_knots` and `C81_partial` with
k = 1. -/
example : ValidSpline 2 1 (bezierKnots 1) ∧ FrontClamped 1 (bezierKnots 1) ∧
    knotAt (bezierKnots 1) 1 < knotAt (bezierKnots 1) 2 ∧
    ∀ i, bezierKnots 1 i < knotAt (bezierKnots 1) 1 →
      eps ≤ knotAt (bezierKnots 1) 1 - bezierKnots 1 i := by
  refine ⟨valid_bezier 1, front_bezier 1, ?_, fun i hi => ?_⟩
  · rw [knotAt_bezier (by omega), knotAt_bezier (by omega)]; norm_num
  · rw [knotAt_bezier (by omega)] at hi
    unfold bezierKnots at hi
    split_ifs at hi <;> norm_num at *

end Stroke
