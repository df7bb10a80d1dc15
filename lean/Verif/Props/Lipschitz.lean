import Verif.Props.ArcLengthShape
import Verif.Props.BSplineShape
import Mathlib.RingTheory.Polynomial.Bernstein

set_option linter.unusedSectionVars false

/-!
# Small changes of the input make small changes of the curve (C72, C73)

C72: moving the control points; C73: moving the parameter.
-/

namespace Stroke

variable {P : Type} [Point ℝ P] [LawfulPoint P] {N : ℕ}

/-! ### Moving the control points -/

/-- Combining two families of points with the same weights, not more than one in total. -/
theorem pdist_combination_le {ι : Type} [Fintype ι] {w : ι → ℝ} (hw : ∀ k, 0 ≤ w k)
    (h1 : ∑ k, w k ≤ 1) {ps qs : ι → P} {δ : ℝ} (hδ : 0 ≤ δ) (h : ∀ k, pdist (ps k) (qs k) ≤ δ)
    {p q : P} (hp : ∀ i, coord p i = ∑ k, w k * coord (ps k) i)
    (hq : ∀ i, coord q i = ∑ k, w k * coord (qs k) i) : pdist p q ≤ δ := by
  rw [pdist]
  refine length_le_of_dot fun a ha => ?_
  have hk : ∀ k, ∑ i ∈ Finset.range (Point.dim P), a i * (coord (ps k) i - coord (qs k) i) ≤ δ := by
    intro k
    refine (dot_le (x := fun i => coord (ps k) i - coord (qs k) i) ha).trans ?_
    have := h k
    rwa [pdist] at this
  have e : ∑ i ∈ Finset.range (Point.dim P), a i * (coord p i - coord q i)
      = ∑ k, w k * ∑ i ∈ Finset.range (Point.dim P), a i * (coord (ps k) i - coord (qs k) i) := by
    simp only [hp, hq, ← Finset.sum_sub_distrib, Finset.mul_sum]
    rw [Finset.sum_comm]
    refine Finset.sum_congr rfl fun k _ => Finset.sum_congr rfl fun i _ => ?_
    ring
  rw [e]
  calc ∑ k, w k * ∑ i ∈ Finset.range (Point.dim P), a i * (coord (ps k) i - coord (qs k) i)
      ≤ ∑ k, w k * δ := Finset.sum_le_sum fun k _ => mul_le_mul_of_nonneg_left (hk k) (hw k)
    _ = (∑ k, w k) * δ := (Finset.sum_mul _ _ _).symm
    _ ≤ 1 * δ := mul_le_mul_of_nonneg_right h1 hδ
    _ = δ := one_mul δ

/-- **C72**: if no control point moves by more than `δ`, no point of the curve does. -/
theorem C72_bezier (b b' : Bezier P N) (hN : 1 ≤ N) (δ : ℝ)
    (h : ∀ k, pdist (b.control_points k) (b'.control_points k) ≤ δ) (t : ℝ) (h0 : 0 ≤ t)
    (h1 : t ≤ 1) : ∃ p p', b.eval t = some p ∧ b'.eval t = some p' ∧ pdist p p' ≤ δ := by
  obtain ⟨p, hp, hw, hs, hc⟩ := C36_bezier b hN t h0 h1
  obtain ⟨p', hp', _, _, hc'⟩ := C36_bezier b' hN t h0 h1
  have hδ : 0 ≤ δ := (pdist_nonneg _ _).trans (h ⟨0, hN⟩)
  exact ⟨p, p', hp, hp', pdist_combination_le hw hs.le hδ h hc hc'⟩

/-- **C72** for the specialised curves. -/
theorem C72_specialised (a b c d a' b' c' d' : P) (δ : ℝ) (ha : pdist a a' ≤ δ)
    (hb : pdist b b' ≤ δ) (hc : pdist c c' ≤ δ) (hd : pdist d d' ≤ δ) (t : ℝ) (h0 : 0 ≤ t)
    (h1 : t ≤ 1) :
    pdist ((LineSegment.new a b).eval t) ((LineSegment.new a' b').eval t) ≤ δ ∧
    pdist ((QuadraticBezier.new a b c).eval t) ((QuadraticBezier.new a' b' c').eval t) ≤ δ ∧
    pdist ((CubicBezier.new a b c d).eval t) ((CubicBezier.new a' b' c' d').eval t) ≤ δ := by
  refine ⟨?_, ?_, ?_⟩
  · obtain ⟨p, p', hp, hp', h⟩ := C72_bezier (Bezier.new ![a, b]) (Bezier.new ![a', b'])
      (by norm_num) δ (by
        intro k
        fin_cases k <;> simpa [Bezier.new]) t h0 h1
    rw [C32_line] at hp hp'
    cases hp; cases hp'; exact h
  · obtain ⟨p, p', hp, hp', h⟩ := C72_bezier (Bezier.new ![a, b, c]) (Bezier.new ![a', b', c'])
      (by norm_num) δ (by
        intro k
        fin_cases k <;> simpa [Bezier.new]) t h0 h1
    rw [C32_quadratic_eval] at hp hp'
    cases hp; cases hp'; exact h
  · obtain ⟨p, p', hp, hp', h⟩ := C72_bezier (Bezier.new ![a, b, c, d])
      (Bezier.new ![a', b', c', d']) (by norm_num) δ (by
        intro k
        fin_cases k <;> simpa [Bezier.new]) t h0 h1
    rw [C32_cubic_eval] at hp hp'
    cases hp; cases hp'; exact h

/-- **C72** for B-splines, wherever evaluation succeeds on [knots[D], knots[C]]: for every kind of
knot vector, in spite of the dropped control point (C48). -/
theorem C72_bspline {K C D : ℕ} {knots : Arr ℝ K} {ps ps' : Arr P C} {b b' : BSpline ℝ P K C D}
    (h : BSpline.new knots ps = .ok b) (h' : BSpline.new knots ps' = .ok b') (δ : ℝ)
    (hδ : ∀ k, pdist (ps k) (ps' k) ≤ δ) {t : ℝ} (ht : t ≤ knotAt knots C) {p : P}
    (hp : b.eval t = .ok p) : ∃ p', b'.eval t = .ok p' ∧ pdist p p' ≤ δ := by
  obtain ⟨w, hw, h1, hall⟩ := C50_partial h ht hp
  obtain ⟨q, hq, hc⟩ := hall ps b h
  obtain ⟨q', hq', hc'⟩ := hall ps' b' h'
  rw [hp] at hq
  cases hq
  have hC : 0 < C := by have := ((new_ok_iff _ _ _).1 h).1.1; omega
  exact ⟨q', hq', pdist_combination_le hw h1 ((pdist_nonneg _ _).trans (hδ ⟨0, hC⟩)) hδ hc hc'⟩

/-- Test: a quadratic curve whose middle point moves by 5 and whose ends stay. -/
example (t : ℝ) (h0 : 0 ≤ t) (h1 : t ≤ 1) :
    pdist ((QuadraticBezier.new (pt2 0 0) (pt2 1 1) (pt2 2 0)).eval t)
      ((QuadraticBezier.new (pt2 0 0) (pt2 4 5) (pt2 2 0)).eval t) ≤ 5 := by
  refine (C72_specialised (pt2 0 0) (pt2 1 1) (pt2 2 0) (pt2 2 0) (pt2 0 0) (pt2 4 5) (pt2 2 0)
    (pt2 2 0) 5 ?_ ?_ ?_ ?_ t h0 h1).2.1 <;> rw [pdist_pt2]
  · norm_num
  · rw [show ((1 : ℝ) - 4) ^ 2 + (1 - 5) ^ 2 = 5 ^ 2 by norm_num, Real.sqrt_sq (by norm_num)]
  · norm_num
  · norm_num

/-! ### Moving the parameter -/

/-- Linear precision of the Bernstein basis. -/
theorem bernstein_linear (n : ℕ) (t : ℝ) :
    ∑ k ∈ Finset.range (n + 1), bernstein n k t * k = n * t := by
  have h := congrArg (Polynomial.eval t) (bernsteinPolynomial.sum_smul ℝ n)
  rw [Polynomial.eval_finsetSum] at h
  simp only [bernsteinPolynomial, nsmul_eq_mul, Polynomial.eval_mul, Polynomial.eval_natCast,
    Polynomial.eval_pow, Polynomial.eval_X, Polynomial.eval_sub, Polynomial.eval_one] at h
  rw [← h]
  refine Finset.sum_congr rfl fun k _ => ?_
  rw [bernstein]
  ring

theorem polygonUpTo_le (ps : Fin N → P) {M : ℝ}
    (hM : ∀ (k : ℕ) (h : k + 1 < N), pdist (ps ⟨k, by omega⟩) (ps ⟨k + 1, h⟩) ≤ M) (j d : ℕ)
    (h : j + d < N) : polygonUpTo ps (j + d) ≤ polygonUpTo ps j + M * d := by
  induction d with
  | zero => simp
  | succ d ih =>
    have e : polygonUpTo ps (j + (d + 1)) = polygonUpTo ps (j + d)
        + pdist (ps ⟨j + d, by omega⟩) (ps ⟨j + d + 1, h⟩) := by
      unfold polygonUpTo
      rw [show j + (d + 1) = j + d + 1 by omega, Finset.sum_range_succ, dif_pos (by omega)]
    have h1 := ih (by omega)
    have h2 := hM (j + d) h
    rw [e]
    push_cast
    linarith

/-- **C73**: if neighbouring control points are at most `M` apart, the curve moves by at most
`degree · M · |t - s|` between the parameters `s` and `t`. -/
theorem C73_bezier (b : Bezier P N) (hN : 1 ≤ N) (M : ℝ)
    (hM : ∀ (k : ℕ) (h : k + 1 < N),
      pdist (b.control_points ⟨k, by omega⟩) (b.control_points ⟨k + 1, h⟩) ≤ M)
    (s t : ℝ) (hs : 0 ≤ s) (hst : s ≤ t) (ht : t ≤ 1) :
    ∃ p q, b.eval s = some p ∧ b.eval t = some q ∧ pdist p q ≤ (N - 1 : ℕ) * M * (t - s) := by
  obtain ⟨p, hp, hc⟩ := C30_eval b hN s
  obtain ⟨q, hq, hd⟩ := C30_eval b hN t
  refine ⟨p, q, hp, hq, (chord_le_polygon b.control_points hs hst ht hc hd).trans ?_⟩
  have mono := bernstein_mono (fun k : Fin N => M * k - polygonUpTo b.control_points k)
    (fun j k h => by
      have hjk : j.val ≤ k.val := h
      have := polygonUpTo_le b.control_points hM j (k - j) (by have := k.isLt; omega)
      rw [show j.val + (k.val - j.val) = k.val by omega, Nat.cast_sub hjk] at this
      linarith) hs hst ht
  have lin : ∀ u : ℝ, ∑ k : Fin N, bernstein (N - 1) k u * (M * k) = M * ((N - 1 : ℕ) * u) := by
    intro u
    rw [← bernstein_linear, Finset.mul_sum,
      Fin.sum_univ_eq_sum_range (fun k => bernstein (N - 1) k u * (M * k)) N,
      show N - 1 + 1 = N by omega]
    exact Finset.sum_congr rfl fun k _ => by ring
  simp only [mul_sub, Finset.sum_sub_distrib, lin] at mono
  linarith

/-- **C73** for the specialised curves; a straight segment moves at exactly its length. -/
theorem C73_specialised (l : LineSegment P) (q : QuadraticBezier P) (c : CubicBezier P)
    (s t : ℝ) (hs : 0 ≤ s) (hst : s ≤ t) (ht : t ≤ 1) :
    pdist (l.eval s) (l.eval t) = pdist l.start l.end_ * (t - s) ∧
    (∀ M, pdist q.start q.ctrl ≤ M → pdist q.ctrl q.end_ ≤ M →
      pdist (q.eval s) (q.eval t) ≤ 2 * M * (t - s)) ∧
    (∀ M, pdist c.start c.ctrl1 ≤ M → pdist c.ctrl1 c.ctrl2 ≤ M → pdist c.ctrl2 c.end_ ≤ M →
      pdist (c.eval s) (c.eval t) ≤ 3 * M * (t - s)) := by
  refine ⟨?_, fun M h1 h2 => ?_, fun M h1 h2 h3 => ?_⟩
  · have e : pdist l.start l.end_ * (t - s)
        = Real.sqrt ((t - s) ^ 2 * ∑ i ∈ Finset.range (Point.dim P),
            (coord l.start i - coord l.end_ i) ^ 2) := by
      rw [Real.sqrt_mul (sq_nonneg _), Real.sqrt_sq (by linarith), mul_comm, pdist]
    rw [e, pdist, Finset.mul_sum]
    congr 1
    refine Finset.sum_congr rfl fun i _ => ?_
    rw [C05_eval, C05_eval]
    ring
  · obtain ⟨p, r, hp, hr, h⟩ := C73_bezier (Bezier.new ![q.start, q.ctrl, q.end_]) (by norm_num)
      M (by
        intro k hk
        have : k < 2 := by omega
        interval_cases k <;> simpa [Bezier.new]) s t hs hst ht
    rw [C32_quadratic_eval] at hp hr
    cases hp; cases hr
    have e : (((3 - 1 : ℕ) : ℝ)) = 2 := by norm_num
    rw [e] at h
    exact h
  · obtain ⟨p, r, hp, hr, h⟩ := C73_bezier (Bezier.new ![c.start, c.ctrl1, c.ctrl2, c.end_])
      (by norm_num) M (by
        intro k hk
        have : k < 3 := by omega
        interval_cases k <;> simpa [Bezier.new]) s t hs hst ht
    rw [C32_cubic_eval] at hp hr
    cases hp; cases hr
    have e : (((4 - 1 : ℕ) : ℝ)) = 3 := by norm_num
    rw [e] at h
    exact h

/-- Test: the bound is attained by the quadratic curve with control points 0, 1, 2. -/
example : pdist ((QuadraticBezier.new (pt2 0 0) (pt2 1 0) (pt2 2 0)).eval (0 : ℝ))
      ((QuadraticBezier.new (pt2 0 0) (pt2 1 0) (pt2 2 0)).eval (1 : ℝ)) = 2 * 1 * (1 - 0) ∧
    pdist (pt2 0 0) (pt2 1 0) = 1 ∧ pdist (pt2 1 0) (pt2 2 0) = 1 := by
  rw [(C10_endpoints _).1, (C10_endpoints _).2]
  simp only [QuadraticBezier.new, pdist_pt2]
  refine ⟨?_, by norm_num, by norm_num⟩
  rw [show ((0 : ℝ) - 2) ^ 2 + (0 - 0) ^ 2 = 2 ^ 2 by norm_num, Real.sqrt_sq (by norm_num)]
  norm_num

end Stroke
