import Verif.Props.BSpline
import Verif.Lemmas.CoxDeBoorDeriv
import Verif.Lemmas.ArcLength

/-!
# B-splines: derivative and arc length (C52, C53)
-/

set_option linter.unusedSectionVars false

namespace Stroke

variable {P : Type} [Point ℝ P] {K C D : ℕ}

/-! ### Derivative (C52) -/

/-- What `derivative` returns for a constructed spline: the textbook control points, with the
knots and the kind unchanged. -/
theorem derivative_eq {knots : Arr ℝ K} {ps : Arr P C} {b : BSpline ℝ P K C D}
    (h : BSpline.new knots ps = .ok b) (hC : 2 ≤ C) :
    b.derivative = some ⟨knots, b.knot_kind, fun i : Fin (C - 1) =>
      (ps ⟨i + 1, by omega⟩ - ps ⟨i, by omega⟩)
        * ((D : ℝ) / (knotAt knots (i + D + 1) - knotAt knots (i + 1)))⟩ := by
  obtain ⟨h1, h2, h3⟩ := new_stores h
  have v2 := ((new_ok_iff _ _ _).1 h).1.2.1
  unfold BSpline.derivative
  simp only [h1, h2]
  rw [forBreak_fill _ _ (fun i : Fin (C - 1) => (ps ⟨i + 1, by omega⟩ - ps ⟨i, by omega⟩)
        * ((D : ℝ) / (knotAt knots (i + D + 1) - knotAt knots (i + 1)))) (by omega) (by omega)]
  · rfl
  · intro i hi s
    rw [Arr.get?_lt _ (show i + 1 < C by omega), Arr.get?_lt _ (show i < C by omega),
      get?_knot _ (show i + D + 1 < K by omega), get?_knot _ (show i + 1 < K by omega)]
    simp only [Option.bind_eq_bind, Option.bind_some]
    rw [Arr.set?_lt _ hi, usub_le (by omega)]
    rfl

/-- The knots without the first and the last. -/
noncomputable def trimKnots (knots : Fin K → ℝ) : Fin (K - 2) → ℝ :=
  fun i => knotAt knots (i.val + 1)

/-- **C52**: the control points `derivative` returns are those of the derivative curve, which
has degree `D - 1`, `C - 1` control points and the knot vector without the first and last knot:
inside every span that curve is the derivative of the original spline.  No denominator of the
formula may be 0.  Missing for the full claim: the returned spline does not have that knot
vector (`C52_false`). -/
theorem C52_partial [LawfulPoint P] {knots : Arr ℝ K} {ps : Arr P C} {b : BSpline ℝ P K C D}
    (h : BSpline.new knots ps = .ok b) (hD : 1 ≤ D)
    (hden : ∀ i, i + 1 < C → knotAt knots (i + 1) < knotAt knots (i + D + 1)) :
    ∃ d, b.derivative = some d ∧ ValidSpline (C - 1) (D - 1) (trimKnots knots) ∧
      (∀ (i : ℕ) (hi : i < C - 1) (c : ℕ), coord (d.control_points ⟨i, hi⟩) c
        = D / (knotAt knots (i + D + 1) - knotAt knots (i + 1))
          * (coord (ps ⟨i + 1, by omega⟩) c - coord (ps ⟨i, by omega⟩) c)) ∧
      ∀ (k : ℕ) (t : ℝ), D ≤ k → k < C → knotAt knots k < t → t < knotAt knots (k + 1) → ∀ c,
        HasDerivAt (fun t => splineCoord D knots ps t c)
          (splineCoord (D - 1) (trimKnots knots) d.control_points t c) t := by
  have v := ((new_ok_iff _ _ _).1 h).1
  have v1 := v.1
  have v2 := v.2.1
  refine ⟨_, derivative_eq h (by omega), ⟨by omega, by omega, ?_⟩, ?_, ?_⟩
  · intro i j hij
    exact mono_knotAt v.2.2 (Nat.succ_le_succ hij) (by omega)
  · intro i hi c
    simp only [coord_mul, coord_sub]
    ring
  · intro k t hDk hkC h1 h2 c
    obtain ⟨d, rfl⟩ : ∃ d, D = d + 1 := ⟨D - 1, by omega⟩
    have hmono := fun i j (hij : i ≤ j) (hj : j < K) => mono_knotAt v.2.2 hij hj
    have key := hasDerivAt_spline hmono v2 v1 hDk hkC h1 h2 (fun i => coord (extend ps i) c)
    have e1 : (fun t => splineCoord (d + 1) knots ps t c) = fun t => ∑ i ∈ Finset.range C,
        coxDeBoor (knotAt knots) (d + 1) i t * coord (extend ps i) c := by
      funext t
      rw [splineCoord, ← Fin.sum_univ_eq_sum_range
        (fun i => coxDeBoor (knotAt knots) (d + 1) i t * coord (extend ps i) c)]
      exact Finset.sum_congr rfl fun i _ => by rw [extend_lt ps i.2]
    rw [e1]
    refine key.congr_deriv ?_
    rw [splineCoord, ← Fin.sum_univ_eq_sum_range (fun i => coxDeBoor (knotAt knots) d (i + 1) t
        * ((coord (extend ps (i + 1)) c - coord (extend ps i) c)
          * ((d + 1 : ℝ) / (knotAt knots (i + (d + 1) + 1) - knotAt knots (i + 1)))))]
    apply Finset.sum_congr rfl
    intro i _
    have hi := i.2
    rw [extend_lt _ (show i.val + 1 < C by omega), extend_lt _ (show i.val < C by omega)]
    simp only [coord_mul, coord_sub, Nat.add_sub_cancel]
    have e2 : coxDeBoor (knotAt (trimKnots knots)) d i t
        = coxDeBoor (knotAt knots) d (i + 1) t := by
      rw [← coxDeBoor_shift]
      refine coxDeBoor_congr (K := K - 2) (fun j hj => ?_) d i.val (by omega) t
      rw [knotAt_lt _ hj]
      rfl
    rw [e2]
    push_cast
    ring

/-- The hypotheses of `C52_partial` hold for the cubic spline with uniform knots. -/
example (ps : Arr (PointN ℝ 2) 6) : ∃ b : BSpline ℝ (PointN ℝ 2) 10 6 3,
    BSpline.new (uniformKnots 10) ps = .ok b ∧
    ∀ i, i + 1 < 6 → knotAt (uniformKnots 10) (i + 1) < knotAt (uniformKnots 10) (i + 3 + 1) := by
  obtain ⟨b, hb⟩ := (C43_accepts (D := 3) _ ps).2
    (valid_uniform (K := 10) (C := 6) (by norm_num) (by norm_num))
  refine ⟨b, hb, fun i hi => ?_⟩
  rw [knotAt_uniform (by omega), knotAt_uniform (by omega)]
  exact_mod_cast (by omega)

/-- **C52** is false of the code for every constructed spline of degree at least 1: the knots
and control points of the spline returned by `derivative` are rejected by the constructor. -/
theorem C52_false {knots : Arr ℝ K} {ps : Arr P C} {b : BSpline ℝ P K C D}
    (h : BSpline.new knots ps = .ok b) (hD : 1 ≤ D) :
    ∃ d, b.derivative = some d ∧
      (BSpline.new d.knots d.control_points : Outcome (BSpline ℝ P K (C - 1) (D - 1)))
        = .err .TooManyKnots := by
  have v1 := ((new_ok_iff _ _ _).1 h).1.1
  have v2 := ((new_ok_iff _ _ _).1 h).1.2.1
  exact ⟨_, derivative_eq h (by omega), (C44_errors _ _).2.2.1 (by omega) (by omega)⟩

/-- **C52** is false of the code: the derivative of the straight spline from 0 to 10 fails to
evaluate in the middle of its knot domain. -/
theorem C52_false_eval : ∃ (b : BSpline ℝ (PointN ℝ 1) 4 2 1) (d : BSpline ℝ (PointN ℝ 1) 4 1 0),
    BSpline.new ![0, 0, 1, 1] ![p1 0, p1 10] = .ok b ∧ b.derivative = some d ∧
    d.knotDomain = some (0, 1) ∧ d.eval (1 / 2 : ℝ) = .err .KnotDomainViolation := by
  obtain ⟨b, hb⟩ := (C43_accepts (D := 1) _ ![p1 0, p1 10]).2 valid_0011
  refine ⟨b, _, hb, derivative_eq hb le_rfl, ?_, ?_⟩
  · rw [(new_stores hb).2.2]
    simp [BSpline.knotDomain, kindOf, front_0011, back_0011, BSpline.knotDomainClamped, usub,
      Arr.get?]
  · rw [(new_stores hb).2.2]
    have hs : BSpline.spanClampedLoop (![0, 0, 1, 1] : Fin 4 → ℝ) (1 / 2) 0 0 = some none := by
      unfold BSpline.spanClampedLoop
      norm_num [Arr.get?]
      unfold BSpline.spanClampedLoop
      norm_num
    simp [BSpline.eval, BSpline.knotDomain, kindOf, front_0011, back_0011,
      BSpline.knotDomainClamped, usub, Arr.get?, BSpline.deBoorIterative, BSpline.knotSpanStart,
      BSpline.spanClamped]
    norm_num
    rw [hs]
    rfl

/-! ### Arc length (C53) -/

section Arclen
variable [LawfulPoint P]

theorem sqrt_squaredLength (p q : P) : Real.sqrt (Point.squaredLength (p - q)) = pdist p q := by
  rw [squaredLength_eq_norm, Real.sqrt_sq (norm_nonneg _), toE_sub, pdist_eq_norm]

/-- **C53**, what is computed for a spline clamped on both sides: the sum over n+1 parameters
`t` of the domain of the distance from the point at `t` to the point at `t + 1/n`, where
parameters beyond the domain count as the origin. -/
theorem C53_actual {knots : Arr ℝ K} {ps : Arr P C} {b : BSpline ℝ P K C D}
    (h : BSpline.new knots ps = .ok b) (hf : FrontClamped D knots) (hb : BackClamped D knots)
    {lo hi : ℝ} (hd : b.knotDomain = some (lo, hi)) (n : ℕ) :
    ∃ e : ℝ → P, (∀ t, lo ≤ t → t ≤ hi → b.eval t = .ok (e t)) ∧
      (∀ t, (t < lo ∨ hi < t) → e t = Point.default) ∧
      b.arclen n = some (∑ i ∈ Finset.range (n + 1),
        pdist (e (lo + (i : ℝ) / n * (hi - lo))) (e (lo + (i : ℝ) / n * (hi - lo) + 1 / n))) := by
  have hex : ∀ t : ℝ, ∃ p : P, b.evalOrDefault t = some p ∧
      (lo ≤ t → t ≤ hi → b.eval t = .ok p) ∧ ((t < lo ∨ hi < t) → p = Point.default) := by
    intro t
    by_cases hin : lo ≤ t ∧ t ≤ hi
    · obtain ⟨q, hq⟩ := C47_clamped h hf hb hd hin.1 hin.2
      refine ⟨q, by simp [BSpline.evalOrDefault, hq], fun _ _ => hq, fun hout => ?_⟩
      rcases hout with h1 | h1
      · exact absurd hin.1 (not_le.2 h1)
      · exact absurd hin.2 (not_le.2 h1)
    · have hout : t < lo ∨ hi < t := by
        by_contra hcon
        push Not at hcon
        exact hin hcon
      exact ⟨Point.default, by simp [BSpline.evalOrDefault, eval_err hd hout],
        fun h1 h2 => absurd ⟨h1, h2⟩ hin, fun _ => rfl⟩
  choose e he1 he2 he3 using hex
  refine ⟨e, he2, he3, ?_⟩
  unfold BSpline.arclen
  rw [hd]
  simp only [Option.bind_eq_bind, Option.bind_some, he1]
  obtain ⟨s, hs, inv⟩ := forRange_inv (m := Option) (lo := 0) (hi := n + 1) (s := (lit 0 : ℝ))
    (body := fun i (arclen : ℝ) => some (arclen + Scalar.sqrt (Point.squaredLength
      (e (lo + Scalar.ofUsize i / Scalar.ofUsize n * (hi - lo))
        - e (lo + Scalar.ofUsize i / Scalar.ofUsize n * (hi - lo) + lit 1 / Scalar.ofUsize n)))))
    (fun j (s : ℝ) => s = ∑ i ∈ Finset.range j,
      pdist (e (lo + (i : ℝ) / n * (hi - lo))) (e (lo + (i : ℝ) / n * (hi - lo) + 1 / n)))
    (by omega) (by simp)
    (by
      intro i s _ _ inv
      refine ⟨_, rfl, ?_⟩
      rw [Finset.sum_range_succ, inv]
      simp only [sqrt_real, ofUsize_real, lit_real, Rat.cast_one]
      rw [sqrt_squaredLength])
  rw [← inv]
  exact hs

/-- **C53**: if the knot domain has length 1 and the spline is clamped on both sides, `arclen(n)`
is the length of the polyline through n+1 equally spaced parameters, plus the distance of the
last control point from the origin.  Missing for the full claim: this last summand should not
be there, and other domains (`C53_false`). -/
theorem C53_partial {knots : Arr ℝ K} {ps : Arr P C} {b : BSpline ℝ P K C D}
    (h : BSpline.new knots ps = .ok b) (hf : FrontClamped D knots) (hb : BackClamped D knots)
    {lo hi : ℝ} (hd : b.knotDomain = some (lo, hi)) (hlen : hi = lo + 1) {n : ℕ} (hn : 1 ≤ n) :
    ∃ e : ℝ → P, (∀ t, lo ≤ t → t ≤ hi → b.eval t = .ok (e t)) ∧
      b.arclen n = some (polylineLength (fun i => e (lo + (i : ℝ) / n)) 0 n
        + pdist (e hi) Point.default) := by
  obtain ⟨e, h1, h2, h3⟩ := C53_actual h hf hb hd n
  refine ⟨e, h1, ?_⟩
  rw [h3]
  have hn0 : (n : ℝ) ≠ 0 := by positivity
  congr 1
  rw [Finset.sum_range_succ, polylineLength]
  congr 1
  · rw [← Finset.range_eq_Ico]
    apply Finset.sum_congr rfl
    intro i _
    rw [hlen]
    simp only [add_sub_cancel_left, mul_one]
    congr 2
    push_cast
    field_simp
    ring
  · rw [hlen]
    simp only [add_sub_cancel_left, mul_one, div_self hn0]
    rw [h2 (lo + 1 + 1 / n) (Or.inr (by rw [hlen]; have : (0 : ℝ) < 1 / n := by positivity
                                        linarith))]

end Arclen

/-- **C53** is false of the code: for the straight spline from 0 to 10 and one step, `arclen` is
20; it is 22 if all control points are moved by 2. -/
theorem C53_false : (∃ b : BSpline ℝ (PointN ℝ 1) 4 2 1,
      BSpline.new ![0, 0, 1, 1] ![p1 0, p1 10] = .ok b ∧ b.arclen 1 = some (20 : ℝ)) ∧
    (∃ b : BSpline ℝ (PointN ℝ 1) 4 2 1,
      BSpline.new ![0, 0, 1, 1] ![p1 2, p1 12] = .ok b ∧ b.arclen 1 = some (22 : ℝ)) := by
  have key : ∀ a c : ℝ, ∃ b : BSpline ℝ (PointN ℝ 1) 4 2 1,
      BSpline.new ![0, 0, 1, 1] ![p1 a, p1 c] = .ok b ∧ b.arclen 1 = some (|a - c| + |c|) := by
    intro a c
    obtain ⟨b, hb⟩ := (C43_accepts (D := 1) _ ![p1 a, p1 c]).2 valid_0011
    refine ⟨b, hb, ?_⟩
    have hd : b.knotDomain = some (0, 1) := by
      rw [C45_partial hb ⟨fun _ => back_0011, fun _ => front_0011⟩]
      simp [knotAt]
    obtain ⟨e, he, hlen⟩ := C53_partial hb front_0011 back_0011 hd (by norm_num) (n := 1) le_rfl
    rw [hlen]
    obtain ⟨_, h0⟩ := C49_start_partial hb front_0011 back_0011 le_rfl
      (by norm_num [knotAt]) hd
    obtain ⟨_, h1⟩ := C49_end hb front_0011 back_0011 hd
    rw [he 0 le_rfl zero_le_one] at h0
    rw [he 1 zero_le_one le_rfl] at h1
    have e0 : e 0 = p1 a := by simpa using h0
    have e1 : e 1 = p1 c := by simpa using h1
    congr 1
    simp only [polylineLength, Nat.Ico_zero_eq_range, Finset.sum_range_one, Nat.cast_zero,
      Nat.cast_one, div_one, zero_add, e0, e1]
    congr 1
    · exact pdist_pn1 a c
    · have := pdist_pn1 c 0
      rw [sub_zero] at this
      convert this using 2
      · rfl
      · show PointN.default = _
        simp [PointN.default, PointN.new]
  constructor
  · obtain ⟨b, hb, he⟩ := key 0 10
    exact ⟨b, hb, by rw [he]; norm_num⟩
  · obtain ⟨b, hb, he⟩ := key 2 12
    exact ⟨b, hb, by rw [he]; norm_num⟩

end Stroke
