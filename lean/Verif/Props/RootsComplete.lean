import Verif.Props.Roots

/-!
# `solve_t_for_axis` of cubic curves misses no solution (C57, completeness)
-/

namespace Stroke

variable {P : Type} [Point ℝ P] [LawfulPoint P]

/-- **C57** (cubic, completeness): if the end points are distinguishable and the leading
coefficient `k3` is at least EPSILON, every parameter that hits the value and keeps a distance of
`δ = max (10⁻⁷ √(k2² - 3 k3 k1) / |k3|) (3/2 EPSILON)` to the ends of (0, 1) is within `δ` of a returned
parameter.  With negative discriminant every parameter in (0, 1) that hits the value is returned
itself. -/
theorem C57_cubic_complete (c : CubicBezier P) (v : ℝ) (i : ℕ) (hi : i < Point.dim P)
    (k3 k2 k1 k0 disc δ : ℝ)
    (h3 : k3 = -coord c.start i + 3 * coord c.ctrl1 i - 3 * coord c.ctrl2 i + coord c.end_ i)
    (h2 : k2 = 3 * (coord c.start i - 2 * coord c.ctrl1 i + coord c.ctrl2 i))
    (h1 : k1 = 3 * (coord c.ctrl1 i - coord c.start i)) (h0 : k0 = coord c.start i - v)
    (hdisc : disc = 18 * k3 * k2 * k1 * k0 - 4 * k2 ^ 3 * k0 + k2 ^ 2 * k1 ^ 2 - 4 * k3 * k1 ^ 3
      - 27 * k3 ^ 2 * k0 ^ 2)
    (hδ : δ = max (Real.sqrt (k2 ^ 2 - 3 * k3 * k1) / |k3| / 10 ^ 7) (3 / 2 * eps))
    (hse : eps ≤ pdist c.start c.end_ ^ 2) (hA : eps ≤ |k3|) :
    ∃ ts, c.solveTForAxis v i = some ts ∧
      (∀ t, δ < t → t < 1 - δ → coord (c.eval t) i = v → ∃ t' ∈ ts, |t - t'| ≤ δ) ∧
      (disc < 0 → ∀ t, 0 < t → t < 1 → coord (c.eval t) i = v → t ∈ ts) := by
  obtain ⟨deg, hdeg, rs, hrs, h⟩ := cubic_solve_eq c v hi
  rw [← h3, ← h2, ← h1, ← h0] at hrs
  refine ⟨_, h, ?_⟩
  have he := eps_pos
  have hδ0 : 0 < δ := by rw [hδ]; exact lt_of_lt_of_le (by linarith) (le_max_right _ _)
  cases deg with
  | true => exact absurd (hdeg rfl) (not_lt.2 hse)
  | false =>
    have hpoly : ∀ u : ℝ, coord (c.eval u) i = v → k3 * u ^ 3 + k2 * u ^ 2 + k1 * u + k0 = 0 := by
      intro u hu
      rw [← sub_eq_zero, C20_eval] at hu
      rw [h3, h2, h1, h0, ← hu]; ring
    rw [if_neg (by simp)]
    -- it is enough to find a root near `t`
    have near : ∀ t, δ < t → t < 1 - δ → (∃ r ∈ rs, |t - r| ≤ δ) →
        ∃ t' ∈ rs.filter fun r => decide (0 < r) && decide (r < 1), |t - t'| ≤ δ := by
      rintro t ht0 ht1 ⟨r, hr, hd⟩
      have := abs_le.1 hd
      refine ⟨r, List.mem_filter.2 ⟨hr, ?_⟩, hd⟩
      have g0 : 0 < r := by linarith
      have g1 : r < 1 := by linarith
      simp [g0, g1]
    constructor
    · intro t ht0 ht1 hv
      apply near t ht0 ht1
      have hz := hpoly t hv
      rcases lt_or_ge 0 disc with hD | hD
      · obtain ⟨r1, r2, r3, v2, v3, hx, -, -, hroots, e2, e3⟩ :=
          C56_three_roots_partial k3 k2 k1 k0 hA (by rw [← hdisc]; exact hD)
        rw [hrs] at hx
        obtain rfl := Option.some.inj hx
        have hm := le_max_left (Real.sqrt (k2 ^ 2 - 3 * k3 * k1) / |k3| / 10 ^ 7) (3 / 2 * eps)
        rw [← hδ] at hm
        rcases (hroots t).1 hz with rfl | rfl | rfl
        · exact ⟨t, by simp, by rw [sub_self, abs_zero]; exact hδ0.le⟩
        · exact ⟨v2, by simp, by rw [abs_sub_comm]; exact e2.trans hm⟩
        · exact ⟨v3, by simp, by rw [abs_sub_comm]; exact e3.trans hm⟩
      · obtain ⟨x, rest, hx, -, -, -, hneg, hzero⟩ := C56_one_root_partial k3 k2 k1 k0 hA
          (by rw [← hdisc]; exact hD)
        rw [hrs] at hx
        obtain rfl := Option.some.inj hx
        have hm := le_max_right (Real.sqrt (k2 ^ 2 - 3 * k3 * k1) / |k3| / 10 ^ 7) (3 / 2 * eps)
        rw [← hδ] at hm
        rcases lt_or_eq_of_le hD with hD' | hD'
        · refine ⟨x, by simp, ?_⟩
          rw [hneg (by rw [← hdisc]; exact hD') t hz, sub_self, abs_zero]
          exact hδ0.le
        · rcases (hzero (by rw [← hdisc]; exact hD')).2 t hz with g | g
          · exact ⟨t, g, by rw [sub_self, abs_zero]; exact hδ0.le⟩
          · exact ⟨x, by simp, g.le.trans hm⟩
    · intro hD t ht0 ht1 hv
      obtain ⟨x, rest, hx, -, -, -, hneg, -⟩ := C56_one_root_partial k3 k2 k1 k0 hA
        (by rw [← hdisc]; exact hD.le)
      rw [hrs] at hx
      obtain rfl := Option.some.inj hx
      rw [hneg (by rw [← hdisc]; exact hD) t (hpoly t hv), List.mem_filter]
      rw [hneg (by rw [← hdisc]; exact hD) t (hpoly t hv)] at ht0 ht1
      exact ⟨by simp, by simp [ht0, ht1]⟩

/-- Test: the curve `32 (t - 1/4)(t - 1/2)(t - 3/4)` of `C57_cubic_false` meets the hypotheses:
all three solutions of `= 0` are found up to `δ < 1/1000`. -/
example : let p : ℝ → PointN ℝ 1 := fun x => PointN.new fun _ => x
    let c := CubicBezier.new (p (-3)) (p (13 / 3)) (p (-13 / 3)) (p 3)
    ∃ ts, c.solveTForAxis 0 0 = some ts ∧
      ∀ t ∈ ({1 / 4, 1 / 2, 3 / 4} : Set ℝ), ∃ t' ∈ ts, |t - t'| ≤ 1 / 1000 := by
  intro p c
  have hcoord : ∀ x, coord (p x) 0 = x := fun x => coord_pn1 x
  have he : eps < 1 / 1000 * (2 / 3) := by
    unfold eps; norm_num
  have hk3 : -coord c.start 0 + 3 * coord c.ctrl1 0 - 3 * coord c.ctrl2 0 + coord c.end_ 0 = 32 := by
    simp only [c, CubicBezier.new, hcoord]; norm_num
  have hk2 : 3 * (coord c.start 0 - 2 * coord c.ctrl1 0 + coord c.ctrl2 0) = -48 := by
    simp only [c, CubicBezier.new, hcoord]; norm_num
  have hk1 : 3 * (coord c.ctrl1 0 - coord c.start 0) = 22 := by
    simp only [c, CubicBezier.new, hcoord]; norm_num
  have hδ : max (Real.sqrt ((-48) ^ 2 - 3 * 32 * 22) / |(32 : ℝ)| / 10 ^ 7) (3 / 2 * eps) ≤ 1 / 1000 := by
    apply max_le
    · have : Real.sqrt ((-48) ^ 2 - 3 * 32 * 22) ≤ 16 := by
        rw [Real.sqrt_le_left (by norm_num)]; norm_num
      rw [abs_of_pos (by norm_num)]
      have h1 := div_le_div_of_nonneg_right (div_le_div_of_nonneg_right this
        (show (0 : ℝ) ≤ 32 by norm_num)) (show (0 : ℝ) ≤ 10 ^ 7 by norm_num)
      exact h1.trans (by norm_num)
    · linarith
  obtain ⟨ts, h1, h2, -⟩ := C57_cubic_complete c 0 0 (by show 0 < 1; norm_num) 32 (-48) 22 (-3) _ _
    hk3.symm hk2.symm hk1.symm (by simp only [c, CubicBezier.new, hcoord]; norm_num) rfl rfl
    (by
      simp only [c, CubicBezier.new, p, pdist_pn1, sq_abs]
      norm_num
      linarith) (by rw [abs_of_pos (by norm_num)]; linarith)
  refine ⟨ts, h1, fun t ht => ?_⟩
  have ev : coord (c.eval t) 0 = 0 := by
    rw [C20_eval]
    simp only [c, CubicBezier.new, hcoord]
    rcases ht with rfl | rfl | rfl <;> norm_num
  have hr : 1 / 4 ≤ t ∧ t ≤ 3 / 4 := by
    rcases ht with rfl | rfl | rfl <;> norm_num
  obtain ⟨t', g1, g2⟩ := h2 t (by linarith [hr.1]) (by linarith [hr.2]) ev
  exact ⟨t', g1, g2.trans hδ⟩

/-- Without the distance to the ends of (0, 1) completeness is false of the code: the curve on the
number line which is `1000 (t - a)(t - 1/2)(t - (1 - a))` with `a = 10⁻⁸` is 0 at `t = a`, but every
parameter returned for the value 0 is greater than 1/4, because the code uses the
single-precision value of π. -/
theorem C57_cubic_complete_false :
    let p : ℝ → PointN ℝ 1 := fun x => PointN.new fun _ => x
    let g : ℝ := 1 / 4 - (1 / 2 - 1 / 10 ^ 8) ^ 2
    let c := CubicBezier.new (p (-500 * g)) (p (-500 * g + 1000 / 3 * (1 / 2 + g)))
      (p (500 * g - 1000 / 3 * (1 / 2 + g))) (p (500 * g))
    eps ≤ pdist c.start c.end_ ^ 2 ∧
    ∃ ts, c.solveTForAxis 0 0 = some ts ∧ coord (c.eval (1 / 10 ^ 8 : ℝ)) 0 = 0 ∧
      ∀ t ∈ ts, 1 / 4 < t := by
  intro p g c
  have hcoord : ∀ x, coord (p x) 0 = x := fun x => coord_pn1 x
  set h : ℝ := 1 / 2 - 1 / 10 ^ 8 with hh
  have hd0 : d0 1000 (-1500) (1000 * (1 / 2 + g)) = -(h ^ 2 / 3) := by
    unfold d0; simp only [g]; ring
  have hd1 : d1 1000 (-1500) (1000 * (1 / 2 + g)) (-500 * g) = 0 := by
    unfold d1; ring
  have hd : d01 1000 (-1500) (1000 * (1 / 2 + g)) (-500 * g) < 0 := by
    unfold d01; rw [hd0, hd1, hh]; norm_num
  have hsq : Real.sqrt (h ^ 2 / 3) * Real.sqrt 3 = h := by
    rw [← Real.sqrt_mul (by positivity), show h ^ 2 / 3 * 3 = h ^ 2 by ring,
      Real.sqrt_sq (by rw [hh]; norm_num)]
  have hs0 : 0 < Real.sqrt (h ^ 2 / 3) := Real.sqrt_pos.2 (by rw [hh]; norm_num)
  have hs1 : Real.sqrt (h ^ 2 / 3) < 1 / 2 := by
    rw [Real.sqrt_lt' (by norm_num), hh]; norm_num
  have hs2 : 86 / 300 < Real.sqrt (h ^ 2 / 3) := by
    rw [Real.lt_sqrt (by norm_num), hh]; norm_num
  have p1 := pi32_gt
  have p2 := pi32_close
  have p3 : 8 / 10 ^ 8 < pi32 - Real.pi := by
    unfold pi32
    have := Real.pi_lt_d20
    norm_num at this ⊢
    linarith
  set x := 2 / 3 * (pi32 - Real.pi) with hx
  have hdeg2 : trigRoot 1000 (-1500) (1000 * (1 / 2 + g)) (-500 * g) (2 * pi32) < 0 := by
    unfold trigRoot
    rw [hd0, hd1]
    simp only [zero_div, Real.arccos_zero, neg_neg]
    have e : (Real.pi / 2 + 2 * pi32) * (1 / 3) = (Real.pi - Real.pi / 6) + x := by rw [hx]; ring
    rw [e, Real.cos_add, Real.cos_pi_sub, Real.sin_pi_sub, Real.cos_pi_div_six,
      Real.sin_pi_div_six]
    have c1 := Real.one_sub_sq_div_two_le_cos (x := x)
    have s1 : x - x ^ 3 / 6 < Real.sin x := Real.sin_gt_sub_cube (by rw [hx]; linarith)
    have x0 : 16 / 3 / 10 ^ 8 < x := by rw [hx]; linarith
    have x1 : x < 6 / 10 ^ 8 := by rw [hx]; linarith
    have x2 : x ^ 2 < 36 / 10 ^ 16 := by
      calc x ^ 2 < (6 / 10 ^ 8) ^ 2 := pow_lt_pow_left₀ x1 (by linarith) (by norm_num)
        _ = _ := by norm_num
    have x3 : x ^ 3 < 216 / 10 ^ 24 := by
      calc x ^ 3 < (6 / 10 ^ 8) ^ 3 := pow_lt_pow_left₀ x1 (by linarith) (by norm_num)
        _ = _ := by norm_num
    have c2 : 1 - 18 / 10 ^ 16 < Real.cos x := by linarith
    have s2 : 53 / 10 ^ 9 < Real.sin x := by linarith
    generalize Real.cos x = C at *
    generalize Real.sin x = W at *
    set q := Real.sqrt (h ^ 2 / 3) with hq
    have e2 : q * 2 * (-(Real.sqrt 3 / 2) * C - 1 / 2 * W) - -1500 / 1000 * (1 / 3)
        = 1 / 2 - (q * Real.sqrt 3) * C - q * W := by ring
    rw [e2, hsq]
    have m1 := mul_lt_mul_of_pos_left c2 (show 0 < h by rw [hh]; norm_num)
    have m2 : 86 / 300 * (53 / 10 ^ 9) < q * W :=
      mul_lt_mul hs2 s2.le (by norm_num) hs0.le
    rw [hh] at m1 ⊢
    clear_value q
    norm_num at m1 m2 ⊢
    linarith
  have h1root : 1 / 4 < trigRoot 1000 (-1500) (1000 * (1 / 2 + g)) (-500 * g) 0 := by
    unfold trigRoot
    rw [hd0, hd1]
    simp only [zero_div, Real.arccos_zero, neg_neg, add_zero]
    rw [show Real.pi / 2 * (1 / 3) = Real.pi / 6 by ring, Real.cos_pi_div_six]
    have := mul_pos hs0 (Real.sqrt_pos.2 (show (0 : ℝ) < 3 by norm_num))
    linarith
  have h3root : 1 / 4 < trigRoot 1000 (-1500) (1000 * (1 / 2 + g)) (-500 * g) (4 * pi32) := by
    unfold trigRoot
    rw [hd0, hd1]
    simp only [zero_div, Real.arccos_zero, neg_neg]
    have hc := Real.abs_cos_sub_cos_le ((Real.pi / 2 + 4 * pi32) * (1 / 3))
      ((Real.pi / 2 + 4 * Real.pi) * (1 / 3))
    rw [show (Real.pi / 2 + 4 * Real.pi) * (1 / 3) = Real.pi + Real.pi / 2 by ring, Real.cos_add_pi_div_two,
      Real.sin_pi, neg_zero, sub_zero,
      show (Real.pi / 2 + 4 * pi32) * (1 / 3) - (Real.pi + Real.pi / 2) = 2 * x by rw [hx]; ring,
      abs_of_nonneg (show 0 ≤ 2 * x by rw [hx]; linarith)] at hc
    have hc2 := (abs_le.1 hc).1
    have hc3 : -(1 / 10) ≤ Real.cos ((Real.pi / 2 + 4 * pi32) * (1 / 3)) := by linarith
    generalize Real.cos ((Real.pi / 2 + 4 * pi32) * (1 / 3)) = C at *
    have := mul_le_mul_of_nonneg_left hc3 hs0.le
    linarith
  obtain ⟨deg, hdeg, rs, hrs, hts⟩ := cubic_solve_eq c 0 (i := 0) (by show 0 < 1; norm_num)
  have e := rootsCubic_eq (a := 1000) (-1500) (1000 * (1 / 2 + g)) (-500 * g)
    (by rw [abs_of_pos (by norm_num)]; linarith [eps_lt_one])
  rw [if_neg (not_le.2 hd)] at e
  have hrs2 : rs = [trigRoot 1000 (-1500) (1000 * (1 / 2 + g)) (-500 * g) 0,
      trigRoot 1000 (-1500) (1000 * (1 / 2 + g)) (-500 * g) (2 * pi32),
      trigRoot 1000 (-1500) (1000 * (1 / 2 + g)) (-500 * g) (4 * pi32)] := by
    have k3 : -coord c.start 0 + 3 * coord c.ctrl1 0 - 3 * coord c.ctrl2 0 + coord c.end_ 0
        = 1000 := by
      simp only [c, CubicBezier.new, hcoord]; ring
    have k2 : 3 * (coord c.start 0 - 2 * coord c.ctrl1 0 + coord c.ctrl2 0) = -1500 := by
      simp only [c, CubicBezier.new, hcoord]; ring
    have k1 : 3 * (coord c.ctrl1 0 - coord c.start 0) = 1000 * (1 / 2 + g) := by
      simp only [c, CubicBezier.new, hcoord]; ring
    have k0 : coord c.start 0 - 0 = -500 * g := by
      simp only [c, CubicBezier.new, hcoord]; ring
    rw [k3, k2, k1, k0, e] at hrs
    exact (Option.some.inj hrs).symm
  refine ⟨?_, _, hts, ?_, ?_⟩
  · simp only [c, CubicBezier.new, p, pdist_pn1, sq_abs, g]
    unfold eps
    norm_num
  · rw [C20_eval]
    simp only [c, CubicBezier.new, hcoord, g]
    norm_num
  · intro t ht
    cases deg with
    | true => simp at ht
    | false =>
      rw [if_neg (by simp), List.mem_filter, hrs2] at ht
      simp only [List.mem_cons, List.not_mem_nil, or_false, Bool.and_eq_true,
        decide_eq_true_eq] at ht
      obtain ⟨ht | ht | ht, ht0, -⟩ := ht
      · rw [ht]; exact h1root
      · rw [ht] at ht0; linarith
      · rw [ht]; exact h3root

end Stroke
