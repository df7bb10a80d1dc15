import Verif.Lemmas.Sampling
import Verif.Lemmas.Cardano
import Verif.Lemmas.SegmentDistance
import Verif.Lemmas.Concrete
import Verif.Props.Cubic

/-!
# Root finding (C55, C56) and `solve_t_for_axis` (C57)

The discriminant of `a x³ + b x² + c x + d` is written out in the statements:
`18abcd - 4b³d + b²c² - 4ac³ - 27a²d²`; it is positive exactly for three distinct real
roots.
-/

namespace Stroke

variable {P : Type} [Point ℝ P] [LawfulPoint P]

/-! ### Quadratic equations -/

/-- **C55**: the quadratic root finder, for all coefficients. -/
theorem C55_roots_square (a b c : ℝ) : ∃ rs, rootsSquare a b c = some rs ∧ rs.length ≤ 2 ∧
    (eps ≤ |a| → 0 < b ^ 2 - 4 * a * c →
      rs.Nodup ∧ rs.length = 2 ∧ ∀ x, x ∈ rs ↔ a * x ^ 2 + b * x + c = 0) ∧
    (eps ≤ |a| → b ^ 2 - 4 * a * c ≤ -eps → rs = [] ∧ ∀ x, a * x ^ 2 + b * x + c ≠ 0) ∧
    (eps ≤ |a| → b ^ 2 - 4 * a * c = 0 → rs = [-b / (2 * a)] ∧
      ∀ x, x ∈ rs ↔ a * x ^ 2 + b * x + c = 0) ∧
    (eps ≤ |a| → -eps < b ^ 2 - 4 * a * c → b ^ 2 - 4 * a * c < 0 → rs = [-b / (2 * a)] ∧
      (∀ x, a * x ^ 2 + b * x + c ≠ 0) ∧
      ∀ x ∈ rs, |a * x ^ 2 + b * x + c| = -(b ^ 2 - 4 * a * c) / (4 * |a|)) ∧
    (|a| < eps → eps ≤ |b| → rs = [-c / b] ∧ ∀ x, x ∈ rs ↔ b * x + c = 0) ∧
    (|a| < eps → |b| < eps → rs = []) := by
  have hD : b * b - a * c * 4 = b ^ 2 - 4 * a * c := by ring
  have h2a : a * 2 = 2 * a := by ring
  have he := eps_pos
  refine ⟨_, rootsSquare_eq a b c, ?_, ?_, ?_, ?_, ?_, ?_, ?_⟩
  · split_ifs <;> simp
  · intro ha hd
    have hne := ne_zero_of_eps_le ha
    rw [if_neg (not_lt.2 ha), if_pos (by rw [hD]; exact hd)]
    have hs : 0 < Real.sqrt (b * b - a * c * 4) := Real.sqrt_pos.2 (by rw [hD]; exact hd)
    refine ⟨?_, rfl, fun x => ?_⟩
    · simp only [List.nodup_cons, List.mem_singleton, List.not_mem_nil, not_false_eq_true,
        List.nodup_nil, and_true]
      intro h
      have h2 : a * 2 ≠ 0 := by simpa using hne
      rw [div_left_inj' h2] at h
      linarith
    · rw [quadratic_roots_iff hne (by rw [hD]; exact hd)]; simp
  · intro ha hd
    have hlt : b * b - a * c * 4 < 0 := by rw [hD]; linarith
    refine ⟨?_, quadratic_no_roots hlt⟩
    rw [if_neg (not_lt.2 ha), if_neg (not_lt.2 hlt.le), if_neg]
    rw [abs_of_neg hlt, hD]; linarith
  · intro ha hd
    have hne := ne_zero_of_eps_le ha
    have e : (if |a| < eps then (if |b| < eps then [] else [-c / b])
        else if 0 < b * b - a * c * 4 then
          [(-b - Real.sqrt (b * b - a * c * 4)) / (a * 2),
            (-b + Real.sqrt (b * b - a * c * 4)) / (a * 2)]
        else if |b * b - a * c * 4| < eps then [-b / (a * 2)] else []) = [-b / (2 * a)] := by
      rw [if_neg (not_lt.2 ha), if_neg (by rw [hD, hd]; exact lt_irrefl 0), if_pos, h2a]
      rw [hD, hd, abs_zero]; exact he
    rw [e]
    refine ⟨rfl, fun x => ?_⟩
    rw [List.mem_singleton]
    have key : 4 * a * (a * x ^ 2 + b * x + c) = (2 * a * x + b) ^ 2 := by
      linear_combination (-1 : ℝ) * hd
    constructor
    · intro h
      have : 2 * a * x + b = 0 := by rw [h]; field_simp; ring
      rw [this] at key
      have h4 : 4 * a ≠ 0 := by simpa using hne
      exact mul_left_cancel₀ h4 (by rw [key]; ring)
    · intro h
      rw [h, mul_zero] at key
      have : 2 * a * x + b = 0 := by
        have := key.symm
        simpa using this
      field_simp; linarith
  · intro ha hd1 hd2
    have hne := ne_zero_of_eps_le ha
    have hlt : b * b - a * c * 4 < 0 := by rw [hD]; exact hd2
    have e : (if |a| < eps then (if |b| < eps then [] else [-c / b])
        else if 0 < b * b - a * c * 4 then
          [(-b - Real.sqrt (b * b - a * c * 4)) / (a * 2),
            (-b + Real.sqrt (b * b - a * c * 4)) / (a * 2)]
        else if |b * b - a * c * 4| < eps then [-b / (a * 2)] else []) = [-b / (2 * a)] := by
      rw [if_neg (not_lt.2 ha), if_neg (not_lt.2 hlt.le), if_pos, h2a]
      rw [abs_of_neg hlt, hD]; linarith
    rw [e]
    refine ⟨rfl, quadratic_no_roots hlt, ?_⟩
    intro x hx
    rw [List.mem_singleton] at hx
    have : a * x ^ 2 + b * x + c = -(b ^ 2 - 4 * a * c) / (4 * a) := by
      rw [hx]; field_simp; ring
    rw [this, abs_div, abs_of_pos (by linarith : 0 < -(b ^ 2 - 4 * a * c)), abs_mul,
      abs_of_pos (by norm_num : (0 : ℝ) < 4)]
  · intro ha hb
    have hne := ne_zero_of_eps_le hb
    rw [if_pos ha, if_neg (not_lt.2 hb)]
    refine ⟨rfl, fun x => ?_⟩
    rw [List.mem_singleton]
    constructor
    · rintro rfl; field_simp; ring
    · intro h; field_simp; linarith
  · intro ha hb
    rw [if_pos ha, if_pos hb]

omit [Point ℝ P] [LawfulPoint P] in
/-- **C55**: the root finder of `QuadraticBezier` is the same function. -/
theorem C55_quadratic_real_roots (q : QuadraticBezier P) (a b c : ℝ) :
    q.realRoots a b c = rootsSquare a b c := rfl

/-- Test: the cases of C55 all occur. -/
example : (eps ≤ |(1 : ℝ)| ∧ 0 < (0 : ℝ) ^ 2 - 4 * 1 * (-1)) ∧
    ((0 : ℝ) ^ 2 - 4 * 1 * 1 ≤ -eps) ∧ ((2 : ℝ) ^ 2 - 4 * 1 * 1 = 0) ∧
    (-eps < (0 : ℝ) ^ 2 - 4 * 1 * (eps / 8) ∧ (0 : ℝ) ^ 2 - 4 * 1 * (eps / 8) < 0) := by
  have := eps_pos
  have := eps_lt_one
  refine ⟨⟨?_, ?_⟩, ?_, ?_, ?_, ?_⟩ <;> norm_num <;> linarith

/-! ### Cubic equations -/

/-- **C56** is false of the code: for `x³ - x` (roots -1, 0, 1) one of the returned
values is strictly below -1 and is not a root, because the code uses the
single-precision value of π in the double-precision formula. -/
theorem C56_false : ∃ rs x, rootsCubic (1 : ℝ) 0 (-1) 0 = some rs ∧ x ∈ rs ∧
    1 * x ^ 3 + 0 * x ^ 2 + (-1) * x + 0 ≠ 0 := by
  have hd0 : d0 1 0 (-1) = -(1 / 3) := by unfold d0; norm_num
  have hd1 : d1 1 0 (-1) 0 = 0 := by unfold d1; norm_num
  have hd : d01 1 0 (-1) 0 < 0 := by unfold d01; rw [hd0, hd1]; norm_num
  refine ⟨_, trigRoot 1 0 (-1) 0 (2 * pi32),
    rootsCubic_eq 0 (-1) 0 (by rw [abs_one]; exact eps_lt_one.le), ?_, ?_⟩
  · rw [if_neg (not_le.2 hd)]; simp
  · have hlt : trigRoot 1 0 (-1) 0 (2 * pi32) < -1 := by
      unfold trigRoot
      rw [hd0, hd1]
      simp only [zero_div, Real.arccos_zero]
      have h1 := pi32_gt
      have h2 := pi32_close
      have h3 := Real.pi_gt_three
      have hc : Real.cos ((Real.pi / 2 + 2 * pi32) * (1 / 3))
          < Real.cos (Real.pi - Real.pi / 6) := by
        apply Real.cos_lt_cos_of_nonneg_of_le_pi <;> linarith
      rw [Real.cos_pi_sub, Real.cos_pi_div_six] at hc
      have hs : Real.sqrt (1 / 3) * Real.sqrt 3 = 1 := by
        rw [← Real.sqrt_mul (by norm_num)]; norm_num
      have hs0 : 0 < Real.sqrt (1 / 3) := Real.sqrt_pos.2 (by norm_num)
      rw [neg_neg, zero_mul, sub_zero]
      nlinarith
    set x := trigRoot 1 0 (-1) 0 (2 * pi32)
    intro h
    nlinarith [mul_pos (show 0 < -1 - x by linarith) (show 0 < -x by linarith)]

/-- **C56** (not more than one distinct real root, or a repeated one): the first value is a real
root.  A second value, if any, has residual at most `9/4 |a| |y + b/(3a)| EPSILON²`
and is a root if the discriminant is 0.  The first value is the only real root if the
discriminant is negative; if it is 0, every real root is returned or within
`3/2 EPSILON` of the first value.  What is missing for the full claim: exactness of the
second value when the discriminant is negative (the code accepts it on `|s - t| < EPSILON`)
and of the values in the three-root case (`C56_false`). -/
theorem C56_one_root_partial (a b c d : ℝ) (ha : eps ≤ |a|)
    (hdisc : 18 * a * b * c * d - 4 * b ^ 3 * d + b ^ 2 * c ^ 2 - 4 * a * c ^ 3
      - 27 * a ^ 2 * d ^ 2 ≤ 0) :
    ∃ x rest, rootsCubic a b c d = some (x :: rest) ∧ rest.length ≤ 1 ∧
      a * x ^ 3 + b * x ^ 2 + c * x + d = 0 ∧
      (∀ y ∈ rest, |a * y ^ 3 + b * y ^ 2 + c * y + d|
        ≤ 9 / 4 * |a| * |y + b / (3 * a)| * eps ^ 2) ∧
      (18 * a * b * c * d - 4 * b ^ 3 * d + b ^ 2 * c ^ 2 - 4 * a * c ^ 3
          - 27 * a ^ 2 * d ^ 2 < 0 →
        ∀ z, a * z ^ 3 + b * z ^ 2 + c * z + d = 0 → z = x) ∧
      (18 * a * b * c * d - 4 * b ^ 3 * d + b ^ 2 * c ^ 2 - 4 * a * c ^ 3
          - 27 * a ^ 2 * d ^ 2 = 0 →
        (∀ y ∈ rest, a * y ^ 3 + b * y ^ 2 + c * y + d = 0) ∧
        ∀ z, a * z ^ 3 + b * z ^ 2 + c * z + d = 0 →
          z ∈ x :: rest ∨ |z - x| < 3 / 2 * eps) := by
  have hne := ne_zero_of_eps_le ha
  have ha4 : 0 < a ^ 4 := by positivity
  rw [d01_disc b c d hne] at hdisc ⊢
  have hd : 0 ≤ d01 a b c d := by
    by_contra h
    have := mul_pos ha4 (neg_pos.2 (not_le.1 h))
    linarith
  obtain ⟨h3, hst⟩ := cs_ct hd
  have hs3 : cs a b c d ^ 3 = d1 a b c d + Real.sqrt (d01 a b c d) := croot_cube _
  have ht3 : ct a b c d ^ 3 = d1 a b c d - Real.sqrt (d01 a b c d) := croot_cube _
  have heq := rootsCubic_eq b c d ha
  rw [if_pos hd] at heq
  -- the polynomial in terms of s and t
  have hpoly : ∀ z, a * z ^ 3 + b * z ^ 2 + c * z + d = 0 ↔
      z = -(b / a) * (1 / 3) + (cs a b c d + ct a b c d) ∨
      (cs a b c d = ct a b c d ∧ z = -(b / a) * (1 / 3) - (cs a b c d + ct a b c d) / 2) := by
    intro z
    have hz : z = -(b / a) * (1 / 3) + (z + b / a * (1 / 3)) := by ring
    have hdep := depressed b c d hne (z + b / a * (1 / 3))
    rw [← hz] at hdep
    rw [hdep, mul_eq_zero, or_iff_right hne]
    have hconv : (z + b / a * (1 / 3)) ^ 3 + 3 * d0 a b c * (z + b / a * (1 / 3))
        - 2 * d1 a b c d = (z + b / a * (1 / 3)) ^ 3
          - 3 * (cs a b c d * ct a b c d) * (z + b / a * (1 / 3))
          - (cs a b c d ^ 3 + ct a b c d ^ 3) := by rw [h3, hst]; ring
    rw [hconv, depressed_roots]
    constructor
    · rintro (h | ⟨h1, h2⟩)
      · left; linarith
      · right; exact ⟨h1, by linarith⟩
    · rintro (h | ⟨h1, h2⟩)
      · left; linarith
      · right; exact ⟨h1, by linarith⟩
  have hres : a * (-(b / a) * (1 / 3) - (cs a b c d + ct a b c d) / 2) ^ 3
      + b * (-(b / a) * (1 / 3) - (cs a b c d + ct a b c d) / 2) ^ 2
      + c * (-(b / a) * (1 / 3) - (cs a b c d + ct a b c d) / 2) + d
      = 9 / 4 * a * (-(cs a b c d + ct a b c d) / 2) * (cs a b c d - ct a b c d) ^ 2 := by
    have hdep := depressed b c d hne (-((cs a b c d + ct a b c d) / 2))
    have e : ∀ u v : ℝ, u - v = u + -v := fun u v => sub_eq_add_neg u v
    rw [e, hdep]
    have h0 : d0 a b c = -(cs a b c d * ct a b c d) := by rw [hst]; ring
    rw [h0, ← h3]; ring
  have hsz : -108 * a ^ 4 * d01 a b c d = 0 → cs a b c d = ct a b c d := by
    intro h
    have hz : d01 a b c d = 0 := by
      rcases mul_eq_zero.1 h with h | h
      · exact absurd h (by nlinarith)
      · exact h
    apply cube_inj
    rw [hs3, ht3, hz, Real.sqrt_zero]; ring
  have hneg : -108 * a ^ 4 * d01 a b c d < 0 → cs a b c d ≠ ct a b c d := by
    intro h hst'
    have hpos : 0 < d01 a b c d := by
      refine lt_of_le_of_ne hd fun h0 => ?_
      rw [← h0] at h; simp at h
    have := Real.sqrt_pos.2 hpos
    rw [hst', ht3] at hs3
    linarith
  by_cases h2 : |cs a b c d - ct a b c d| < eps ∧ eps ≤ |cs a b c d + ct a b c d|
  · rw [if_pos h2] at heq
    refine ⟨_, _, heq, by simp, (hpoly _).2 (Or.inl rfl), ?_, ?_, ?_⟩
    · intro y hy
      rw [List.mem_singleton] at hy
      have hy' : y + b / (3 * a) = -(cs a b c d + ct a b c d) / 2 := by
        rw [hy]; field_simp; ring
      rw [hy'] 
      rw [hy, hres, abs_mul, abs_mul, abs_mul, abs_of_pos (by norm_num : (0 : ℝ) < 9 / 4),
        abs_pow]
      have := pow_le_pow_left₀ (abs_nonneg _) h2.1.le 2
      gcongr
    · intro hn z hz
      rcases (hpoly z).1 hz with h | ⟨h, -⟩
      · exact h
      · exact absurd h (hneg hn)
    · intro hz
      refine ⟨fun y hy => ?_, fun z hzz => ?_⟩
      · rw [List.mem_singleton] at hy
        exact (hpoly y).2 (Or.inr ⟨hsz hz, hy⟩)
      · left
        rcases (hpoly z).1 hzz with h | ⟨-, h⟩ <;> simp [h]
  · rw [if_neg h2] at heq
    refine ⟨_, _, heq, by simp, (hpoly _).2 (Or.inl rfl), by simp, ?_, ?_⟩
    · intro hn z hz
      rcases (hpoly z).1 hz with h | ⟨h, -⟩
      · exact h
      · exact absurd h (hneg hn)
    · intro hz
      refine ⟨by simp, fun z hzz => ?_⟩
      rcases (hpoly z).1 hzz with h | ⟨h', h⟩
      · left; simp [h]
      · right
        have hlt : |cs a b c d + ct a b c d| < eps := by
          by_contra hc
          exact h2 ⟨by rw [h', sub_self, abs_zero]; exact eps_pos, not_lt.1 hc⟩
        have e : z - (-(b / a) * (1 / 3) + (cs a b c d + ct a b c d))
            = -(3 / 2) * (cs a b c d + ct a b c d) := by rw [h]; ring
        rw [e, abs_mul, abs_neg, abs_of_pos (by norm_num : (0 : ℝ) < 3 / 2)]
        linarith

/-- **C56** (three distinct real roots): the code returns three values, the first of which is an
exact root; the other two are within `10⁻⁷ √(b² - 3ac) / |a|` of the other two roots
(the error of the single-precision π), and no root is missed.  What is missing for the full
claim: exactness of the second and third value (`C56_false`). -/
theorem C56_three_roots_partial (a b c d : ℝ) (ha : eps ≤ |a|)
    (hdisc : 0 < 18 * a * b * c * d - 4 * b ^ 3 * d + b ^ 2 * c ^ 2 - 4 * a * c ^ 3
      - 27 * a ^ 2 * d ^ 2) :
    ∃ r1 r2 r3 v2 v3, rootsCubic a b c d = some [r1, v2, v3] ∧
      r2 < r3 ∧ r3 < r1 ∧
      (∀ z, a * z ^ 3 + b * z ^ 2 + c * z + d = 0 ↔ z = r1 ∨ z = r2 ∨ z = r3) ∧
      |v2 - r2| ≤ Real.sqrt (b ^ 2 - 3 * a * c) / |a| / 10 ^ 7 ∧
      |v3 - r3| ≤ Real.sqrt (b ^ 2 - 3 * a * c) / |a| / 10 ^ 7 := by
  have hne := ne_zero_of_eps_le ha
  have ha4 : 0 < a ^ 4 := by positivity
  rw [d01_disc b c d hne] at hdisc
  have hd : d01 a b c d < 0 := by
    by_contra h
    have := mul_nonneg ha4.le (not_lt.1 h)
    linarith
  have heq := rootsCubic_eq b c d ha
  rw [if_neg (not_le.2 hd)] at heq
  obtain ⟨l1, l2⟩ := trig_distinct hd
  have e1 := trig_root hne hd 0
  have e2 := trig_root hne hd 1
  have e3 := trig_root hne hd 2
  rw [show (2 * ((0 : ℕ) : ℝ) * Real.pi) = 0 by simp] at e1
  rw [show (2 * ((1 : ℕ) : ℝ) * Real.pi) = 2 * Real.pi by simp] at e2
  rw [show (2 * ((2 : ℕ) : ℝ) * Real.pi) = 4 * Real.pi by push_cast; ring] at e3
  have hsq : Real.sqrt (-d0 a b c) = Real.sqrt (b ^ 2 - 3 * a * c) / (3 * |a|) := by
    have : -d0 a b c = (b ^ 2 - 3 * a * c) / (3 * |a|) ^ 2 := by
      rw [mul_pow, sq_abs]; unfold d0; field_simp; ring
    rw [this, Real.sqrt_div' _ (sq_nonneg _), Real.sqrt_sq (by positivity)]
  have hpa : 0 < |a| := abs_pos.2 hne
  have hS := Real.sqrt_nonneg (b ^ 2 - 3 * a * c)
  have hq : 0 ≤ Real.sqrt (b ^ 2 - 3 * a * c) / |a| := by positivity
  have hp := pi32_close
  have hp' := pi32_gt
  have herr : ∀ k : ℝ, 0 ≤ k → k ≤ 4 →
      |trigRoot a b c d (k * pi32) - trigRoot a b c d (k * Real.pi)|
        ≤ Real.sqrt (b ^ 2 - 3 * a * c) / |a| / 10 ^ 7 := by
    intro k hk hk4
    refine (trig_error a b c d k hk).trans ?_
    rw [hsq]
    have e : Real.sqrt (b ^ 2 - 3 * a * c) / (3 * |a|) * 2 * (k * (pi32 - Real.pi) / 3)
        = Real.sqrt (b ^ 2 - 3 * a * c) / |a| * (k * (pi32 - Real.pi) * (2 / 9)) := by
      field_simp; ring
    rw [e, div_eq_mul_inv _ ((10 : ℝ) ^ 7)]
    apply mul_le_mul_of_nonneg_left _ hq
    have : k * (pi32 - Real.pi) ≤ 4 * (9 / 10 ^ 8) := by
      apply mul_le_mul hk4 hp.le (by linarith) (by norm_num)
    norm_num at this ⊢
    linarith
  refine ⟨_, trigRoot a b c d (2 * Real.pi), trigRoot a b c d (4 * Real.pi), _, _, heq, l1, l2, ?_,
    herr 2 (by norm_num) (by norm_num), herr 4 (by norm_num) (by norm_num)⟩
  intro z
  constructor
  · intro hz
    exact three_roots hne (l1.trans l2).ne' l2.ne' l1.ne e1 e2 e3 hz
  · rintro (rfl | rfl | rfl)
    · exact e1
    · exact e2
    · exact e3

/-- **C56** (degenerate leading coefficient): the quadratic root finder takes over. -/
theorem C56_degenerate (a b c d : ℝ) (ha : |a| < eps) :
    rootsCubic a b c d = rootsSquare b c d := rootsCubic_small b c d ha

omit [Point ℝ P] [LawfulPoint P] in
/-- **C56**: the root finder of `CubicBezier` is the same function. -/
theorem C56_cubic_real_roots (cb : CubicBezier P) (a b c d : ℝ) :
    cb.realRoots a b c d = rootsCubic a b c d := rfl

/-- Test: the discriminant hypotheses are met: `x³ - x`, `x³ - 3x + 2`, `x³ + x`. -/
example : (0 : ℝ) < 18 * 1 * 0 * (-1) * 0 - 4 * 0 ^ 3 * 0 + 0 ^ 2 * (-1) ^ 2 - 4 * 1 * (-1) ^ 3
      - 27 * 1 ^ 2 * 0 ^ 2 ∧
    (18 * 1 * 0 * (-3) * 2 - 4 * 0 ^ 3 * 2 + 0 ^ 2 * (-3) ^ 2 - 4 * 1 * (-3) ^ 3
      - 27 * 1 ^ 2 * 2 ^ 2 : ℝ) = 0 ∧
    (18 * 1 * 0 * 1 * 0 - 4 * 0 ^ 3 * 0 + 0 ^ 2 * 1 ^ 2 - 4 * 1 * 1 ^ 3
      - 27 * 1 ^ 2 * 0 ^ 2 : ℝ) < 0 := by norm_num

/-! ### `solve_t_for_axis` -/

theorem keepInside_eq (l : List ℝ) (hl : l.length ≤ 3) :
    keepInside l = some (l.filter fun r => decide (0 < r) && decide (r < 1)) := by
  unfold keepInside
  have : ∀ (l acc : List ℝ), acc.length + l.length ≤ 3 →
      l.foldlM (fun result root =>
        if Scalar.lt (lit 0) root && Scalar.lt root (lit 1) then avPush 3 result root
        else some result) acc
        = some (acc ++ l.filter fun r => decide (0 < r) && decide (r < 1)) := by
    intro l
    induction l with
    | nil => intro acc _; simp
    | cons x xs ih =>
      intro acc h
      simp only [List.length_cons] at h
      rw [List.foldlM_cons]
      by_cases hx : 0 < x ∧ x < 1
      · have h1 : (Scalar.lt (lit 0) x && Scalar.lt x (lit 1)) = true := by simp [hx.1, hx.2]
        rw [if_pos h1, avPush_some _ (by omega)]
        simp only [Option.bind_eq_bind, Option.bind_some]
        rw [ih _ (by simp; omega), List.filter_cons_of_pos (by simp [hx.1, hx.2])]
        simp
      · have h1 : ¬ (Scalar.lt (lit 0) x && Scalar.lt x (lit 1)) = true := by
          simpa using hx
        rw [if_neg h1]
        simp only [Option.bind_eq_bind, Option.bind_some]
        rw [ih _ (by omega), List.filter_cons_of_neg (by simpa using hx)]
  simpa using this l [] (by simpa using hl)

theorem rootsSquare_length (a b c : ℝ) : ∃ rs, rootsSquare a b c = some rs ∧ rs.length ≤ 2 := by
  obtain ⟨rs, h, hl, -⟩ := C55_roots_square a b c
  exact ⟨rs, h, hl⟩

theorem rootsCubic_length (a b c d : ℝ) : ∃ rs, rootsCubic a b c d = some rs ∧ rs.length ≤ 3 := by
  by_cases ha : |a| < eps
  · rw [rootsCubic_small b c d ha]
    obtain ⟨rs, h, hl⟩ := rootsSquare_length b c d
    exact ⟨rs, h, by omega⟩
  · refine ⟨_, rootsCubic_eq b c d (not_lt.1 ha), ?_⟩
    split_ifs <;> simp

theorem quad_colinear_some (q : QuadraticBezier P) (tol : ℝ) :
    ∃ b, q.arePointsColinear tol = some b := by
  unfold QuadraticBezier.arePointsColinear
  simp only []
  rw [distanceToPoint_eq]
  exact ⟨_, rfl⟩

/-- What `QuadraticBezier::solve_t_for_axis` returns. -/
theorem quad_solve_eq (q : QuadraticBezier P) (v : ℝ) {i : ℕ} (hi : i < Point.dim P) :
    ∃ degenerate : Bool, (degenerate = true → pdist q.start q.end_ ^ 2 < eps) ∧
    ∃ rs, rootsSquare (coord q.start i - 2 * coord q.ctrl i + coord q.end_ i)
        (2 * (coord q.ctrl i - coord q.start i)) (coord q.start i - v) = some rs ∧
    q.solveTForAxis v i = some (if degenerate then []
      else rs.filter fun r => decide (0 < r) && decide (r < 1)) := by
  unfold QuadraticBezier.solveTForAxis
  obtain ⟨rs, hrs, hl⟩ := rootsSquare_length
    (coord q.start i - 2 * coord q.ctrl i + coord q.end_ i)
    (2 * (coord q.ctrl i - coord q.start i)) (coord q.start i - v)
  have hlast : ((Point.axis q.start i).bind fun s => (Point.axis q.ctrl i).bind fun k =>
      (Point.axis q.end_ i).bind fun e => (q.realRoots (s + k * lit (-2) + e)
        (s * lit (-2) + k * lit 2) (s - v)).bind fun roots => keepInside roots)
      = some (rs.filter fun r => decide (0 < r) && decide (r < 1)) := by
    rw [axis_eq _ hi, axis_eq _ hi, axis_eq _ hi]
    simp only [Option.bind_some, lit_real]
    have ea : coord q.start i + coord q.ctrl i * ((-2 : ℚ) : ℝ) + coord q.end_ i
        = coord q.start i - 2 * coord q.ctrl i + coord q.end_ i := by push_cast; ring
    have eb : coord q.start i * ((-2 : ℚ) : ℝ) + coord q.ctrl i * ((2 : ℚ) : ℝ)
        = 2 * (coord q.ctrl i - coord q.start i) := by push_cast; ring
    rw [ea, eb, C55_quadratic_real_roots, hrs]
    simp only [Option.bind_some]
    exact keepInside_eq rs (by omega)
  unfold keepInside at hlast
  by_cases hp : q.isAPoint (Scalar.epsilon : ℝ) = true
  · refine ⟨true, fun _ => ?_, rs, hrs, ?_⟩
    · unfold QuadraticBezier.isAPoint at hp
      simp only [squaredLength_sub, le_real, epsilon_real, Bool.and_eq_true, decide_eq_true_eq] at hp
      have := eps_pos
      have := eps_lt_one
      nlinarith [hp.1]
    · rw [if_pos hp]; rfl
  · rw [if_neg hp]
    obtain ⟨col, hcol⟩ := quad_colinear_some q (lit 0)
    rw [hcol]
    simp only [Option.bind_eq_bind, Option.bind_some, Option.pure_def]
    refine ⟨col && Scalar.lt (Point.squaredLength (q.start - q.end_)) Scalar.epsilon,
      fun h => ?_, rs, hrs, ?_⟩
    · rw [Bool.and_eq_true] at h
      have := h.2
      rwa [squaredLength_sub, lt_real, epsilon_real, decide_eq_true_eq] at this
    · rw [hlast, ← apply_ite some]

/-- **C57** (quadratic): every returned parameter lies in (0, 1).  It hits the value
exactly when the leading coefficient is at least EPSILON and the discriminant is not in
(-EPSILON, 0); otherwise the residual is as stated.  `a`, `b`, `c` are the coefficients of
`eval(t)_i - value`.  What is missing for the full claim: exactness in the other cases, which
fails (`C57_false`). -/
theorem C57_quadratic_partial (q : QuadraticBezier P) (v : ℝ) (i : ℕ) (hi : i < Point.dim P)
    (a b c : ℝ) (ha : a = coord q.start i - 2 * coord q.ctrl i + coord q.end_ i)
    (hb : b = 2 * (coord q.ctrl i - coord q.start i)) (hc : c = coord q.start i - v) :
    ∃ ts, q.solveTForAxis v i = some ts ∧ ∀ t ∈ ts, 0 < t ∧ t < 1 ∧
      (eps ≤ |a| → ¬ (-eps < b ^ 2 - 4 * a * c ∧ b ^ 2 - 4 * a * c < 0) →
        coord (q.eval t) i = v) ∧
      (eps ≤ |a| → |coord (q.eval t) i - v| ≤ eps / (4 * |a|)) ∧
      (|a| < eps → |coord (q.eval t) i - v| < eps) ∧
      (a = 0 → coord (q.eval t) i = v) := by
  obtain ⟨deg, -, rs, hrs, h⟩ := quad_solve_eq q v hi
  refine ⟨_, h, ?_⟩
  intro t ht
  cases deg with
  | true => simp at ht
  | false =>
    rw [if_neg (by simp)] at ht
    rw [List.mem_filter] at ht
    simp only [Bool.and_eq_true, decide_eq_true_eq] at ht
    obtain ⟨hmem, ht0, ht1⟩ := ht
    have hpoly : coord (q.eval t) i - v = a * t ^ 2 + b * t + c := by
      rw [C10_eval, ha, hb, hc]; ring
    rw [← ha, ← hb, ← hc] at hrs
    obtain ⟨rs', hrs', -, p1, p2, p3, p4, p5, p6⟩ := C55_roots_square a b c
    rw [hrs] at hrs'
    obtain rfl := Option.some.inj hrs'
    have he := eps_pos
    have hlin : |a| < eps → b * t + c = 0 := by
      intro hA
      by_cases hB : |b| < eps
      · rw [p6 hA hB] at hmem; simp at hmem
      · exact ((p5 hA (not_lt.1 hB)).2 t).1 hmem
    have hex : eps ≤ |a| → ¬ (-eps < b ^ 2 - 4 * a * c ∧ b ^ 2 - 4 * a * c < 0) →
        coord (q.eval t) i = v := by
      intro hA hD
      have : a * t ^ 2 + b * t + c = 0 := by
        rcases lt_trichotomy 0 (b ^ 2 - 4 * a * c) with h0 | h0 | h0
        · exact ((p1 hA h0).2.2 t).1 hmem
        · exact ((p3 hA h0.symm).2 t).1 hmem
        · by_cases h1 : -eps < b ^ 2 - 4 * a * c
          · exact absurd ⟨h1, h0⟩ hD
          · rw [(p2 hA (not_lt.1 h1)).1] at hmem; simp at hmem
      linarith
    refine ⟨ht0, ht1, hex, ?_, ?_, ?_⟩
    · intro hA
      have hpa : 0 < |a| := lt_of_lt_of_le he hA
      by_cases hD : -eps < b ^ 2 - 4 * a * c ∧ b ^ 2 - 4 * a * c < 0
      · rw [hpoly, (p4 hA hD.1 hD.2).2.2 t hmem]
        apply div_le_div_of_nonneg_right _ (by positivity)
        linarith [hD.1]
      · rw [hex hA hD, sub_self, abs_zero]; positivity
    · intro hA
      have hl := hlin hA
      have e : a * t ^ 2 + b * t + c = a * t ^ 2 := by linarith
      rw [hpoly, e, abs_mul, abs_of_nonneg (sq_nonneg t)]
      have : t ^ 2 ≤ 1 := by nlinarith
      nlinarith [abs_nonneg a]
    · intro hA
      have hl := hlin (by rw [hA, abs_zero]; exact he)
      have : coord (q.eval t) i - v = 0 := by
        rw [hpoly, hA]; linarith
      linarith

/-- **C57** (quadratic, completeness): if the end points are distinguishable and the leading
coefficient is at least EPSILON, every parameter in (0, 1) that hits the value is
returned. -/
theorem C57_quadratic_complete (q : QuadraticBezier P) (v : ℝ) (i : ℕ) (hi : i < Point.dim P)
    (hse : eps ≤ pdist q.start q.end_ ^ 2)
    (ha : eps ≤ |coord q.start i - 2 * coord q.ctrl i + coord q.end_ i|) :
    ∃ ts, q.solveTForAxis v i = some ts ∧
      ∀ t, 0 < t → t < 1 → coord (q.eval t) i = v → t ∈ ts := by
  obtain ⟨deg, hdeg, rs, hrs, h⟩ := quad_solve_eq q v hi
  refine ⟨_, h, ?_⟩
  cases deg with
  | true => exact absurd (hdeg rfl) (not_lt.2 hse)
  | false =>
    intro t ht0 ht1 hv
    rw [if_neg (by simp), List.mem_filter]
    refine ⟨?_, by simp [ht0, ht1]⟩
    obtain ⟨rs', hrs', -, p1, p2, p3, p4, -, -⟩ := C55_roots_square
      (coord q.start i - 2 * coord q.ctrl i + coord q.end_ i)
      (2 * (coord q.ctrl i - coord q.start i)) (coord q.start i - v)
    rw [hrs] at hrs'
    obtain rfl := Option.some.inj hrs'
    have hz : (coord q.start i - 2 * coord q.ctrl i + coord q.end_ i) * t ^ 2
        + (2 * (coord q.ctrl i - coord q.start i)) * t + (coord q.start i - v) = 0 := by
      rw [← hv, C10_eval]; ring
    set D := (2 * (coord q.ctrl i - coord q.start i)) ^ 2
      - 4 * (coord q.start i - 2 * coord q.ctrl i + coord q.end_ i) * (coord q.start i - v) with hD
    rcases lt_trichotomy 0 D with h0 | h0 | h0
    · exact ((p1 ha h0).2.2 t).2 hz
    · exact ((p3 ha h0.symm).2 t).2 hz
    · by_cases h1 : -eps < D
      · exact absurd hz ((p4 ha h1 h0).2.1 t)
      · exact absurd hz ((p2 ha (not_lt.1 h1)).2 t)

/-- Test: the hypotheses of both theorems are met by a concrete curve and value. -/
example : let q := QuadraticBezier.new (pt2 0 0) (pt2 1 2) (pt2 2 0)
    eps ≤ pdist q.start q.end_ ^ 2 ∧
    eps ≤ |coord q.start 1 - 2 * coord q.ctrl 1 + coord q.end_ 1| ∧
    coord (q.eval (1 / 2 : ℝ)) 1 = 1 := by
  have := eps_lt_one
  simp only [QuadraticBezier.new, coord_pt2_1, pdist_pt2]
  refine ⟨?_, ?_, ?_⟩
  · rw [Real.sq_sqrt (by norm_num)]; norm_num; linarith
  · norm_num; linarith
  · rw [C10_eval]; norm_num

/-- **C57** is false of the code for quadratic curves: on the y axis this curve stays
near 1/4, yet solving for the value 0 returns the parameter 1/2. -/
theorem C57_quadratic_false :
    let q := QuadraticBezier.new (pt2 0 (1 / 4)) (pt2 (1 / 2) (1 / 4 - eps / 2)) (pt2 1 (1 / 4))
    ∃ ts, q.solveTForAxis 0 1 = some ts ∧ (1 / 2 : ℝ) ∈ ts ∧
      1 / 8 ≤ coord (q.eval (1 / 2 : ℝ)) 1 := by
  intro q
  have he := eps_pos
  have he1 := eps_lt_one
  obtain ⟨deg, hdeg, rs, hrs, h⟩ := quad_solve_eq q 0 (i := 1) (by show 1 < 2; norm_num)
  refine ⟨_, h, ?_, ?_⟩
  · cases deg with
    | true =>
      have := hdeg rfl
      simp only [q, QuadraticBezier.new, pdist_pt2] at this
      rw [Real.sq_sqrt (by positivity)] at this
      norm_num at this
      linarith
    | false =>
      rw [if_neg (by simp), List.mem_filter]
      refine ⟨?_, by norm_num⟩
      simp only [q, QuadraticBezier.new, coord_pt2_1] at hrs
      obtain ⟨rs', hrs', -, -, -, -, p4, -, -⟩ := C55_roots_square
        (1 / 4 - 2 * (1 / 4 - eps / 2) + 1 / 4) (2 * (1 / 4 - eps / 2 - 1 / 4)) (1 / 4 - 0)
      rw [hrs] at hrs'
      obtain rfl := Option.some.inj hrs'
      have hA : (1 / 4 - 2 * (1 / 4 - eps / 2) + 1 / 4 : ℝ) = eps := by ring
      rw [hA] at p4
      have hp4 := (p4 (le_abs_self _) (by nlinarith) (by nlinarith)).1
      rw [hp4, List.mem_singleton]
      field_simp; ring
  · rw [C10_eval]
    simp only [q, QuadraticBezier.new, coord_pt2_1]
    have : eps < 1 / 2 := by unfold eps; norm_num
    linarith

theorem cubic_colinear_some (c : CubicBezier P) (tol : ℝ) :
    ∃ b, c.arePointsColinear tol = some b := by
  unfold CubicBezier.arePointsColinear
  simp only []
  rw [distanceToPoint_eq, distanceToPoint_eq]
  simp only [Option.bind_eq_bind, Option.bind_some]
  exact ⟨_, (apply_ite some _ _ _).symm⟩

/-- What `CubicBezier::solve_t_for_axis` returns. -/
theorem cubic_solve_eq (c : CubicBezier P) (v : ℝ) {i : ℕ} (hi : i < Point.dim P) :
    ∃ degenerate : Bool, (degenerate = true → pdist c.start c.end_ ^ 2 < eps) ∧
    ∃ rs, rootsCubic
        (-coord c.start i + 3 * coord c.ctrl1 i - 3 * coord c.ctrl2 i + coord c.end_ i)
        (3 * (coord c.start i - 2 * coord c.ctrl1 i + coord c.ctrl2 i))
        (3 * (coord c.ctrl1 i - coord c.start i)) (coord c.start i - v) = some rs ∧
    c.solveTForAxis v i = some (if degenerate then []
      else rs.filter fun r => decide (0 < r) && decide (r < 1)) := by
  unfold CubicBezier.solveTForAxis
  obtain ⟨rs, hrs, hl⟩ := rootsCubic_length
    (-coord c.start i + 3 * coord c.ctrl1 i - 3 * coord c.ctrl2 i + coord c.end_ i)
    (3 * (coord c.start i - 2 * coord c.ctrl1 i + coord c.ctrl2 i))
    (3 * (coord c.ctrl1 i - coord c.start i)) (coord c.start i - v)
  have hlast : ((Point.axis c.start i).bind fun p0 => (Point.axis c.ctrl1 i).bind fun p1 =>
      (Point.axis c.ctrl2 i).bind fun p2 => (Point.axis c.end_ i).bind fun p3 =>
        (c.realRoots (-p0 + p1 * lit 3 - p2 * lit 3 + p3) (p0 * lit 3 - p1 * lit 6 + p2 * lit 3)
          (-p0 * lit 3 + p1 * lit 3) (p0 - v)).bind fun roots => keepInside roots)
      = some (rs.filter fun r => decide (0 < r) && decide (r < 1)) := by
    rw [axis_eq _ hi, axis_eq _ hi, axis_eq _ hi, axis_eq _ hi]
    simp only [Option.bind_some, lit_real]
    have ea : -coord c.start i + coord c.ctrl1 i * ((3 : ℚ) : ℝ) - coord c.ctrl2 i * ((3 : ℚ) : ℝ)
        + coord c.end_ i
        = -coord c.start i + 3 * coord c.ctrl1 i - 3 * coord c.ctrl2 i + coord c.end_ i := by
      push_cast; ring
    have eb : coord c.start i * ((3 : ℚ) : ℝ) - coord c.ctrl1 i * ((6 : ℚ) : ℝ)
        + coord c.ctrl2 i * ((3 : ℚ) : ℝ)
        = 3 * (coord c.start i - 2 * coord c.ctrl1 i + coord c.ctrl2 i) := by push_cast; ring
    have ec : -coord c.start i * ((3 : ℚ) : ℝ) + coord c.ctrl1 i * ((3 : ℚ) : ℝ)
        = 3 * (coord c.ctrl1 i - coord c.start i) := by push_cast; ring
    rw [ea, eb, ec, C56_cubic_real_roots, hrs]
    simp only [Option.bind_some]
    exact keepInside_eq rs hl
  unfold keepInside at hlast
  by_cases hp : c.isAPoint (Scalar.epsilon : ℝ) = true
  · refine ⟨true, fun _ => ?_, rs, hrs, ?_⟩
    · unfold CubicBezier.isAPoint at hp
      simp only [squaredLength_sub, le_real, epsilon_real, Bool.and_eq_true, decide_eq_true_eq] at hp
      have := eps_pos
      have := eps_lt_one
      nlinarith [hp.1.1]
    · rw [if_pos hp]; rfl
  · rw [if_neg hp]
    obtain ⟨col, hcol⟩ := cubic_colinear_some c (Scalar.epsilon : ℝ)
    rw [hcol]
    simp only [Option.bind_eq_bind, Option.bind_some, Option.pure_def]
    refine ⟨col && Scalar.lt (Point.squaredLength (c.start - c.end_)) Scalar.epsilon,
      fun h => ?_, rs, hrs, ?_⟩
    · rw [Bool.and_eq_true] at h
      have := h.2
      rwa [squaredLength_sub, lt_real, epsilon_real, decide_eq_true_eq] at this
    · rw [hlast, ← apply_ite some]

/-- **C57** (cubic): every returned parameter lies in (0, 1).  With `k3 … k0` the
coefficients of `eval(t)_i - value` and the leading one at least EPSILON:
* discriminant 0: the value is hit exactly;
* discriminant negative: it is hit exactly or up to `9/4 |k3| |t + k2/(3 k3)| EPSILON²`;
* discriminant positive: `t` is within `10⁻⁷ √(k2² - 3 k3 k1) / |k3|` of a parameter that
  hits it exactly.
With a smaller leading coefficient the residual is below `EPSILON + EPSILON / (4 |k2|)`,
and below `2 EPSILON` if `|k2| < EPSILON`.
What is missing for the full claim: exactness in the other cases, which fails
(`C57_cubic_false`). -/
theorem C57_cubic_partial (c : CubicBezier P) (v : ℝ) (i : ℕ) (hi : i < Point.dim P)
    (k3 k2 k1 k0 disc : ℝ)
    (h3 : k3 = -coord c.start i + 3 * coord c.ctrl1 i - 3 * coord c.ctrl2 i + coord c.end_ i)
    (h2 : k2 = 3 * (coord c.start i - 2 * coord c.ctrl1 i + coord c.ctrl2 i))
    (h1 : k1 = 3 * (coord c.ctrl1 i - coord c.start i)) (h0 : k0 = coord c.start i - v)
    (hdisc : disc = 18 * k3 * k2 * k1 * k0 - 4 * k2 ^ 3 * k0 + k2 ^ 2 * k1 ^ 2 - 4 * k3 * k1 ^ 3
      - 27 * k3 ^ 2 * k0 ^ 2) :
    ∃ ts, c.solveTForAxis v i = some ts ∧ ts.length ≤ 3 ∧ ∀ t ∈ ts, 0 < t ∧ t < 1 ∧
      (eps ≤ |k3| → disc = 0 → coord (c.eval t) i = v) ∧
      (eps ≤ |k3| → disc < 0 → coord (c.eval t) i = v ∨
        |coord (c.eval t) i - v| ≤ 9 / 4 * |k3| * |t + k2 / (3 * k3)| * eps ^ 2) ∧
      (eps ≤ |k3| → 0 < disc → ∃ r : ℝ, coord (c.eval r) i = v ∧
        |t - r| ≤ Real.sqrt (k2 ^ 2 - 3 * k3 * k1) / |k3| / 10 ^ 7) ∧
      (|k3| < eps → eps ≤ |k2| → |coord (c.eval t) i - v| < eps + eps / (4 * |k2|)) ∧
      (|k3| < eps → |k2| < eps → |coord (c.eval t) i - v| < 2 * eps) := by
  obtain ⟨deg, -, rs, hrs, h⟩ := cubic_solve_eq c v hi
  rw [← h3, ← h2, ← h1, ← h0] at hrs
  have hlen : rs.length ≤ 3 := by
    obtain ⟨rs', hrs', hl⟩ := rootsCubic_length k3 k2 k1 k0
    rw [hrs] at hrs'
    rwa [Option.some.inj hrs']
  refine ⟨_, h, ?_, ?_⟩
  · cases deg with
    | true => simp
    | false =>
      rw [if_neg (by simp)]
      exact (List.length_filter_le _ _).trans hlen
  intro t ht
  cases deg with
  | true => simp at ht
  | false =>
    rw [if_neg (by simp), List.mem_filter] at ht
    simp only [Bool.and_eq_true, decide_eq_true_eq] at ht
    obtain ⟨hmem, ht0, ht1⟩ := ht
    have hpoly : ∀ u : ℝ, coord (c.eval u) i - v = k3 * u ^ 3 + k2 * u ^ 2 + k1 * u + k0 := by
      intro u
      rw [C20_eval, h3, h2, h1, h0]; ring
    have he := eps_pos
    have ht3 : 0 < t ^ 3 ∧ t ^ 3 < 1 := ⟨by positivity, by
      have := pow_lt_one₀ ht0.le ht1 (n := 3) (by norm_num); exact this⟩
    have hk3 : |k3| < eps → |k3 * t ^ 3| < eps := by
      intro hA
      rw [abs_mul, abs_of_pos ht3.1]
      nlinarith [abs_nonneg k3, ht3.1, ht3.2]
    refine ⟨ht0, ht1, ?_, ?_, ?_, ?_, ?_⟩
    · intro hA hD
      obtain ⟨x, rest, hx, -, hxr, -, -, hz⟩ := C56_one_root_partial k3 k2 k1 k0 hA
        (by rw [← hdisc, hD])
      rw [hrs] at hx
      obtain rfl := Option.some.inj hx
      have : coord (c.eval t) i - v = 0 := by
        rw [hpoly]
        rcases List.mem_cons.1 hmem with e | e
        · rw [e]; exact hxr
        · exact (hz (by rw [← hdisc, hD])).1 t e
      linarith
    · intro hA hD
      obtain ⟨x, rest, hx, -, hxr, hrest, -, -⟩ := C56_one_root_partial k3 k2 k1 k0 hA
        (by rw [← hdisc]; exact hD.le)
      rw [hrs] at hx
      obtain rfl := Option.some.inj hx
      rcases List.mem_cons.1 hmem with e | e
      · left
        have : coord (c.eval t) i - v = 0 := by rw [hpoly, e]; exact hxr
        linarith
      · right; rw [hpoly]; exact hrest t e
    · intro hA hD
      obtain ⟨r1, r2, r3, v2, v3, hx, -, -, hroots, e2, e3⟩ :=
        C56_three_roots_partial k3 k2 k1 k0 hA (by rw [← hdisc]; exact hD)
      rw [hrs] at hx
      obtain rfl := Option.some.inj hx
      have hr : ∀ r, r = r1 ∨ r = r2 ∨ r = r3 → coord (c.eval r) i = v := by
        intro r hr
        have := hpoly r
        rw [(hroots r).2 hr] at this
        linarith
      simp only [List.mem_cons, List.not_mem_nil, or_false] at hmem
      rcases hmem with rfl | rfl | rfl
      · exact ⟨t, hr t (Or.inl rfl), by rw [sub_self, abs_zero]; positivity⟩
      · exact ⟨r2, hr r2 (Or.inr (Or.inl rfl)), e2⟩
      · exact ⟨r3, hr r3 (Or.inr (Or.inr rfl)), e3⟩
    · intro hA hB
      rw [rootsCubic_small k2 k1 k0 hA] at hrs
      obtain ⟨rs', hrs', -, p1, p2, p3, p4, -, -⟩ := C55_roots_square k2 k1 k0
      rw [hrs] at hrs'
      obtain rfl := Option.some.inj hrs'
      have hk := hk3 hA
      have hpb : 0 < |k2| := lt_of_lt_of_le he hB
      have hq : |k2 * t ^ 2 + k1 * t + k0| ≤ eps / (4 * |k2|) := by
        rcases lt_trichotomy 0 (k1 ^ 2 - 4 * k2 * k0) with g | g | g
        · rw [((p1 hB g).2.2 t).1 hmem, abs_zero]; positivity
        · rw [((p3 hB g.symm).2 t).1 hmem, abs_zero]; positivity
        · by_cases g1 : -eps < k1 ^ 2 - 4 * k2 * k0
          · rw [(p4 hB g1 g).2.2 t hmem]
            apply div_le_div_of_nonneg_right _ (by positivity)
            linarith
          · rw [(p2 hB (not_lt.1 g1)).1] at hmem; simp at hmem
      rw [hpoly]
      calc |k3 * t ^ 3 + k2 * t ^ 2 + k1 * t + k0|
          = |k3 * t ^ 3 + (k2 * t ^ 2 + k1 * t + k0)| := by congr 1; ring
        _ ≤ |k3 * t ^ 3| + |k2 * t ^ 2 + k1 * t + k0| := abs_add_le _ _
        _ < _ := by linarith
    · intro hA hB
      rw [rootsCubic_small k2 k1 k0 hA] at hrs
      obtain ⟨rs', hrs', -, -, -, -, -, p5, p6⟩ := C55_roots_square k2 k1 k0
      rw [hrs] at hrs'
      obtain rfl := Option.some.inj hrs'
      have hk := hk3 hA
      have hl : k1 * t + k0 = 0 := by
        by_cases hC : |k1| < eps
        · rw [p6 hB hC] at hmem; simp at hmem
        · exact ((p5 hB (not_lt.1 hC)).2 t).1 hmem
      have hk2 : |k2 * t ^ 2| < eps := by
        rw [abs_mul, abs_of_pos (by positivity : 0 < t ^ 2)]
        have : t ^ 2 < 1 := by nlinarith
        nlinarith [abs_nonneg k2, sq_nonneg t]
      rw [hpoly]
      calc |k3 * t ^ 3 + k2 * t ^ 2 + k1 * t + k0|
          = |k3 * t ^ 3 + k2 * t ^ 2| := by congr 1; linarith
        _ ≤ |k3 * t ^ 3| + |k2 * t ^ 2| := abs_add_le _ _
        _ < _ := by linarith

/-- **C57** is false of the code for cubic curves: the curve on the number line with
control points -3, 13/3, -13/3, 3 is `32 (t - 1/4)(t - 1/2)(t - 3/4)`; solving it
for 0 returns a parameter below 1/4, where the curve is not 0. -/
theorem C57_cubic_false :
    let p : ℝ → PointN ℝ 1 := fun x => PointN.new fun _ => x
    let c := CubicBezier.new (p (-3)) (p (13 / 3)) (p (-13 / 3)) (p 3)
    ∃ ts t, c.solveTForAxis 0 0 = some ts ∧ t ∈ ts ∧ coord (c.eval t) 0 ≠ 0 := by
  intro p c
  obtain ⟨deg, hdeg, rs, hrs, h⟩ := cubic_solve_eq c 0 (i := 0) (by show 0 < 1; norm_num)
  have he1 := eps_lt_one
  have hcoord : ∀ x, coord (p x) 0 = x := fun x => coord_pn1 x
  have hd0 : d0 32 (-48) 22 = -(1 / 48) := by unfold d0; norm_num
  have hd1 : d1 32 (-48) 22 (-3) = 0 := by unfold d1; norm_num
  have hd : d01 32 (-48) 22 (-3) < 0 := by unfold d01; rw [hd0, hd1]; norm_num
  have hlt : trigRoot 32 (-48) 22 (-3) (2 * pi32) < 1 / 4 ∧
      0 < trigRoot 32 (-48) 22 (-3) (2 * pi32) := by
    unfold trigRoot
    rw [hd0, hd1]
    simp only [zero_div, Real.arccos_zero]
    have h1 := pi32_gt
    have h2 := pi32_close
    have h3 := Real.pi_gt_three
    have hc : Real.cos ((Real.pi / 2 + 2 * pi32) * (1 / 3))
        < Real.cos (Real.pi - Real.pi / 6) := by
      apply Real.cos_lt_cos_of_nonneg_of_le_pi <;> linarith
    have hc1 := Real.neg_one_le_cos ((Real.pi / 2 + 2 * pi32) * (1 / 3))
    rw [Real.cos_pi_sub, Real.cos_pi_div_six] at hc
    have hs : Real.sqrt (1 / 48) * Real.sqrt 3 = 1 / 4 := by
      rw [← Real.sqrt_mul (by norm_num), show (1 / 48 * 3 : ℝ) = (1 / 4) ^ 2 by norm_num,
        Real.sqrt_sq (by norm_num)]
    have hs0 : 0 < Real.sqrt (1 / 48) := Real.sqrt_pos.2 (by norm_num)
    have hs1 : Real.sqrt (1 / 48) < 1 / 4 := by
      rw [Real.sqrt_lt' (by norm_num)]; norm_num
    rw [neg_neg]
    constructor <;> nlinarith
  refine ⟨_, trigRoot 32 (-48) 22 (-3) (2 * pi32), h, ?_, ?_⟩
  · cases deg with
    | true =>
      have := hdeg rfl
      simp only [c, p, CubicBezier.new, pdist_pn1, sq_abs] at this
      norm_num at this
      linarith
    | false =>
      rw [if_neg (by simp), List.mem_filter]
      refine ⟨?_, by simp [hlt.2]; linarith [hlt.1]⟩
      have e := rootsCubic_eq (a := 32) (-48) 22 (-3)
        (by rw [abs_of_pos (by norm_num)]; linarith)
      rw [if_neg (not_le.2 hd)] at e
      simp only [c, CubicBezier.new, hcoord] at hrs
      norm_num at hrs
      rw [e] at hrs
      rw [← Option.some.inj hrs]; simp
  · set t := trigRoot 32 (-48) 22 (-3) (2 * pi32)
    rw [C20_eval]
    simp only [c, CubicBezier.new, hcoord]
    have e : (1 - t) ^ 3 * -3 + 3 * t * (1 - t) ^ 2 * (13 / 3) + 3 * t ^ 2 * (1 - t) * (-13 / 3)
        + t ^ 3 * 3 = -(32 * ((1 / 4 - t) * (1 / 2 - t) * (3 / 4 - t))) := by ring
    rw [e]
    have : 0 < (1 / 4 - t) * (1 / 2 - t) * (3 / 4 - t) :=
      mul_pos (mul_pos (by linarith [hlt.1]) (by linarith [hlt.1])) (by linarith [hlt.1])
    intro h
    linarith

end Stroke
