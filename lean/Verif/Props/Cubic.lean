import Verif.Props.Quadratic

/-!
# Properties of `CubicBezier`: evaluation, splitting, derivative, shape
predicates (C20–C23, C28, C29)
-/

namespace Stroke

variable {P : Type} [Point ℝ P] [LawfulPoint P]

/-- **C20**: `eval` is the Bernstein form, at every parameter. -/
theorem C20_eval (c : CubicBezier P) (t : ℝ) (i : ℕ) :
    coord (c.eval t) i
      = (1 - t) ^ 3 * coord c.start i + 3 * t * (1 - t) ^ 2 * coord c.ctrl1 i
        + 3 * t ^ 2 * (1 - t) * coord c.ctrl2 i + t ^ 3 * coord c.end_ i := by
  simp [CubicBezier.eval]; ring

/-- **C20**: de Casteljau evaluation is the Bernstein form. -/
theorem C20_eval_casteljau (c : CubicBezier P) (t : ℝ) (i : ℕ) :
    coord (c.evalCasteljau t) i
      = (1 - t) ^ 3 * coord c.start i + 3 * t * (1 - t) ^ 2 * coord c.ctrl1 i
        + 3 * t ^ 2 * (1 - t) * coord c.ctrl2 i + t ^ 3 * coord c.end_ i := by
  simp [CubicBezier.evalCasteljau]; ring

/-- **C20**: `axis(t, i)` returns component `i` of the Bernstein form, and panics
exactly outside the dimension. -/
theorem C20_axis (c : CubicBezier P) (t : ℝ) (i : ℕ) :
    c.axis t i = if i < Point.dim P then
        some ((1 - t) ^ 3 * coord c.start i + 3 * t * (1 - t) ^ 2 * coord c.ctrl1 i
          + 3 * t ^ 2 * (1 - t) * coord c.ctrl2 i + t ^ 3 * coord c.end_ i)
      else none := by
  unfold CubicBezier.axis
  by_cases h : i < Point.dim P
  · rw [axis_eq _ h, axis_eq _ h, axis_eq _ h, axis_eq _ h, if_pos h]
    show some _ = some _
    congr 1
    simp; ring
  · rw [axis_none c.start h, if_neg h]; rfl

/-- **C20**: the two evaluation methods return the same point. -/
theorem C20_methods_agree (c : CubicBezier P) (t : ℝ) : c.eval t = c.evalCasteljau t :=
  point_ext fun i => by rw [C20_eval, C20_eval_casteljau]

/-- **C20**: the end points are interpolated. -/
theorem C20_endpoints (c : CubicBezier P) :
    c.eval (0 : ℝ) = c.start ∧ c.eval (1 : ℝ) = c.end_ := by
  constructor <;> apply point_ext <;> intro i <;> rw [C20_eval] <;> ring

/-- **C21**: the halves returned by `split(t)` are the reparametrised pieces. -/
theorem C21_split (c : CubicBezier P) (t s : ℝ) :
    (c.split t).1.eval s = c.eval (t * s) ∧
    (c.split t).2.eval s = c.eval (t + (1 - t) * s) := by
  constructor <;> apply point_ext <;> intro i <;> rw [C20_eval, C20_eval] <;>
    simp only [CubicBezier.split, coord_add, coord_mul, coord_sub] <;> ring

/-- **C22**: `derivative()` evaluates to the derivative of `eval`. -/
theorem C22_derivative (c : CubicBezier P) (t : ℝ) :
    HasPointDerivAt (fun u : ℝ => c.eval u) (coord (c.derivative.eval t)) t := by
  intro i _
  have key : HasDerivAt (fun u : ℝ => coord c.start i + u * (3 * (coord c.ctrl1 i - coord c.start i))
      + u * u * (3 * (coord c.start i - 2 * coord c.ctrl1 i + coord c.ctrl2 i))
      + u * u * u * (coord c.end_ i - 3 * coord c.ctrl2 i + 3 * coord c.ctrl1 i - coord c.start i))
      (0 + 1 * (3 * (coord c.ctrl1 i - coord c.start i))
        + (1 * t + t * 1) * (3 * (coord c.start i - 2 * coord c.ctrl1 i + coord c.ctrl2 i))
        + ((1 * t + t * 1) * t + t * t * 1)
          * (coord c.end_ i - 3 * coord c.ctrl2 i + 3 * coord c.ctrl1 i - coord c.start i)) t :=
    (((hasDerivAt_const t _).add ((hasDerivAt_id t).mul_const _)).add
      (((hasDerivAt_id t).mul (hasDerivAt_id t)).mul_const _)).add
      ((((hasDerivAt_id t).mul (hasDerivAt_id t)).mul (hasDerivAt_id t)).mul_const _)
  convert key using 1
  · funext u; rw [C20_eval]; ring
  · rw [C10_eval]; simp [CubicBezier.derivative]; ring

/-- **C23** is false of the code, on every axis where the start coordinate is not 0,
at every parameter other than 0 and 1. -/
theorem C23_false (c : CubicBezier P) (i : ℕ) (hi : i < Point.dim P) (hs : coord c.start i ≠ 0)
    (t : ℝ) (h0 : t ≠ 0) (h1 : t ≠ 1) :
    ∃ v, c.dd t i = some v ∧ v ≠ coord (c.derivative.eval t) i ∧
      v = coord (c.derivative.eval t) i + 3 * t * (t - 1) * coord c.start i := by
  have key : c.dd t i
      = some (coord (c.derivative.eval t) i + 3 * t * (t - 1) * coord c.start i) := by
    unfold CubicBezier.dd
    rw [axis_eq _ hi, axis_eq _ hi, axis_eq _ hi, axis_eq _ hi, C10_eval]
    show some _ = some _
    congr 1
    simp [CubicBezier.derivative]; ring
  refine ⟨_, key, ?_, rfl⟩
  intro h
  have : 3 * t * (t - 1) * coord c.start i = 0 := by linarith
  simp [h0, hs, sub_ne_zero.2 h1] at this

/-- Test: a curve, axis and parameter meeting the hypotheses of `C23_false`. -/
example : coord (CubicBezier.new (pt2 1 0) (pt2 0 0) (pt2 0 0) (pt2 0 0)).start 0 ≠ 0 ∧
    (1/2 : ℝ) ≠ 0 ∧ (1/2 : ℝ) ≠ 1 := by
  simp [CubicBezier.new]

/-- **C23** (partial: `dd` panics exactly outside the dimension, and is the component
of the derivative at `t = 0`, at `t = 1`, and on axes where the start coordinate
is 0).  Missing: all other cases, where the claim is false (`C23_false`). -/
theorem C23_partial (c : CubicBezier P) (t : ℝ) (i : ℕ)
    (h : t = 0 ∨ t = 1 ∨ coord c.start i = 0) :
    c.dd t i = Point.axis (c.derivative.eval t) i := by
  unfold CubicBezier.dd
  by_cases hi : i < Point.dim P
  · rw [axis_eq _ hi, axis_eq _ hi, axis_eq _ hi, axis_eq _ hi, axis_eq _ hi, C10_eval]
    show some _ = some _
    congr 1
    rcases h with h | h | h
    · subst h; simp [CubicBezier.derivative]; ring
    · subst h; simp [CubicBezier.derivative]; ring
    · simp [CubicBezier.derivative, h]; ring
  · rw [axis_none c.start hi, axis_none (c.derivative.eval t) hi]; rfl

/-! ### Shape predicates -/

theorem cubic_isLinear_eq (c : CubicBezier P) (tol d1 d2 : ℝ)
    (hd1 : c.baseline.distanceToPoint c.ctrl1 = some d1)
    (hd2 : c.baseline.distanceToPoint c.ctrl2 = some d2) :
    c.isLinear tol = some (decide (eps ≤ pdist c.start c.end_ ^ 2 ∧ d1 ≤ tol ∧ d2 ≤ tol)) := by
  unfold CubicBezier.isLinear CubicBezier.arePointsColinear
  simp only [squaredLength_sub, hd1, hd2, lt_real, decide_eq_true_eq, epsilon_real, le_real]
  by_cases h : pdist c.start c.end_ ^ 2 < eps
  · rw [if_pos h]; simp [h]
  · rw [if_neg h]
    simp only [Option.bind_eq_bind, Option.bind_some]
    by_cases h1 : d1 ≤ tol
    · rw [if_pos h1]
      show some (decide _) = _
      simp [not_lt.1 h, h1]
    · rw [if_neg h1]; simp [h1]

/-- **C28** (soundness): if `is_linear(tol)` is true, the whole curve is within
`tol` of the baseline segment. -/
theorem C28_is_linear_sound (c : CubicBezier P) (tol : ℝ) (h : c.isLinear tol = some true)
    (t : ℝ) (h0 : 0 ≤ t) (h1 : t ≤ 1) :
    NearSegment c.start c.end_ (c.eval t) tol := by
  obtain ⟨d1, hd1, hm1⟩ := C07_never_below c.baseline c.ctrl1
  obtain ⟨d2, hd2, hm2⟩ := C07_never_below c.baseline c.ctrl2
  rw [cubic_isLinear_eq c tol d1 d2 hd1 hd2] at h
  simp at h
  obtain ⟨-, ht1, ht2⟩ := h
  rw [segmentDistances_eq] at hm1 hm2
  obtain ⟨s1, hs0, hs1, rfl⟩ := hm1
  obtain ⟨s2, hs0', hs1', rfl⟩ := hm2
  have h1' : 0 ≤ 1 - t := by linarith
  have w1 : 0 ≤ 3 * t * (1 - t) ^ 2 := by positivity
  have w2 : 0 ≤ 3 * t ^ 2 * (1 - t) := by positivity
  have hsum : 3 * t * (1 - t) ^ 2 + 3 * t ^ 2 * (1 - t) + t ^ 3 ≤ 1 := by
    have := pow_nonneg h1' 3; nlinarith
  refine ⟨‖toE c.start + (3 * t * (1 - t) ^ 2 * s1 + 3 * t ^ 2 * (1 - t) * s2 + t ^ 3)
      • (toE c.end_ - toE c.start) - toE (c.eval t)‖, ?_, ?_⟩
  · rw [segmentDistances_eq]
    refine ⟨_, by positivity, ?_, rfl⟩
    have a := mul_le_of_le_one_right w1 hs1
    have b := mul_le_of_le_one_right w2 hs1'
    linarith
  · have e : toE c.start + (3 * t * (1 - t) ^ 2 * s1 + 3 * t ^ 2 * (1 - t) * s2 + t ^ 3)
          • (toE c.end_ - toE c.start) - toE (c.eval t)
        = (3 * t * (1 - t) ^ 2) • (toE c.start + s1 • (toE c.end_ - toE c.start) - toE c.ctrl1)
        + (3 * t ^ 2 * (1 - t)) • (toE c.start + s2 • (toE c.end_ - toE c.start) - toE c.ctrl2) := by
      ext i; simp [C20_eval]; ring
    rw [e]
    refine (norm_add_le _ _).trans ?_
    rw [norm_smul, norm_smul, Real.norm_eq_abs, Real.norm_eq_abs, abs_of_nonneg w1,
      abs_of_nonneg w2]
    have a := mul_le_mul_of_nonneg_left ht1 w1
    have b := mul_le_mul_of_nonneg_left ht2 w2
    have htol : 0 ≤ tol := (norm_nonneg _).trans ht1
    simp only [CubicBezier.baseline] at a b
    have : (3 * t * (1 - t) ^ 2 + 3 * t ^ 2 * (1 - t)) * tol ≤ 1 * tol :=
      mul_le_mul_of_nonneg_right (by have := pow_nonneg h0 3; linarith) htol
    linarith

/-- **C28** (completeness) is false of the code: control points lying *on* the
baseline segment (at its end) make `is_linear` answer `false`, for every
tolerance below the segment's length. -/
theorem C28_complete_false (a b : P) (hab : eps ≤ pdist a b ^ 2) (tol : ℝ) (htol : tol < pdist a b) :
    (CubicBezier.new a b b b).isLinear tol = some false ∧
    IsSegmentDistance a b (CubicBezier.new a b b b).ctrl1 0 ∧
    IsSegmentDistance a b (CubicBezier.new a b b b).ctrl2 0 := by
  have hab' : eps ≤ pdist b a ^ 2 := by rwa [pdist_comm]
  have hp : pdist b a ^ 2 ≤ ∑ i ∈ Finset.range (Point.dim P),
        (coord b i - coord a i) * (coord b i - coord a i) := by
    unfold pdist
    rw [Real.sq_sqrt (Finset.sum_nonneg fun _ _ => sq_nonneg _)]
    simp only [sq]; exact le_rfl
  have hf := C07_false (LineSegment.new a b) b hab' hp
  refine ⟨?_, (C18_false a b hab tol htol).2, (C18_false a b hab tol htol).2⟩
  rw [cubic_isLinear_eq (CubicBezier.new a b b b) tol _ _ hf.1 hf.1]
  have : ¬ pdist b (LineSegment.new a b).start ≤ tol := by
    rw [not_le]; show tol < pdist b a; rwa [pdist_comm]
  simp [this]

/-- **C28** (completeness, partial): if both control points project strictly before
the end point and are within `tol` of the baseline segment, `is_linear(tol)` is
true.  Missing: control points projecting at or beyond the end point, where the
claim is false (`C28_complete_false`). -/
theorem C28_complete_partial (c : CubicBezier P) (tol : ℝ) (hl : eps ≤ pdist c.start c.end_ ^ 2)
    (hp1 : ∑ i ∈ Finset.range (Point.dim P),
        (coord c.ctrl1 i - coord c.start i) * (coord c.end_ i - coord c.start i)
          < pdist c.start c.end_ ^ 2)
    (hp2 : ∑ i ∈ Finset.range (Point.dim P),
        (coord c.ctrl2 i - coord c.start i) * (coord c.end_ i - coord c.start i)
          < pdist c.start c.end_ ^ 2)
    (hn1 : NearSegment c.start c.end_ c.ctrl1 tol) (hn2 : NearSegment c.start c.end_ c.ctrl2 tol) :
    c.isLinear tol = some true := by
  have hl' := hl
  rw [pdist_comm] at hl hp1 hp2
  obtain ⟨d1, hd1, hleast1⟩ := C07_partial c.baseline c.ctrl1 hl hp1
  obtain ⟨d2, hd2, hleast2⟩ := C07_partial c.baseline c.ctrl2 hl hp2
  obtain ⟨r1, hr1, hr1'⟩ := hn1
  obtain ⟨r2, hr2, hr2'⟩ := hn2
  rw [cubic_isLinear_eq c tol d1 d2 hd1 hd2]
  simp only [hl', true_and, (hleast1.2 hr1).trans hr1', (hleast2.2 hr2).trans hr2']
  rfl

/-- Test: `is_linear` is true for a curve with a bulge of height 1 (so the
hypotheses of `C28_is_linear_sound` and `C28_complete_partial` are met). -/
example : (CubicBezier.new (pt2 0 0) (pt2 1 1) (pt2 1 1) (pt2 2 0)).isLinear (1 : ℝ) = some true :=
  C28_complete_partial _ _ C18_partial_hyps.1 C18_partial_hyps.2.1 C18_partial_hyps.2.1
    C18_partial_hyps.2.2 C18_partial_hyps.2.2

/-- **C29** (sharp form): if `is_a_point(tol)` is true, every curve point is within
`√2 |tol|` of the start point. -/
theorem C29_is_a_point_sharp (c : CubicBezier P) (tol : ℝ) (h : c.isAPoint tol = true)
    (t : ℝ) (h0 : 0 ≤ t) (h1 : t ≤ 1) : pdist (c.eval t) c.start ≤ Real.sqrt 2 * |tol| := by
  unfold CubicBezier.isAPoint at h
  rw [squaredLength_sub, squaredLength_sub, squaredLength_sub, ← sq] at h
  simp only [le_real, Bool.and_eq_true, decide_eq_true_eq] at h
  have he := abs_le_abs_of_sq_le h.1.1 (pdist_nonneg _ _)
  have hc1 := abs_le_abs_of_sq_le h.1.2 (pdist_nonneg _ _)
  have hc2 := abs_le_abs_of_sq_le h.2 (pdist_nonneg _ _)
  have hc2' : pdist c.ctrl2 c.start ≤ 2 * |tol| := by
    have := pdist_triangle c.ctrl2 c.end_ c.start
    rw [pdist_comm c.ctrl2 c.end_, pdist_comm c.end_ c.start] at this
    linarith
  rw [pdist_comm, pdist_eq_norm] at he hc1
  rw [pdist_eq_norm] at hc2' ⊢
  have h1' : 0 ≤ 1 - t := by linarith
  have w1 : 0 ≤ 3 * t * (1 - t) ^ 2 := by positivity
  have w2 : 0 ≤ 3 * t ^ 2 * (1 - t) := by positivity
  have w3 : 0 ≤ t ^ 3 := by positivity
  have e : toE (c.eval t) - toE c.start = (3 * t * (1 - t) ^ 2) • (toE c.ctrl1 - toE c.start)
      + (3 * t ^ 2 * (1 - t)) • (toE c.ctrl2 - toE c.start)
      + t ^ 3 • (toE c.end_ - toE c.start) := by
    ext i; simp [C20_eval]; ring
  rw [e]
  refine (norm_add_le _ _).trans ((add_le_add_left (norm_add_le _ _) _).trans ?_)
  rw [norm_smul, norm_smul, norm_smul, Real.norm_eq_abs, Real.norm_eq_abs, Real.norm_eq_abs,
    abs_of_nonneg w1, abs_of_nonneg w2, abs_of_nonneg w3]
  have ht := abs_nonneg tol
  have a := mul_le_mul_of_nonneg_left hc1 w1
  have b := mul_le_mul_of_nonneg_left hc2' w2
  have d := mul_le_mul_of_nonneg_left he w3
  have h2 : Real.sqrt 2 ^ 2 = 2 := Real.sq_sqrt (by norm_num)
  have hs2 := Real.sqrt_nonneg 2
  have hsum : 3 * t - 2 * t ^ 3 ≤ Real.sqrt 2 := by
    have h4 : 0 ≤ 2 * (t - Real.sqrt 2 / 2) ^ 2 * (t + Real.sqrt 2) := by positivity
    have h5 : 2 * (t - Real.sqrt 2 / 2) ^ 2 * (t + Real.sqrt 2) = 2 * t ^ 3 - 3 * t + Real.sqrt 2 := by
      have : Real.sqrt 2 ^ 3 = 2 * Real.sqrt 2 := by rw [pow_succ, h2]
      linear_combination (-(3 * t) / 2) * h2 + (1 / 2) * this
    linarith
  have hm := mul_le_mul_of_nonneg_right hsum ht
  linarith

/-- **C29**: if `is_a_point(tol)` is true, every curve point is within `2|tol|` of
the start point. -/
theorem C29_is_a_point (c : CubicBezier P) (tol : ℝ) (h : c.isAPoint tol = true)
    (t : ℝ) (h0 : 0 ≤ t) (h1 : t ≤ 1) : pdist (c.eval t) c.start ≤ 2 * |tol| := by
  refine (C29_is_a_point_sharp c tol h t h0 h1).trans
    (mul_le_mul_of_nonneg_right ?_ (abs_nonneg tol))
  rw [Real.sqrt_le_left (by norm_num)]; norm_num

/-- **C29**: the constant `√2` is attained, so `is_a_point(tol)` does not keep the
curve within `|tol|` of its start (unlike the quadratic one). -/
theorem C29_sharp_attained :
    ∃ (c : CubicBezier (PointN ℝ 1)) (t : ℝ), c.isAPoint (1 : ℝ) = true ∧ 0 ≤ t ∧ t ≤ 1 ∧
      pdist (c.eval t) c.start = Real.sqrt 2 := by
  have h2 : Real.sqrt 2 ^ 2 = 2 := Real.sq_sqrt (by norm_num)
  have hs2 := Real.sqrt_nonneg 2
  refine ⟨CubicBezier.new (PointN.new fun _ => 0) (PointN.new fun _ => 1) (PointN.new fun _ => 2)
    (PointN.new fun _ => 1), Real.sqrt 2 / 2, ?_, by positivity, by nlinarith, ?_⟩
  · unfold CubicBezier.isAPoint
    rw [squaredLength_sub, squaredLength_sub, squaredLength_sub]
    simp only [CubicBezier.new, pdist_pn1]; norm_num
  · unfold pdist
    show Real.sqrt (∑ i ∈ Finset.range 1, _) = _
    rw [Finset.sum_range_one, C20_eval, Real.sqrt_sq_eq_abs]
    simp only [CubicBezier.new, coord_pn1]
    have h3 : Real.sqrt 2 ^ 3 = 2 * Real.sqrt 2 := by rw [pow_succ, h2]
    rw [← abs_of_nonneg hs2]
    congr 1
    rw [abs_of_nonneg hs2]
    linear_combination (-1/4) * h3

/-- **C29**: `is_a_point(0)` is true exactly when all control points coincide. -/
theorem C29_is_a_point_zero (c : CubicBezier P) :
    c.isAPoint (0 : ℝ) = true ↔ c.start = c.ctrl1 ∧ c.start = c.ctrl2 ∧ c.start = c.end_ := by
  unfold CubicBezier.isAPoint
  rw [squaredLength_sub, squaredLength_sub, squaredLength_sub]
  simp only [le_real, Bool.and_eq_true, decide_eq_true_eq, mul_zero]
  rw [sq_nonpos_iff, sq_nonpos_iff, sq_nonpos_iff, pdist_eq_zero, pdist_eq_zero, pdist_eq_zero]
  constructor
  · rintro ⟨⟨h1, h2⟩, h3⟩; exact ⟨h2, h1.trans h3, h1⟩
  · rintro ⟨h1, h2, h3⟩; exact ⟨⟨h3, h1⟩, h3.symm.trans h2⟩

/-- Test: the bound 2 of `C29_is_a_point` is needed only through `ctrl2`; here is a
curve meeting its hypothesis whose `ctrl2` is at distance 2 from the start. -/
example : (CubicBezier.new (pt2 0 0) (pt2 0 0) (pt2 2 0) (pt2 1 0)).isAPoint (1 : ℝ) = true := by
  unfold CubicBezier.isAPoint
  rw [squaredLength_sub, squaredLength_sub, squaredLength_sub]
  simp [CubicBezier.new, pdist_pt2]; norm_num

end Stroke
