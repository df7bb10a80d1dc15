import Verif.Props.Line
import Verif.Lemmas.Convex

/-!
# Properties of `QuadraticBezier`: evaluation, splitting, derivative, shape
predicates (C10–C12, C17–C19)
-/

namespace Stroke

variable {P : Type} [Point ℝ P] [LawfulPoint P]

/-- **C10**: `eval` is the Bernstein form, at every parameter. -/
theorem C10_eval (q : QuadraticBezier P) (t : ℝ) (i : ℕ) :
    coord (q.eval t) i
      = (1 - t) ^ 2 * coord q.start i + 2 * t * (1 - t) * coord q.ctrl i + t ^ 2 * coord q.end_ i := by
  simp [QuadraticBezier.eval]; ring

/-- **C10**: de Casteljau evaluation is the Bernstein form. -/
theorem C10_eval_casteljau (q : QuadraticBezier P) (t : ℝ) (i : ℕ) :
    coord (q.evalCasteljau t) i
      = (1 - t) ^ 2 * coord q.start i + 2 * t * (1 - t) * coord q.ctrl i + t ^ 2 * coord q.end_ i := by
  simp [QuadraticBezier.evalCasteljau]; ring

/-- **C10**: `axis(t, i)` returns component `i` of the Bernstein form, and panics
exactly outside the dimension. -/
theorem C10_axis (q : QuadraticBezier P) (t : ℝ) (i : ℕ) :
    q.axis t i = if i < Point.dim P then
        some ((1 - t) ^ 2 * coord q.start i + 2 * t * (1 - t) * coord q.ctrl i
          + t ^ 2 * coord q.end_ i)
      else none := by
  unfold QuadraticBezier.axis
  by_cases h : i < Point.dim P
  · rw [axis_eq _ h, axis_eq _ h, axis_eq _ h, if_pos h]
    show some _ = some _
    congr 1
    simp; ring
  · rw [axis_none q.start h, if_neg h]; rfl

/-- **C10**: the two evaluation methods return the same point. -/
theorem C10_methods_agree (q : QuadraticBezier P) (t : ℝ) : q.eval t = q.evalCasteljau t :=
  point_ext fun i => by rw [C10_eval, C10_eval_casteljau]

/-- **C10**: the end points are interpolated. -/
theorem C10_endpoints (q : QuadraticBezier P) :
    q.eval (0 : ℝ) = q.start ∧ q.eval (1 : ℝ) = q.end_ := by
  constructor <;> apply point_ext <;> intro i <;> rw [C10_eval] <;> ring

/-- **C11**: the halves returned by `split(t)` are the reparametrised pieces. -/
theorem C11_split (q : QuadraticBezier P) (t s : ℝ) :
    (q.split t).1.eval s = q.eval (t * s) ∧
    (q.split t).2.eval s = q.eval (t + (1 - t) * s) := by
  constructor <;> apply point_ext <;> intro i <;> rw [C10_eval, C10_eval] <;>
    simp only [QuadraticBezier.split, coord_add, coord_mul, coord_sub] <;> ring

/-- **C12**: `derivative()` evaluates to the derivative of `eval`. -/
theorem C12_derivative (q : QuadraticBezier P) (t : ℝ) :
    HasPointDerivAt (fun u : ℝ => q.eval u) (coord (q.derivative.eval t)) t := by
  intro i _
  have key : HasDerivAt (fun u : ℝ => coord q.start i + u * (2 * (coord q.ctrl i - coord q.start i))
      + u * u * (coord q.start i - 2 * coord q.ctrl i + coord q.end_ i))
      (0 + 1 * (2 * (coord q.ctrl i - coord q.start i))
        + (1 * t + t * 1) * (coord q.start i - 2 * coord q.ctrl i + coord q.end_ i)) t :=
    ((hasDerivAt_const t _).add ((hasDerivAt_id t).mul_const _)).add
      (((hasDerivAt_id t).mul (hasDerivAt_id t)).mul_const _)
  convert key using 1
  · funext u; rw [C10_eval]; ring
  · rw [C05_eval]; simp [QuadraticBezier.derivative]; ring

/-- **C12**: `dd(t, i)` is component `i` of the derivative; it panics exactly
outside the dimension. -/
theorem C12_dd (q : QuadraticBezier P) (t : ℝ) (i : ℕ) :
    q.dd t i = Point.axis (q.derivative.eval t) i := by
  unfold QuadraticBezier.dd
  by_cases h : i < Point.dim P
  · rw [axis_eq _ h, axis_eq _ h, axis_eq _ h, axis_eq _ h, C05_eval]
    show some _ = some _
    congr 1
    simp [QuadraticBezier.derivative]; ring
  · rw [axis_none q.start h, axis_none (q.derivative.eval t) h]; rfl

/-! ### Shape predicates -/

theorem isLinear_eq (q : QuadraticBezier P) (tol d : ℝ)
    (hd : q.baseline.distanceToPoint q.ctrl = some d) :
    q.isLinear tol = some (decide (eps ≤ pdist q.start q.end_ ^ 2 ∧ d ≤ tol)) := by
  unfold QuadraticBezier.isLinear QuadraticBezier.arePointsColinear
  simp only [squaredLength_sub, hd, lt_real, decide_eq_true_eq, epsilon_real]
  by_cases h : pdist q.start q.end_ ^ 2 < eps
  · rw [if_pos h]; simp [h]
  · rw [if_neg h]
    show some (decide _) = _
    simp [not_lt.1 h]

/-- **C17**: `is_linear(tol)` is sound: the whole curve is within `tol` of the
baseline segment. -/
theorem C17_is_linear_sound (q : QuadraticBezier P) (tol : ℝ) (h : q.isLinear tol = some true)
    (t : ℝ) (h0 : 0 ≤ t) (h1 : t ≤ 1) :
    NearSegment q.start q.end_ (q.eval t) tol := by
  obtain ⟨d, hd, hmem⟩ := C07_never_below q.baseline q.ctrl
  rw [isLinear_eq q tol d hd] at h
  have hd' : d ≤ tol := by simp at h; exact h.2
  · rw [segmentDistances_eq] at hmem
    obtain ⟨s, hs0, hs1, rfl⟩ := hmem
    refine ⟨‖toE q.start + (2 * t * (1 - t) * s + t ^ 2) • (toE q.end_ - toE q.start)
        - toE (q.eval t)‖, ?_, ?_⟩
    · rw [segmentDistances_eq]
      have h1' : 0 ≤ 1 - t := by linarith
      refine ⟨_, by positivity, ?_, rfl⟩
      have : 2 * t * (1 - t) * s ≤ 2 * t * (1 - t) := mul_le_of_le_one_right (by positivity) hs1
      nlinarith
    · have h1' : 0 ≤ 1 - t := by linarith
      have e : toE q.start + (2 * t * (1 - t) * s + t ^ 2) • (toE q.end_ - toE q.start)
          - toE (q.eval t)
          = (2 * t * (1 - t)) • (toE q.start + s • (toE q.end_ - toE q.start) - toE q.ctrl) := by
        ext i; simp [C10_eval]; ring
      rw [e, norm_smul, Real.norm_eq_abs, abs_of_nonneg (by positivity)]
      have hw : 2 * t * (1 - t) ≤ 1 := by nlinarith [sq_nonneg (2 * t - 1)]
      exact (mul_le_of_le_one_left (norm_nonneg _) hw).trans hd'

/-- **C18** is false of the code: a control point lying *on* the baseline segment
(at its end) makes `is_linear` answer `false`, for every tolerance below the
segment's length, in every dimension. -/
theorem C18_false (a b : P) (hab : eps ≤ pdist a b ^ 2) (tol : ℝ) (htol : tol < pdist a b) :
    (QuadraticBezier.new a b b).isLinear tol = some false ∧
    IsSegmentDistance a b (QuadraticBezier.new a b b).ctrl 0 := by
  have hab' : eps ≤ pdist b a ^ 2 := by rwa [pdist_comm]
  have hp : pdist b a ^ 2 ≤ ∑ i ∈ Finset.range (Point.dim P),
        (coord b i - coord a i) * (coord b i - coord a i) := by
    unfold pdist
    rw [Real.sq_sqrt (Finset.sum_nonneg fun _ _ => sq_nonneg _)]
    simp only [sq]; exact le_rfl
  have hf := C07_false (LineSegment.new a b) b hab' hp
  constructor
  · rw [isLinear_eq (QuadraticBezier.new a b b) tol _ hf.1]
    have : ¬ pdist b (LineSegment.new a b).start ≤ tol := by
      rw [not_le]; show tol < pdist b a; rwa [pdist_comm]
    simp [this]
  · have := hf.2.1
    rwa [show pdist b (LineSegment.new a b).end_ = 0 from pdist_eq_zero.2 rfl] at this

/-- Test: points meeting the hypotheses of `C18_false`. -/
example : eps ≤ pdist (pt2 0 0) (pt2 1 0) ^ 2 ∧ (1/2 : ℝ) < pdist (pt2 0 0) (pt2 1 0) := by
  have := eps_lt_one
  rw [pdist_pt2]; norm_num; linarith

/-- **C18** (partial): if the control point projects strictly before the end point
and is within `tol` of the baseline segment, `is_linear(tol)` is true.
Missing: control points projecting at or beyond the end point, where the claim
is false (`C18_false`). -/
theorem C18_partial (q : QuadraticBezier P) (tol : ℝ) (hl : eps ≤ pdist q.start q.end_ ^ 2)
    (hp : ∑ i ∈ Finset.range (Point.dim P),
        (coord q.ctrl i - coord q.start i) * (coord q.end_ i - coord q.start i)
          < pdist q.start q.end_ ^ 2)
    (hn : NearSegment q.start q.end_ q.ctrl tol) : q.isLinear tol = some true := by
  have hl' := hl
  rw [pdist_comm] at hl hp
  obtain ⟨d, hd, hleast⟩ := C07_partial q.baseline q.ctrl hl hp
  obtain ⟨r, hr, hr'⟩ := hn
  rw [isLinear_eq q tol d hd]
  simpa [hl'] using (hleast.2 hr).trans hr'

/-- A curve meeting the hypotheses of `C18_partial`. -/
theorem C18_partial_hyps : eps ≤ pdist (pt2 0 0) (pt2 2 0) ^ 2 ∧
    (∑ i ∈ Finset.range (Point.dim (PointN ℝ 2)),
        (coord (pt2 1 1) i - coord (pt2 0 0) i) * (coord (pt2 2 0) i - coord (pt2 0 0) i)
          < pdist (pt2 0 0) (pt2 2 0) ^ 2) ∧
    NearSegment (pt2 0 0) (pt2 2 0) (pt2 1 1) 1 := by
  have hs : pdist (pt2 0 0) (pt2 2 0) ^ 2 = 4 := by
    rw [pdist_pt2, Real.sq_sqrt (by norm_num)]; norm_num
  have he := eps_lt_one
  rw [hs]
  refine ⟨by linarith, ?_, ?_⟩
  · show ∑ i ∈ Finset.range 2, _ < _
    rw [Finset.sum_range_succ, Finset.sum_range_one]; norm_num
  · refine ⟨_, ⟨1/2, by norm_num, by norm_num, rfl⟩, ?_⟩
    show Real.sqrt (∑ i ∈ Finset.range 2, _) ≤ _
    rw [Finset.sum_range_succ, Finset.sum_range_one]
    norm_num

/-- Test: `is_linear` is true for a curve with a bulge of height 1 (so the
hypothesis of `C17_is_linear_sound` is met). -/
example : (QuadraticBezier.new (pt2 0 0) (pt2 1 1) (pt2 2 0)).isLinear (1 : ℝ) = some true :=
  C18_partial _ _ C18_partial_hyps.1 C18_partial_hyps.2.1 C18_partial_hyps.2.2

/-- **C19**: if `is_a_point(tol)` is true, every curve point is within `|tol|` of
the start point. -/
theorem C19_is_a_point (q : QuadraticBezier P) (tol : ℝ) (h : q.isAPoint tol = true)
    (t : ℝ) (h0 : 0 ≤ t) (h1 : t ≤ 1) : pdist (q.eval t) q.start ≤ |tol| := by
  unfold QuadraticBezier.isAPoint at h
  rw [squaredLength_sub, squaredLength_sub, ← sq] at h
  simp only [le_real, Bool.and_eq_true, decide_eq_true_eq] at h
  have he := abs_le_abs_of_sq_le h.1 (pdist_nonneg _ _)
  have hc := abs_le_abs_of_sq_le h.2 (pdist_nonneg _ _)
  rw [pdist_comm, pdist_eq_norm] at he hc
  rw [pdist_eq_norm]
  have h1' : 0 ≤ 1 - t := by linarith
  have e : toE (q.eval t) - toE q.start = (2 * t * (1 - t)) • (toE q.ctrl - toE q.start)
      + t ^ 2 • (toE q.end_ - toE q.start) := by
    ext i; simp [C10_eval]; ring
  rw [e]
  refine (norm_add_le _ _).trans ?_
  rw [norm_smul, norm_smul, Real.norm_eq_abs, Real.norm_eq_abs, abs_of_nonneg (by positivity),
    abs_of_nonneg (by positivity)]
  have ht := abs_nonneg tol
  have a := mul_le_mul_of_nonneg_left hc (show 0 ≤ 2 * t * (1 - t) by positivity)
  have b := mul_le_mul_of_nonneg_left he (show 0 ≤ t ^ 2 by positivity)
  nlinarith [mul_nonneg (sq_nonneg (1 - t)) ht]

/-- **C19**: `is_a_point(0)` is true exactly when all control points coincide. -/
theorem C19_is_a_point_zero (q : QuadraticBezier P) :
    q.isAPoint (0 : ℝ) = true ↔ q.start = q.ctrl ∧ q.start = q.end_ := by
  unfold QuadraticBezier.isAPoint
  rw [squaredLength_sub, squaredLength_sub]
  simp only [le_real, Bool.and_eq_true, decide_eq_true_eq, mul_zero]
  rw [sq_nonpos_iff, sq_nonpos_iff, pdist_eq_zero, pdist_eq_zero, and_comm]

/-- Test: a curve meeting the hypothesis of `C19_is_a_point`. -/
example : (QuadraticBezier.new (pt2 0 0) (pt2 1 0) (pt2 0 1)).isAPoint (1 : ℝ) = true := by
  unfold QuadraticBezier.isAPoint
  rw [squaredLength_sub, squaredLength_sub]
  simp [QuadraticBezier.new, pdist_pt2]

end Stroke
