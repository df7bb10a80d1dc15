import Verif.Props.Invariance

/-!
# What `is_linear` and `is_a_point` decide, exactly (C18, C19, C28, C29)
-/

namespace Stroke

variable {P : Type} [Point ℝ P] [LawfulPoint P]

/-- Length of the projection of `p - a` on `b - a`, times the length of `b - a`. -/
noncomputable def along (a b p : P) : ℝ :=
  ∑ i ∈ Finset.range (Point.dim P), (coord p i - coord a i) * (coord b i - coord a i)

theorem line_distance_le (a b p : P) (tol : ℝ) (hl : eps ≤ pdist a b ^ 2) :
    ∃ d, (LineSegment.new a b).distanceToPoint p = some d ∧
      (d ≤ tol ↔ if along a b p < pdist a b ^ 2 then NearSegment a b p tol else pdist p a ≤ tol) := by
  have hl' : eps ≤ pdist (LineSegment.new a b).end_ (LineSegment.new a b).start ^ 2 := by
    rw [pdist_comm]; exact hl
  by_cases h : along a b p < pdist a b ^ 2
  · obtain ⟨d, hd, hm⟩ := C07_partial (LineSegment.new a b) p hl' (by rw [pdist_comm]; exact h)
    refine ⟨d, hd, ?_⟩
    rw [if_pos h]
    exact ⟨fun hle => ⟨d, hm.1, hle⟩, fun ⟨r, hr, hle⟩ => (hm.2 hr).trans hle⟩
  · have := C07_false (LineSegment.new a b) p hl' (by rw [pdist_comm]; exact not_lt.1 h)
    refine ⟨_, this.1, ?_⟩
    rw [if_neg h]
    rfl

/-- **C18**, what `is_linear(tol)` of a quadratic curve decides: that the end points are apart, and
that the control point is within `tol` of the baseline, where for control points that project at or
beyond the end of the baseline the distance to its *start* counts. -/
theorem C18_exact (q : QuadraticBezier P) (tol : ℝ) :
    ∃ r, q.isLinear tol = some r ∧ (r = true ↔ eps ≤ pdist q.start q.end_ ^ 2 ∧
      if along q.start q.end_ q.ctrl < pdist q.start q.end_ ^ 2
      then NearSegment q.start q.end_ q.ctrl tol else pdist q.ctrl q.start ≤ tol) := by
  obtain ⟨d, hd, -⟩ := C07_never_below q.baseline q.ctrl
  refine ⟨_, isLinear_eq q tol d hd, ?_⟩
  rw [decide_eq_true_iff]
  refine and_congr_right fun hl => ?_
  obtain ⟨d', hd', h⟩ := line_distance_le q.start q.end_ q.ctrl tol hl
  have : d = d' := Option.some.inj (hd.symm.trans hd')
  rw [this, h]

/-- **C28**, what `is_linear(tol)` of a cubic curve decides. -/
theorem C28_exact (c : CubicBezier P) (tol : ℝ) :
    ∃ r, c.isLinear tol = some r ∧ (r = true ↔ eps ≤ pdist c.start c.end_ ^ 2 ∧
      (if along c.start c.end_ c.ctrl1 < pdist c.start c.end_ ^ 2
      then NearSegment c.start c.end_ c.ctrl1 tol else pdist c.ctrl1 c.start ≤ tol) ∧
      (if along c.start c.end_ c.ctrl2 < pdist c.start c.end_ ^ 2
      then NearSegment c.start c.end_ c.ctrl2 tol else pdist c.ctrl2 c.start ≤ tol)) := by
  obtain ⟨d1, hd1, -⟩ := C07_never_below c.baseline c.ctrl1
  obtain ⟨d2, hd2, -⟩ := C07_never_below c.baseline c.ctrl2
  refine ⟨_, cubic_isLinear_eq c tol d1 d2 hd1 hd2, ?_⟩
  rw [decide_eq_true_iff]
  refine and_congr_right fun hl => ?_
  obtain ⟨e1, he1, h1⟩ := line_distance_le c.start c.end_ c.ctrl1 tol hl
  obtain ⟨e2, he2, h2⟩ := line_distance_le c.start c.end_ c.ctrl2 tol hl
  have k1 : d1 = e1 := Option.some.inj (hd1.symm.trans he1)
  have k2 : d2 = e2 := Option.some.inj (hd2.symm.trans he2)
  rw [k1, k2, h1, h2]

/-- **C19**, what `is_a_point(tol)` of a quadratic curve decides: that no control point is further
than `|tol|` from the start. -/
theorem C19_exact (q : QuadraticBezier P) (tol : ℝ) :
    q.isAPoint tol = true ↔ pdist q.start q.ctrl ≤ |tol| ∧ pdist q.start q.end_ ≤ |tol| := by
  have := quadratic_isAPoint_closed q.start q.ctrl q.end_ tol
  rw [show QuadraticBezier.new q.start q.ctrl q.end_ = q from rfl] at this
  rw [this, decide_eq_true_iff]
  tauto

/-- **C29**, what `is_a_point(tol)` of a cubic curve decides: that the start is within `|tol|` of its
handle and of the end, and the end within `|tol|` of its handle. In particular it is true when no two
control points are further than `|tol|` apart. -/
theorem C29_exact (c : CubicBezier P) (tol : ℝ) :
    c.isAPoint tol = true ↔ pdist c.start c.ctrl1 ≤ |tol| ∧ pdist c.end_ c.ctrl2 ≤ |tol| ∧
      pdist c.start c.end_ ≤ |tol| := by
  have := cubic_isAPoint_closed c.start c.ctrl1 c.ctrl2 c.end_ tol
  rw [show CubicBezier.new c.start c.ctrl1 c.ctrl2 c.end_ = c from rfl] at this
  rw [this, decide_eq_true_iff]
  tauto

/-- Both branches of `C18_exact` occur: a control point over the middle of the baseline, and one
beyond its end. -/
example : along (pt2 0 0) (pt2 2 0) (pt2 1 1) < pdist (pt2 0 0) (pt2 2 0) ^ 2 ∧
    ¬ along (pt2 0 0) (pt2 2 0) (pt2 3 1) < pdist (pt2 0 0) (pt2 2 0) ^ 2 := by
  have hs : pdist (pt2 0 0) (pt2 2 0) ^ 2 = 4 := by
    rw [pdist_pt2, Real.sq_sqrt (by norm_num)]; norm_num
  rw [hs]
  unfold along
  show ∑ i ∈ Finset.range 2, _ < _ ∧ ¬ ∑ i ∈ Finset.range 2, _ < _
  simp only [Finset.sum_range_succ, Finset.sum_range_zero]
  norm_num

end Stroke
