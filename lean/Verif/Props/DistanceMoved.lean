import Verif.Props.Line
import Verif.Props.RepairedCurves

/-!
# The distance to a segment when the point or the segment is moved (C134)

The distance to a set changes by no more than the query point moves.  The computed distance to a
segment does so while the query point projects before the end of the segment, and jumps by the
length of the segment when it passes the end.
-/

namespace Stroke

variable {P : Type} [Point ℝ P] [LawfulPoint P]

omit [LawfulPoint P] in
/-- True distances from two points to two segments. -/
theorem segmentDistance_moved {a b p a' b' p' : P} {d d' δ : ℝ} (ha : pdist a a' ≤ δ)
    (hb : pdist b b' ≤ δ) (hd : IsSegmentDistance a b p d) (hd' : IsSegmentDistance a' b' p' d') :
    d ≤ d' + pdist p p' + δ := by
  unfold IsSegmentDistance at hd hd'
  rw [segmentDistances_eq] at hd hd'
  obtain ⟨s, s0, s1, rfl⟩ := hd'.1
  refine (hd.2 ⟨s, s0, s1, rfl⟩).trans ?_
  rw [pdist_eq_norm] at ha hb
  rw [pdist_eq_norm]
  have e : toE a + s • (toE b - toE a) - toE p = toE a' + s • (toE b' - toE a') - toE p'
      + (toE p' - toE p) + ((1 - s) • (toE a - toE a') + s • (toE b - toE b')) := by
    module
  rw [e]
  refine (norm_add_le _ _).trans (add_le_add ((norm_add_le _ _).trans ?_) ?_)
  · rw [norm_sub_rev (toE p')]
  · refine (norm_add_le _ _).trans ?_
    rw [norm_smul, norm_smul, Real.norm_of_nonneg (by linarith), Real.norm_of_nonneg s0]
    have := mul_le_mul_of_nonneg_left ha (show 0 ≤ 1 - s by linarith)
    have := mul_le_mul_of_nonneg_left hb s0
    linarith

/-- The query point projects strictly before the end of the segment. -/
def ProjectsBeforeEnd (l : LineSegment P) (p : P) : Prop :=
  ∑ i ∈ Finset.range (Point.dim P),
    (coord p i - coord l.start i) * (coord l.end_ i - coord l.start i) < pdist l.end_ l.start ^ 2

/-- **C134** (partial): moving the query point by `pdist p p'` and the end points of the segment by
at most `δ` changes the computed distance by at most `pdist p p' + δ`, provided both query points
project before the end of their segments.  Missing: points passing the end, where it fails
(`C134_false`). -/
theorem C134_partial (l l' : LineSegment P) (p p' : P) (δ : ℝ) (hs : pdist l.start l'.start ≤ δ)
    (he : pdist l.end_ l'.end_ ≤ δ) (hl : eps ≤ pdist l.end_ l.start ^ 2)
    (hl' : eps ≤ pdist l'.end_ l'.start ^ 2) (hp : ProjectsBeforeEnd l p)
    (hp' : ProjectsBeforeEnd l' p') :
    ∃ d d', l.distanceToPoint p = some d ∧ l'.distanceToPoint p' = some d' ∧
      |d - d'| ≤ pdist p p' + δ := by
  obtain ⟨d, e, h⟩ := C07_partial l p hl hp
  obtain ⟨d', e', h'⟩ := C07_partial l' p' hl' hp'
  refine ⟨d, d', e, e', abs_le.2 ⟨?_, ?_⟩⟩
  · have := segmentDistance_moved (δ := δ) (by rwa [pdist_comm]) (by rwa [pdist_comm]) h' h
    rw [pdist_comm p' p] at this
    linarith
  · have := segmentDistance_moved hs he h h'
    linarith

/-- **C134**, segments shorter than `√EPSILON`: the bound holds for all query points. -/
theorem C134_short (l l' : LineSegment P) (p p' : P) (δ : ℝ) (hs : pdist l.start l'.start ≤ δ)
    (hl : pdist l.end_ l.start ^ 2 < eps) (hl' : pdist l'.end_ l'.start ^ 2 < eps) :
    ∃ d d', l.distanceToPoint p = some d ∧ l'.distanceToPoint p' = some d' ∧
      |d - d'| ≤ pdist p p' + δ := by
  refine ⟨_, _, (C07_short l p hl).1, (C07_short l' p' hl').1, abs_le.2 ⟨?_, ?_⟩⟩
  · have h1 := pdist_triangle l'.start l.start p'
    have h2 := pdist_triangle l.start p p'
    rw [pdist_comm l'.start l.start] at h1
    linarith
  · have h1 := pdist_triangle l.start l'.start p
    have h2 := pdist_triangle l'.start p' p
    rw [pdist_comm p' p] at h2
    linarith

/-- **C134** is false of the code: at the end of every segment at least `√EPSILON` long the computed
distance jumps by the whole length.  Any point of the segment before the end is at distance 0, the
end itself at the distance of the length. -/
theorem C134_false (l : LineSegment P) (hl : eps ≤ pdist l.end_ l.start ^ 2) (s : ℝ) (s0 : 0 < s)
    (s1 : s ≤ 1) :
    l.distanceToPoint l.end_ = some (pdist l.end_ l.start) ∧
    l.distanceToPoint (l.eval (1 - s)) = some (0 : ℝ) ∧
    pdist (l.eval (1 - s)) l.end_ = s * pdist l.end_ l.start := by
  have hl2 : 0 < pdist l.end_ l.start ^ 2 := lt_of_lt_of_le eps_pos hl
  have hsq : ∑ i ∈ Finset.range (Point.dim P),
      (coord l.end_ i - coord l.start i) * (coord l.end_ i - coord l.start i)
        = pdist l.end_ l.start ^ 2 := by
    rw [pdist, Real.sq_sqrt (Finset.sum_nonneg fun _ _ => sq_nonneg _)]
    exact Finset.sum_congr rfl fun i _ => by ring
  refine ⟨(C07_false l l.end_ hl hsq.ge).1, ?_, ?_⟩
  · obtain ⟨d, e, h⟩ := C07_partial l (l.eval (1 - s)) hl (by
      have : ∀ i ∈ Finset.range (Point.dim P),
          (coord (l.eval (1 - s)) i - coord l.start i) * (coord l.end_ i - coord l.start i)
            = (1 - s) * ((coord l.end_ i - coord l.start i) * (coord l.end_ i - coord l.start i)) := by
        intro i _
        rw [C05_eval]
        ring
      rw [Finset.sum_congr rfl this, ← Finset.mul_sum, hsq]
      nlinarith)
    rw [e]
    congr 1
    unfold IsSegmentDistance at h
    rw [segmentDistances_eq] at h
    refine le_antisymm (h.2 ⟨1 - s, by linarith, by linarith, ?_⟩) ?_
    · rw [eq_comm, norm_eq_zero, sub_eq_zero]
      simp [LineSegment.eval]
    · obtain ⟨_, _, _, rfl⟩ := h.1
      exact norm_nonneg _
  · rw [pdist_eq_norm, pdist_eq_norm, ← abs_of_pos s0, ← Real.norm_eq_abs, ← norm_smul,
      Real.norm_eq_abs, abs_of_pos s0, ← norm_neg]
    congr 1
    simp only [LineSegment.eval, toE_add, toE_mul, toE_sub]
    module

/-- **C134** holds for all query points once the missing case of the clamp is added (the repaired
`distanceFixed` of C121). -/
theorem C134_repaired (l l' : LineSegment P) (p p' : P) (δ : ℝ) (hs : pdist l.start l'.start ≤ δ)
    (he : pdist l.end_ l'.end_ ≤ δ) :
    ∃ d d', l.distanceFixed p = some d ∧ l'.distanceFixed p' = some d' ∧
      |d - d'| ≤ pdist p p' + δ := by
  obtain ⟨d, e, h⟩ := C121_distance l p
  obtain ⟨d', e', h'⟩ := C121_distance l' p'
  refine ⟨d, d', e, e', abs_le.2 ⟨?_, ?_⟩⟩
  · have := segmentDistance_moved (δ := δ) (by rwa [pdist_comm]) (by rwa [pdist_comm]) h' h
    rw [pdist_comm p' p] at this
    linarith
  · have := segmentDistance_moved hs he h h'
    linarith

/-- The hypotheses hold: the segment [1, 3], the query points 2 and 5/2. -/
example : eps ≤ pdist seg13.end_ seg13.start ^ 2 ∧
    ProjectsBeforeEnd seg13 (PointN.new fun _ => 2) ∧
    ProjectsBeforeEnd seg13 (PointN.new fun _ => 5 / 2) := by
  have := eps_lt_one
  refine ⟨?_, ?_, ?_⟩
  · simp only [seg13, LineSegment.new, pdist_pn1]; norm_num; linarith
  · unfold ProjectsBeforeEnd
    show ∑ i ∈ Finset.range 1, _ < _
    rw [Finset.sum_range_one]
    simp only [seg13, LineSegment.new, pdist_pn1, coord_pn1]
    norm_num
  · unfold ProjectsBeforeEnd
    show ∑ i ∈ Finset.range 1, _ < _
    rw [Finset.sum_range_one]
    simp only [seg13, LineSegment.new, pdist_pn1, coord_pn1]
    norm_num

end Stroke
