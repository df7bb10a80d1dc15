import Verif.Spec.Curves
import Verif.Lemmas.SegmentDistance
import Verif.Lemmas.Concrete
import Mathlib.Analysis.Calculus.Deriv.Mul
import Mathlib.Analysis.Calculus.Deriv.Add
import Mathlib.Tactic.LinearCombination

/-!
# Properties of `LineSegment` (C05–C09)
-/

namespace Stroke

variable {P : Type} [Point ℝ P] [LawfulPoint P]

/-- **C05**: `eval` is linear interpolation, at every parameter. -/
theorem C05_eval (l : LineSegment P) (t : ℝ) (i : ℕ) :
    coord (l.eval t) i = (1 - t) * coord l.start i + t * coord l.end_ i := by
  simp [LineSegment.eval]; ring

/-- **C05**: the end points are interpolated. -/
theorem C05_endpoints (l : LineSegment P) : l.eval (0 : ℝ) = l.start ∧ l.eval (1 : ℝ) = l.end_ := by
  constructor <;> apply point_ext <;> intro i <;> rw [C05_eval] <;> ring

/-- **C05**: `axis(t, i)` is component `i` of `eval(t)` (and panics with it). -/
theorem C05_axis (l : LineSegment P) (t : ℝ) (i : ℕ) :
    l.axis t i = Point.axis (l.eval t) i := by
  unfold LineSegment.axis
  by_cases h : i < Point.dim P
  · rw [axis_eq _ h, axis_eq _ h, axis_eq _ h]
    simp only [LineSegment.eval, coord_add, coord_mul, coord_sub]
    rfl
  · rw [axis_none l.start h, axis_none (l.eval t) h]; rfl

/-- **C06** is false of the code: for every segment with distinct end points and
every `t ≠ 0`, the two halves do not join at `eval(t)`. -/
theorem C06_false (l : LineSegment P) (hl : l.start ≠ l.end_) (t : ℝ) (ht : t ≠ 0) :
    (l.split t).1.eval (1 : ℝ) ≠ l.eval t ∧ (l.split t).2.eval (0 : ℝ) ≠ l.eval t := by
  have key : ∀ q : P, q = l.start + (l.start - l.end_) * t → q ≠ l.eval t := by
    intro q hq h
    apply hl
    apply point_ext
    intro i
    have := congrArg (coord · i) (hq.symm.trans h)
    simp [LineSegment.eval] at this
    rcases this with h | h
    · linarith
    · exact absurd h ht
  constructor
  · apply key; rw [(C05_endpoints _).2]; rfl
  · apply key; rw [(C05_endpoints _).1]; rfl

/-- Test: a segment meeting the hypotheses of `C06_false`. -/
example : seg13.start ≠ seg13.end_ ∧ (1/2 : ℝ) ≠ 0 := by
  refine ⟨fun h => ?_, by norm_num⟩
  have := congrArg (coord · 0) h
  simp only [seg13, LineSegment.new, coord_pn1] at this
  norm_num at this

/-- **C06** (what the code does): the cut is at parameter `-t`; the left half runs
along `eval` from 0 to `-t`, the right half from `-t` to 1. -/
theorem C06_actual (l : LineSegment P) (t s : ℝ) :
    (l.split t).1.eval s = l.eval (-t * s) ∧
    (l.split t).2.eval s = l.eval (-t + (1 + t) * s) := by
  constructor <;> apply point_ext <;> intro i <;>
    simp only [LineSegment.split, LineSegment.eval, coord_add, coord_mul, coord_sub] <;> ring

/-- **C06** (partial: only `t = 0`, or a degenerate segment): there the halves are
the reparametrised pieces.  Missing: every other `t`, where the claim is false
(`C06_false`). -/
theorem C06_partial (l : LineSegment P) (t : ℝ) (h : t = 0 ∨ l.start = l.end_) (s : ℝ) :
    (l.split t).1.eval s = l.eval (t * s) ∧
    (l.split t).2.eval s = l.eval (t + (1 - t) * s) := by
  rw [(C06_actual l t s).1, (C06_actual l t s).2]
  rcases h with h | h
  · subst h; simp
  · constructor <;> apply point_ext <;> intro i <;> rw [C05_eval, C05_eval, h] <;> ring

/-! ### Distance -/

/-- **C07** (partial): whenever the end points are at least `√EPSILON` apart and the
query point projects strictly before the end point, the result is the distance
to the nearest point of the segment.  Missing: query points projecting at or
beyond the end point, where the claim is false (`C07_false`), and segments
shorter than `√EPSILON`, where it holds up to `√EPSILON` (`C07_short`). -/
theorem C07_partial (l : LineSegment P) (p : P) (hl : eps ≤ pdist l.end_ l.start ^ 2)
    (hp : ∑ i ∈ Finset.range (Point.dim P),
        (coord p i - coord l.start i) * (coord l.end_ i - coord l.start i)
          < pdist l.end_ l.start ^ 2) :
    ∃ d, l.distanceToPoint p = some d ∧ IsSegmentDistance l.start l.end_ p d := by
  rw [distanceToPoint_eq, if_neg (not_lt.2 hl)]
  refine ⟨_, rfl, ?_⟩
  have hl2 : 0 < pdist l.end_ l.start ^ 2 := lt_of_lt_of_le eps_pos hl
  unfold IsSegmentDistance
  rw [segmentDistances_eq]
  set dot := ∑ i ∈ Finset.range (Point.dim P),
        (coord p i - coord l.start i) * (coord l.end_ i - coord l.start i) with hdot
  set L := pdist l.end_ l.start ^ 2 with hL
  have hr : dot / L < 1 := by rwa [div_lt_one hl2]
  have hdot' : dot = inner ℝ (toE p - toE l.start) (toE l.end_ - toE l.start) := by
    rw [← toE_sub, ← toE_sub, inner_toE, hdot]; simp
  have hL' : L = ‖toE l.end_ - toE l.start‖ ^ 2 := by rw [hL, pdist_eq_norm]
  simp only [hr, if_true]
  have hrew : ∀ s : ℝ, toE l.start + s • (toE l.end_ - toE l.start) - toE p
      = s • (toE l.end_ - toE l.start) - (toE p - toE l.start) := fun s => by abel
  have hev : pdist p (l.eval (max (dot / L) 0))
      = ‖toE l.start + (max (dot / L) 0) • (toE l.end_ - toE l.start) - toE p‖ := by
    rw [pdist_comm, pdist_eq_norm]; simp [LineSegment.eval]
  rw [hev]
  refine ⟨⟨_, le_max_right _ _, max_le hr.le zero_le_one, rfl⟩, ?_⟩
  rintro r ⟨s, hs0, hs1, rfl⟩
  apply (sq_le_sq₀ (norm_nonneg _) (norm_nonneg _)).1
  rw [hrew, hrew, sq_dist_param, sq_dist_param, ← hdot', ← hL']
  have hd : dot = dot / L * L := by field_simp
  set c := dot / L
  rw [hd]
  rcases le_total c 0 with h | h
  · rw [max_eq_right h]; nlinarith [mul_nonneg hs0 hl2.le, mul_nonneg (mul_nonneg hs0 hl2.le) (neg_nonneg.2 h), mul_nonneg (mul_nonneg hs0 hs0) hl2.le]
  · rw [max_eq_left h]; nlinarith [mul_nonneg hl2.le (sq_nonneg (s - c))]

/-- Test: a segment and a query point meeting the hypotheses of `C07_partial`. -/
example : eps ≤ pdist seg13.end_ seg13.start ^ 2 ∧
    ∑ i ∈ Finset.range (Point.dim (PointN ℝ 1)),
      (coord (PointN.new fun _ : Fin 1 => (2 : ℝ)) i - coord seg13.start i)
        * (coord seg13.end_ i - coord seg13.start i) < pdist seg13.end_ seg13.start ^ 2 := by
  simp only [seg13, LineSegment.new, pdist_pn1]
  refine ⟨by have := eps_lt_one; norm_num; linarith, ?_⟩
  show ∑ i ∈ Finset.range 1, _ < _
  rw [Finset.sum_range_one]
  simp only [coord_pn1]
  norm_num

/-- **C07** is false of the code for every query point projecting at or beyond the
end point: the nearest point of the segment is its end point, but the distance
to its start point, which is strictly larger, is returned. -/
theorem C07_false (l : LineSegment P) (p : P) (hl : eps ≤ pdist l.end_ l.start ^ 2)
    (hp : pdist l.end_ l.start ^ 2 ≤ ∑ i ∈ Finset.range (Point.dim P),
        (coord p i - coord l.start i) * (coord l.end_ i - coord l.start i)) :
    l.distanceToPoint p = some (pdist p l.start) ∧
    IsSegmentDistance l.start l.end_ p (pdist p l.end_) ∧ pdist p l.end_ < pdist p l.start := by
  have hl2 : 0 < pdist l.end_ l.start ^ 2 := lt_of_lt_of_le eps_pos hl
  have hr : ¬ (∑ i ∈ Finset.range (Point.dim P),
        (coord p i - coord l.start i) * (coord l.end_ i - coord l.start i))
          / pdist l.end_ l.start ^ 2 < 1 := by
    rw [not_lt, one_le_div hl2]; exact hp
  have hdot : ∑ i ∈ Finset.range (Point.dim P),
        (coord p i - coord l.start i) * (coord l.end_ i - coord l.start i)
      = inner ℝ (toE p - toE l.start) (toE l.end_ - toE l.start) := by
    rw [← toE_sub, ← toE_sub, inner_toE]; simp
  have hL : pdist l.end_ l.start ^ 2 = ‖toE l.end_ - toE l.start‖ ^ 2 := by rw [pdist_eq_norm]
  have hd : ∀ s : ℝ, ‖toE l.start + s • (toE l.end_ - toE l.start) - toE p‖ ^ 2
      = ‖toE p - toE l.start‖ ^ 2 - 2 * s * inner ℝ (toE p - toE l.start) (toE l.end_ - toE l.start)
        + s ^ 2 * ‖toE l.end_ - toE l.start‖ ^ 2 := fun s => by
    rw [← sq_dist_param]; congr 2; abel
  have h1 : pdist p l.end_ = ‖toE l.start + (1 : ℝ) • (toE l.end_ - toE l.start) - toE p‖ := by
    rw [pdist_comm, pdist_eq_norm]; simp
  rw [hdot, hL] at hp
  rw [hL] at hl2
  refine ⟨?_, ?_, ?_⟩
  · rw [distanceToPoint_eq, if_neg (not_lt.2 hl)]
    simp only [hr, if_false]
    rw [(C05_endpoints l).1]
  · unfold IsSegmentDistance
    rw [segmentDistances_eq, h1]
    refine ⟨⟨1, zero_le_one, le_rfl, rfl⟩, ?_⟩
    rintro r ⟨s, hs0, hs1, rfl⟩
    apply (sq_le_sq₀ (norm_nonneg _) (norm_nonneg _)).1
    rw [hd, hd]
    nlinarith [mul_nonneg (sub_nonneg.2 hs1) (sub_nonneg.2 hp),
      mul_nonneg (mul_nonneg (sub_nonneg.2 hs1) (sub_nonneg.2 hs1)) hl2.le]
  · rw [h1, pdist_eq_norm]
    apply (sq_lt_sq₀ (norm_nonneg _) (norm_nonneg _)).1
    rw [hd]
    nlinarith

/-- Test: a segment and a query point meeting the hypotheses of `C07_false`: the
distance from 4 to the segment [1, 3] is reported as 3 instead of 1. -/
example : seg13.distanceToPoint (PointN.new fun _ => 4) = some (3 : ℝ) := by
  rw [(C07_false seg13 (PointN.new fun _ => 4) ?_ ?_).1]
  · simp only [seg13, LineSegment.new, pdist_pn1]; norm_num
  · simp only [seg13, LineSegment.new, pdist_pn1]
    have := eps_lt_one; norm_num; linarith
  · show _ ≤ ∑ i ∈ Finset.range 1, _
    rw [Finset.sum_range_one]
    simp only [seg13, LineSegment.new, pdist_pn1, coord_pn1]
    norm_num

/-- **C07** (all inputs): the call never panics, and the result is the distance to
*some* point of the segment, hence never below the true distance. -/
theorem C07_never_below (l : LineSegment P) (p : P) :
    ∃ d, l.distanceToPoint p = some d ∧ d ∈ segmentDistances l.start l.end_ p := by
  rw [distanceToPoint_eq]
  refine ⟨_, rfl, ?_⟩
  rw [segmentDistances_eq]
  have hev : ∀ t : ℝ, pdist p (l.eval t)
      = ‖toE l.start + t • (toE l.end_ - toE l.start) - toE p‖ := fun t => by
    rw [pdist_comm, pdist_eq_norm]; simp [LineSegment.eval]
  split
  · exact ⟨0, le_rfl, zero_le_one, by rw [pdist_eq_norm]; simp⟩
  · simp only [hev]
    split
    · rename_i h
      exact ⟨_, le_max_right _ _, max_le h.le zero_le_one, rfl⟩
    · exact ⟨0, le_rfl, zero_le_one, rfl⟩

/-- **C07** (segments shorter than `√EPSILON`): the result exceeds the true
distance by less than `√EPSILON`. -/
theorem C07_short (l : LineSegment P) (p : P) (hl : pdist l.end_ l.start ^ 2 < eps) :
    l.distanceToPoint p = some (pdist l.start p) ∧
    ∀ d ∈ segmentDistances l.start l.end_ p, pdist l.start p ≤ d + Real.sqrt eps := by
  refine ⟨by rw [distanceToPoint_eq, if_pos hl], ?_⟩
  rw [segmentDistances_eq]
  rintro d ⟨s, hs0, hs1, rfl⟩
  have h2 : ‖toE l.end_ - toE l.start‖ ≤ Real.sqrt eps := by
    rw [pdist_eq_norm] at hl
    exact Real.le_sqrt_of_sq_le hl.le
  have h3 : ‖s • (toE l.end_ - toE l.start)‖ ≤ Real.sqrt eps := by
    rw [norm_smul, Real.norm_eq_abs, abs_of_nonneg hs0]
    exact le_trans (mul_le_of_le_one_left (norm_nonneg _) hs1) h2
  rw [pdist_eq_norm]
  have h4 : toE l.start - toE p = (toE l.start + s • (toE l.end_ - toE l.start) - toE p)
      - s • (toE l.end_ - toE l.start) := by abel
  rw [h4]
  exact (norm_sub_le _ _).trans (by linarith)

/-- Test: a degenerate segment meets the hypothesis of `C07_short`. -/
example : pdist (LineSegment.new (PointN.new fun _ : Fin 1 => (5 : ℝ)) (PointN.new fun _ => 5)).end_
    (LineSegment.new (PointN.new fun _ : Fin 1 => (5 : ℝ)) (PointN.new fun _ => 5)).start ^ 2 < eps := by
  simp only [LineSegment.new, pdist_pn1]; simpa using eps_pos

/-! ### Derivative and bounding box -/

/-- **C08**: `derivative()` is the derivative of `eval` at every parameter. -/
theorem C08_derivative (l : LineSegment P) (t : ℝ) :
    HasPointDerivAt (fun u : ℝ => l.eval u) (coord l.derivative) t := by
  intro i _
  have h : HasDerivAt (fun u : ℝ => coord l.start i + (coord l.end_ i - coord l.start i) * u)
      ((coord l.end_ i - coord l.start i) * 1) t :=
    ((hasDerivAt_id t).const_mul _).const_add _
  simpa [LineSegment.derivative, LineSegment.eval] using h

/-- **C09**: the box never panics, contains the segment, and each bound is attained. -/
theorem C09_bounding_box (l : LineSegment P) :
    ∃ box, l.boundingBox = some box ∧ ∀ i : Fin (Point.dim P),
      (box i).1 ≤ (box i).2 ∧
      ContainsRange (fun t => coord (l.eval t) i) (box i).1 (box i).2 ∧
      AttainsEnds (fun t => coord (l.eval t) i) (box i).1 (box i).2 := by
  refine ⟨fun i => (min (coord l.start i) (coord l.end_ i), max (coord l.start i) (coord l.end_ i)),
    ?_, ?_⟩
  · unfold LineSegment.boundingBox
    rw [iter_length]
    apply forRange_fill
    intro i hi b
    rw [axis_eq _ hi, axis_eq _ hi]
    simp only [Option.bind_eq_bind, Option.bind_some, lt_real, decide_eq_true_eq]
    split
    · rename_i h; rw [min_eq_left h.le, max_eq_right h.le]
    · rename_i h; rw [min_eq_right (not_lt.1 h), max_eq_left (not_lt.1 h)]
  · intro i
    refine ⟨min_le_max, ?_, ?_⟩
    · intro t h0 h1
      simp only [C05_eval]
      have h1' : 0 ≤ 1 - t := by linarith
      constructor
      · have a := mul_le_mul_of_nonneg_left (min_le_left (coord l.start i) (coord l.end_ i)) h1'
        have b := mul_le_mul_of_nonneg_left (min_le_right (coord l.start i) (coord l.end_ i)) h0
        linarith
      · have a := mul_le_mul_of_nonneg_left (le_max_left (coord l.start i) (coord l.end_ i)) h1'
        have b := mul_le_mul_of_nonneg_left (le_max_right (coord l.start i) (coord l.end_ i)) h0
        linarith
    · simp only [AttainsEnds, C05_eval]
      rcases le_total (coord l.start i) (coord l.end_ i) with h | h
      · rw [min_eq_left h, max_eq_right h]
        exact ⟨⟨0, le_rfl, zero_le_one, by ring⟩, ⟨1, zero_le_one, le_rfl, by ring⟩⟩
      · rw [min_eq_right h, max_eq_left h]
        exact ⟨⟨1, zero_le_one, le_rfl, by ring⟩, ⟨0, le_rfl, zero_le_one, by ring⟩⟩

end Stroke
