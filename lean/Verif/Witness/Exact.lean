import Verif.Props.ArcLength
import Verif.Props.ArcLengthRate
import Verif.Props.ArcLengthShape
import Verif.Props.ArcLengthSplit
import Verif.Props.Bezier
import Verif.Props.BoundingBox
import Verif.Props.BoxRelations
import Verif.Props.Circle
import Verif.Props.Cubic
import Verif.Props.Culling
import Verif.Props.CutOrder
import Verif.Props.Distance
import Verif.Props.Invariance
import Verif.Props.Line
import Verif.Props.Lipschitz
import Verif.Props.PolylineError
import Verif.Props.Roots
import Verif.Props.Segment
import Verif.Props.SplitJoin
import Verif.Props.Subdivision
import Verif.Props.Tangents
import Verif.Props.Variation

/-!
# Witnesses: theorems about exact arithmetic

For theorems without an example of their own next to them: each is applied to a concrete curve,
which shows that its hypotheses can be met.
-/

namespace Stroke
namespace Witness

/-- A quadratic curve with legs of length 5. -/
noncomputable def quad : QuadraticBezier (PointN ℝ 2) := .new (pt2 0 0) (pt2 3 4) (pt2 6 0)

/-- An S-shaped cubic curve with legs of length 5. -/
noncomputable def cubic : CubicBezier (PointN ℝ 2) := .new (pt2 0 0) (pt2 3 4) (pt2 6 0) (pt2 9 4)

/-- A line segment. -/
noncomputable def line : LineSegment (PointN ℝ 2) := .new (pt2 0 0) (pt2 3 4)

/-- A zigzag with five control points and legs of length 5. -/
noncomputable def zigzag : Bezier (PointN ℝ 2) 5 :=
  .new ![pt2 0 0, pt2 3 4, pt2 6 0, pt2 9 4, pt2 12 0]

theorem dist_le {p q : PointN ℝ 2} {D : ℝ} (hD : 0 ≤ D)
    (h : (coord p 0 - coord q 0) ^ 2 + (coord p 1 - coord q 1) ^ 2 ≤ D ^ 2) : pdist p q ≤ D := by
  unfold pdist
  rw [show Point.dim (PointN ℝ 2) = 2 from rfl, Real.sqrt_le_left hD]
  simpa only [Finset.sum_range_succ, Finset.sum_range_zero, zero_add] using h

theorem dist_eq {p q : PointN ℝ 2} {D : ℝ} (hD : 0 ≤ D)
    (h : (coord p 0 - coord q 0) ^ 2 + (coord p 1 - coord q 1) ^ 2 = D ^ 2) : pdist p q = D := by
  unfold pdist
  rw [show Point.dim (PointN ℝ 2) = 2 from rfl]
  simp only [Finset.sum_range_succ, Finset.sum_range_zero, zero_add]
  rw [h, Real.sqrt_sq hD]

theorem quad_legs : pdist quad.start quad.ctrl ≤ 5 ∧ pdist quad.ctrl quad.end_ ≤ 5 := by
  constructor <;> refine dist_le (by norm_num) ?_ <;>
    simp [quad, QuadraticBezier.new] <;> norm_num

theorem cubic_legs : pdist cubic.start cubic.ctrl1 ≤ 5 ∧ pdist cubic.ctrl1 cubic.ctrl2 ≤ 5 ∧
    pdist cubic.ctrl2 cubic.end_ ≤ 5 := by
  refine ⟨?_, ?_, ?_⟩ <;> refine dist_le (by norm_num) ?_ <;>
    simp [cubic, CubicBezier.new] <;> norm_num

theorem zigzag_legs : ∀ (k : ℕ) (h : k + 1 < 5), pdist (zigzag.control_points ⟨k, by omega⟩)
    (zigzag.control_points ⟨k + 1, h⟩) ≤ 5 := by
  intro k h
  have hk : k < 4 := by omega
  interval_cases k <;> refine dist_le (by norm_num) ?_ <;>
    simp [zigzag, Bezier.new] <;> norm_num

theorem zigzag_bends : ∀ (k : ℕ) (h : k + 2 < 5),
    pdist (zigzag.control_points ⟨k + 1, by omega⟩ - zigzag.control_points ⟨k, by omega⟩)
      (zigzag.control_points ⟨k + 2, h⟩ - zigzag.control_points ⟨k + 1, by omega⟩) ≤ 8 := by
  intro k h
  have hk : k < 3 := by omega
  interval_cases k <;> refine dist_le (by norm_num) ?_ <;>
    simp [zigzag, Bezier.new, coord_sub] <;> norm_num

theorem half0 : (0 : ℝ) ≤ 1 / 2 := by norm_num
theorem half1 : (1 / 2 : ℝ) ≤ 1 := by norm_num

/-! ### Length -/

example := C39_actual zigzag (by norm_num)
example := C39_partial zigzag (by norm_num)
example := C101_bezier zigzag (by norm_num) 5 8 zigzag_legs zigzag_bends 10 (by norm_num)
example := C101_simple zigzag (by norm_num) 5 zigzag_legs 10 (by norm_num)
example := C101_quadratic quad 5 quad_legs.1 quad_legs.2 10 (by norm_num)
example := C71_refine quad cubic zigzag (by norm_num) 3 2 (by norm_num)
example := C71_control_polygon zigzag (by norm_num) 7
example := C71_arc_length zigzag (by norm_num)
example := C71_at_least_chord quad cubic 4 (by norm_num)
example := C71_reverse_partial (pt2 0 0) (pt2 3 4) (pt2 6 0) (pt2 9 4) 4 (by norm_num)
example := C95_partial zigzag (by norm_num) (m := 2) (n := 7) (by norm_num) (by norm_num)
example := C95_specialised_partial quad cubic (m := 2) (n := 7) (by norm_num) (by norm_num)
example := C95_limit zigzag (by norm_num) (1 / 2) half0 half1

/-! ### Generic curves -/

example := C30_eval zigzag (by norm_num) (1 / 2)
example := C31_endpoints zigzag (by norm_num)
example := C34_derivative zigzag (by norm_num) (1 / 2)
example := C35_partial (S := ℝ) zigzag (by norm_num)
example := C36_bezier zigzag (by norm_num) (1 / 2) half0 half1
example := C36_specialised line quad cubic (1 / 2) half0 half1
example := C36_bounds zigzag (by norm_num) (1 / 2) half0 half1 1 0 4
  (by intro k; fin_cases k <;> simp [zigzag, Bezier.new])
  (by intro k; fin_cases k <;> simp [zigzag, Bezier.new])
example := C102_derivative zigzag (by norm_num) (1 / 3)
example := C91_split zigzag (by norm_num) (1 / 3) (1 / 2)
example := C91_integral zigzag (by norm_num)
example := C91_integral_specialised line quad cubic 0 1 (i := 1) (by decide)
example := C91_higher_end (S := ℝ) zigzag (by norm_num)
example := C65_bezier zigzag (by norm_num) (1 / 3)

/-! ### Boxes, distances, flatness -/

example := C58_no_panic line quad cubic (1 / 2) 1 (by decide)
example := C70_split_quadratic quad (1 / 2) half0 half1
example := C70_split_cubic cubic (1 / 2) half0 half1
example := C85_exact 2 half0 half1
example := C23_partial cubic (1 / 2) 0 (Or.inr (Or.inr (by simp [cubic, CubicBezier.new])))
example := C40_partial zigzag (by norm_num) (pt2 1 1) 5 zigzag_legs
example := C16_partial quad (pt2 1 1) 5 quad_legs.1 quad_legs.2
example := C27_partial cubic (pt2 1 1) 5 cubic_legs.1 cubic_legs.2.1 cubic_legs.2.2
example := C06_partial line 0 (Or.inl rfl) (1 / 2)
example := C42_split_linear_false line
  (by
    intro h
    have := congrArg (fun p => coord p 0) h
    simp [line, LineSegment.new] at this) 1 one_ne_zero
example := C66_tiles_quadratic quad 5
example := C66_small_quadratic quad 4 1
  (by have := max_le quad_legs.1 quad_legs.2; norm_num; linarith)
example := C66_flatten_quadratic quad 1 4 zero_le_one
  (by have := max_le quad_legs.1 quad_legs.2; norm_num; linarith)
example := C66_tiles_cubic cubic 5
example := C66_flatten_cubic cubic 1 4 zero_le_one
  (by have := max_le cubic_legs.1 (max_le cubic_legs.2.1 cubic_legs.2.2); norm_num; linarith)
example := C66_depth_exists 5 (1 / 100) (by norm_num)
example := C28_complete_false (pt2 0 0) (pt2 3 4)
  (by
    rw [dist_eq (D := 5) (by norm_num) (by simp; norm_num)]
    have : eps ≤ 1 := by unfold eps; norm_num
    linarith) 1
  (by rw [dist_eq (D := 5) (by norm_num) (by simp; norm_num)]; norm_num)

/-! ### Perturbation and polylines -/

example := C72_bezier zigzag (Bezier.new fun k => zigzag.control_points k + pt2 1 0) (by norm_num) 1
  (by
    intro k
    refine dist_le (by norm_num) ?_
    simp [Bezier.new, coord_add])
  (1 / 2) half0 half1
example := C112_chord zigzag (by norm_num) (A := 8) (by norm_num) zigzag_bends
  (s := 0) (t := 1 / 2) (l := 1 / 2) (by simp) ⟨half0, half1⟩ ⟨half0, half1⟩
example := C112_bezier zigzag (by norm_num) (A := 8) (by norm_num) zigzag_bends (n := 20)
  (by norm_num) half0 half1
example := C112_steps zigzag (by norm_num) (A := 8) (tol := 1 / 100) (by norm_num) (by norm_num)
  zigzag_bends (n := 40) (by norm_num)
  (by rw [Real.sqrt_le_left (by norm_num)]; norm_num) half0 half1
example := C112_quadratic quad (A := 8)
  (by refine dist_le (by norm_num) ?_; simp [quad, QuadraticBezier.new, coord_sub]; norm_num)
  (n := 20) (by norm_num) half0 half1
example := C112_cubic cubic (A := 8)
  (by refine dist_le (by norm_num) ?_; simp [cubic, CubicBezier.new, coord_sub]; norm_num)
  (by refine dist_le (by norm_num) ?_; simp [cubic, CubicBezier.new, coord_sub]; norm_num)
  (n := 20) (by norm_num) half0 half1

/-! ### Similarities and half planes -/

example := C76_curves (P := PointN ℝ 2) (N := 5) (r := 3) (f := fun p => p * (-3 : ℝ)) (by norm_num)
  (by simpa using scaling_similarity (P := PointN ℝ 2) (-3)) (pt2 1 1)
example := C68_bezier zigzag (fun i => if i = 1 then 1 else 0) 1 ⟨0, by
  have hd : Point.dim (PointN ℝ 2) = 2 := rfl
  simp [side, hd, zigzag, Bezier.new]⟩
example := C69_bezier zigzag (fun i => if i = 0 then 1 else 0) (by
  have hd : Point.dim (PointN ℝ 2) = 2 := rfl
  intro j k hjk
  fin_cases j <;> fin_cases k <;> simp at hjk <;> simp [side, hd, zigzag, Bezier.new] <;> norm_num)
  0 (1 / 2) le_rfl (by norm_num) (by norm_num)

/-- The hypotheses of C103: the two curves have bounding boxes. -/
example : ∃ box box', HasBox (fun t => cubic.eval t) box ∧ HasBox (fun t => quad.eval t) box' := by
  obtain ⟨_, ⟨box', h'⟩, box, h⟩ := C103_total line quad cubic
  exact ⟨box, box', h, h'⟩

/-! ### Roots -/

example := C56_one_root_partial 1 0 1 0 (by rw [abs_one]; unfold eps; norm_num) (by norm_num)
example := C56_three_roots_partial 1 0 (-1) 0 (by rw [abs_one]; unfold eps; norm_num) (by norm_num)
example := C57_quadratic_partial quad 1 0 (by decide) _ _ _ rfl rfl rfl
example := C57_cubic_partial cubic 1 0 (by decide) _ _ _ _ _ rfl rfl rfl rfl rfl

end Witness
end Stroke
