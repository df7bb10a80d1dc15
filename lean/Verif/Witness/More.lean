import Verif.Witness.Exact
import Verif.Witness.BSpline
import Verif.Props.AnyMaps
import Verif.Props.BSplineUnclamped
import Verif.Props.Easing
import Verif.Props.Elevation
import Verif.Props.FlatBothWays
import Verif.Props.Influence
import Verif.Props.Intersect
import Verif.Props.NewAny
import Verif.Props.NoLoops
import Verif.Props.RepairedBSpline
import Verif.Props.RepairedCurves

/-!
# Witnesses: more theorems about exact arithmetic

For theorems without an example of their own next to them: each is applied to a concrete curve,
which shows that its hypotheses can be met.
-/

namespace Stroke
namespace Witness

/-! ### Orders along an axis (C69, C116, C117) -/

/-- The x coordinates of the control points of the zigzag grow. -/
theorem zigzag_mono : ∀ j k : Fin 5, j ≤ k →
    coord (zigzag.control_points j) 0 ≤ coord (zigzag.control_points k) 0 := by
  intro j k hjk
  fin_cases j <;> fin_cases k <;> simp at hjk <;> simp [zigzag, Bezier.new] <;> norm_num

theorem zigzag_lt : coord (zigzag.control_points ⟨0, by norm_num⟩) 0
    < coord (zigzag.control_points ⟨5 - 1, by norm_num⟩) 0 := by
  simp [zigzag, Bezier.new]

/-- The direction of the x axis. -/
noncomputable def axisX : ℕ → ℝ := fun i => if i = 0 then 1 else 0

theorem side_axisX (p : PointN ℝ 2) : side axisX 0 p = coord p 0 := by
  have hd : Point.dim (PointN ℝ 2) = 2 := rfl
  simp [side, hd, axisX]

theorem zigzag_side_mono : ∀ j k : Fin 5, j ≤ k →
    side axisX 0 (zigzag.control_points j) ≤ side axisX 0 (zigzag.control_points k) := by
  intro j k hjk
  rw [side_axisX, side_axisX]
  exact zigzag_mono j k hjk

theorem zigzag_side_lt : side axisX 0 (zigzag.control_points ⟨0, by norm_num⟩)
    < side axisX 0 (zigzag.control_points ⟨5 - 1, by norm_num⟩) := by
  rw [side_axisX, side_axisX]
  exact zigzag_lt

example := C69_axis zigzag 0 zigzag_mono 0 (1 / 2) le_rfl (by norm_num) (by norm_num)
example := C116_strict zigzag (by norm_num) 0 zigzag_mono zigzag_lt (s := 1 / 3) (t := 1 / 2)
  (by norm_num) (by norm_num) (by norm_num)
example := C116_unique zigzag (by norm_num) 0 zigzag_mono zigzag_lt (v := 5)
  (by simp [zigzag, Bezier.new]) (by simp [zigzag, Bezier.new]; norm_num)
example := C116_cubic_unique cubic 0 (by simp [cubic, CubicBezier.new])
  (by simp [cubic, CubicBezier.new]; norm_num) (by simp [cubic, CubicBezier.new]; norm_num)
  (by simp [cubic, CubicBezier.new])
example := C117_advance zigzag (by norm_num) axisX zigzag_side_mono zigzag_side_lt (s := 1 / 3)
  (t := 1 / 2) (by norm_num) (by norm_num) (by norm_num)
example := fun s t hs ht => C117_no_loop zigzag (by norm_num) axisX zigzag_side_mono zigzag_side_lt
  (s := s) (t := t) hs ht
example := C117_no_cusp zigzag (by norm_num) axisX zigzag_side_mono zigzag_side_lt (t := 1 / 2)
  (by norm_num) (by norm_num)

/-- `C116_cubic`: the timing curve (0,0), (1/4,1/10), (1/4,1), (1,1) and the time 1/2. -/
example := C116_cubic (CubicBezier.new (pt2 0 0) (pt2 (1 / 4) (1 / 10)) (pt2 (1 / 4) 1) (pt2 1 1))
  (1 / 2) 0 (by decide) (by simp [CubicBezier.new]) (by simp [CubicBezier.new])
  (by simp [CubicBezier.new]; norm_num) (by simp [CubicBezier.new])
  (by simp [CubicBezier.new]; norm_num) _ _ _ _ _ _ rfl rfl rfl rfl rfl rfl
  (by
    have := eps_lt_one
    simp only [CubicBezier.new, pdist_pt2]
    rw [Real.sq_sqrt (by norm_num)]; norm_num; linarith)
  (by
    have := eps_lt_one
    simp only [CubicBezier.new, coord_pt2_0]
    norm_num; linarith)

/-- `C113_bezier`: control points on a parabola, whose steps grow. -/
noncomputable def parabola : Bezier (PointN ℝ 2) 4 := .new ![pt2 0 0, pt2 1 1, pt2 2 4, pt2 3 9]

example (p q r : PointN ℝ 2) := C113_bezier parabola 1 (by
    intro k h
    have hk : k < 2 := by omega
    interval_cases k <;> simp [parabola, Bezier.new] <;> norm_num)
  (s := 0) (t := 1 / 2) (l := 1 / 2) (by simp) ⟨half0, half1⟩ ⟨half0, half1⟩ (p := p) (q := q)
  (r := r)

/-! ### Length and distance -/

theorem quad_moves : quad.eval (1 / (4 : ℕ) : ℝ) ≠ quad.start := by
  intro h
  have := congrArg (fun p => coord p 0) h
  simp [quad, QuadraticBezier.eval, QuadraticBezier.new] at this
  norm_num at this

theorem cubic_moves : cubic.eval (1 / (4 : ℕ) : ℝ) ≠ cubic.start := by
  intro h
  have := congrArg (fun p => coord p 0) h
  simp [cubic, CubicBezier.eval, CubicBezier.new] at this
  norm_num at this

example := C15_false quad 4 (by norm_num) quad_moves
example := C26_false cubic 4 (by norm_num) cubic_moves
example := C73_bezier zigzag (by norm_num) 5 zigzag_legs (1 / 3) (1 / 2) (by norm_num)
  (by norm_num) (by norm_num)
example := C91_higher zigzag (k := 3) (by norm_num)
example := C94_bezier_distance zigzag 2 (pt2 6 5) (1 / 2) half0 half1
example := C94_influence (n := 5) (k := 2) (by norm_num) (1 / 3) (by norm_num) (by norm_num)
example := C121_arclen_bezier zigzag (by norm_num)
example := C121_arclen_split zigzag (by norm_num) (m := 2) (n := 7) (by norm_num) (by norm_num)
example := C121_curve_distance zigzag (by norm_num) (pt2 1 1) 5 zigzag_legs
example := C121_is_linear_quadratic quad 1 (by
  rw [dist_eq (D := 6) (by norm_num) (by simp [quad, QuadraticBezier.new])]
  have := eps_lt_one
  linarith)

/-! ### Boxes (C103) -/

/-- `C103_distance`, `C103_overlap`, `C103_diagonal` and `C103_point`: the boxes of the two
curves exist, so the theorems apply to them; both boxes contain abscissa 3. -/
example : ∃ box box', HasBox (fun t => cubic.eval t) box ∧ HasBox (fun t => quad.eval t) box' ∧
    (box 0).1 ≤ (box' 0).2 ∧ (box' 0).1 ≤ (box 0).2 ∧
    Real.sqrt (∑ i : Fin (Point.dim (PointN ℝ 2)), intervalGap (box i) (box' i) (2 * eps / 3) ^ 2)
      ≤ pdist (cubic.eval (1 / 2 : ℝ)) (quad.eval (1 / 3 : ℝ)) ∧
    Real.sqrt (∑ i : Fin (Point.dim (PointN ℝ 2)),
      intervalGap (box i) (coord (pt2 20 20) i, coord (pt2 20 20) i) (eps / 3) ^ 2)
      ≤ pdist (pt2 20 20) (cubic.eval (1 / 2 : ℝ)) ∧
    pdist (cubic.eval (0 : ℝ)) (cubic.eval (1 : ℝ)) ≤ Real.sqrt
      (∑ i : Fin (Point.dim (PointN ℝ 2)), ((box i).2 - (box i).1 + 2 * eps / 3) ^ 2) := by
  obtain ⟨_, ⟨box', h'⟩, box, h⟩ := C103_total line quad cubic
  refine ⟨box, box', h, h', ?_, ?_, C103_distance h h' (by norm_num) (by norm_num) (by norm_num)
    (by norm_num), C103_point h (pt2 20 20) (by norm_num) (by norm_num),
    C103_diagonal h (by norm_num) (by norm_num) (by norm_num) (by norm_num)⟩
  · have h1 := (h.contains 0 (t := 0) le_rfl zero_le_one).1
    have h2 := (h'.contains 0 (t := 1) zero_le_one le_rfl).2
    have he : (eps : ℝ) < 1 := eps_lt_one
    have e1 : coord (cubic.eval (0 : ℝ)) ((0 : Fin 2) : ℕ) = 0 := by
      simp [cubic, CubicBezier.eval, CubicBezier.new]
    have e2 : coord (quad.eval (1 : ℝ)) ((0 : Fin 2) : ℕ) = 6 := by
      simp [quad, QuadraticBezier.eval, QuadraticBezier.new]
    linarith [e1, e2]
  · have h1 := (h'.contains 0 (t := 0) le_rfl zero_le_one).1
    have h2 := (h.contains 0 (t := 1) zero_le_one le_rfl).2
    have he : (eps : ℝ) < 1 := eps_lt_one
    have e1 : coord (quad.eval (0 : ℝ)) ((0 : Fin 2) : ℕ) = 0 := by
      simp [quad, QuadraticBezier.eval, QuadraticBezier.new]
    have e2 : coord (cubic.eval (1 : ℝ)) ((0 : Fin 2) : ℕ) = 9 := by
      simp [cubic, CubicBezier.eval, CubicBezier.new]
    linarith [e1, e2]

/-! ### Invariance -/

theorem turn_similarity : IsSimilarity turn 1 := by
  refine ⟨?_, fun p q => ?_⟩
  · intro i
    obtain ⟨m, hm⟩ := turn_linear i
    exact ⟨m, 0, fun p => by rw [hm, add_zero]⟩
  · rw [one_mul]
    unfold pdist
    rw [show Point.dim (PointN ℝ 2) = 2 from rfl]
    simp only [Finset.sum_range_succ, Finset.sum_range_zero, zero_add, turn, coord_pt2_0,
      coord_pt2_1]
    congr 1
    ring

example := C76_line_rigid turn_similarity (pt2 0 0) (pt2 3 4) (pt2 1 1)
example := C77_rigid turn_similarity (pt2 0 0) (pt2 3 4) (pt2 6 0) (pt2 9 4) 1

example := C37_bezier turn turn_similarity.1 zigzag (1 / 3)

/-! ### Intersections (C120) -/

/-- The S-shaped curve and a copy of it mirrored in the line x = 9/2 both pass through
(9/2, 2), so that the search for common points keeps a pair of pieces. -/
example (n : ℕ) : ∃ i j, (i, j) ∈ intersect CubicBezier.halve CubicBezier.halve
    CubicBezier.boundingBox CubicBezier.boundingBox eps n cubic
    (CubicBezier.new (pt2 9 0) (pt2 6 4) (pt2 3 0) (pt2 0 4)) := by
  have he := eps_pos
  obtain ⟨i, j, h, _⟩ := C120_complete_cubics (m := eps) cubic
    (CubicBezier.new (pt2 9 0) (pt2 6 4) (pt2 3 0) (pt2 0 4)) n (by linarith)
    (s := 1 / 2) (t := 1 / 2) half0 half1 half0 half1 (by
      apply point_ext; intro i
      by_cases hi : i < 2
      · interval_cases i <;> (simp [cubic, CubicBezier.eval, CubicBezier.new]; try norm_num)
      · rw [coord_out _ hi, coord_out _ hi])
  exact ⟨i, j, h⟩

/-- The arch and the S-shaped curve both start at the origin. -/
example (n : ℕ) : ∃ i j, (i, j) ∈ intersect QuadraticBezier.halve CubicBezier.halve
    QuadraticBezier.boundingBox CubicBezier.boundingBox eps n quad cubic := by
  have he := eps_pos
  obtain ⟨i, j, h, _⟩ := C120_complete_mixed (m := eps) quad cubic n (by linarith)
    (s := 0) (t := 0) le_rfl zero_le_one le_rfl zero_le_one (by
      apply point_ext; intro i
      by_cases hi : i < 2
      · interval_cases i <;>
          simp [quad, cubic, QuadraticBezier.eval, QuadraticBezier.new, CubicBezier.eval,
            CubicBezier.new]
      · rw [coord_out _ hi, coord_out _ hi])
  exact ⟨i, j, h⟩

/-! ### Flat pieces (C119) -/

/-- A curve whose points all lie within 1/8 of its start. -/
example := C119_point (QuadraticBezier.new (pt2 0 0) (pt2 (1 / 8) 0) (pt2 0 (1 / 8)))
  (CubicBezier.new (pt2 0 0) (pt2 (1 / 8) 0) (pt2 0 (1 / 8)) (pt2 (1 / 8) 0)) 1 half0 half1

example := C119_flatten_cubic _ 1 0 zero_le_one (by
  intro p hp
  simp only [adaptive, List.mem_singleton] at hp
  rw [hp]
  exact Or.inl flat_cubic_witness)

/-! ### Roots -/

example := C56_degenerate (eps / 2) 1 0 (-1) (by
  have := eps_pos
  rw [abs_of_pos (by linarith)]; linarith)

/-! ### B-splines -/

section Clamped
variable {b : BSpline ℝ (PointN ℝ 2) 7 4 2} (h : BSpline.new knots points = .ok b)
include h

example := C44_stores_any h
example := C52_false h (by norm_num)
example := C121_bspline h (t := 1 / 3) (by simp [knotAt, knots]) (by simp [knotAt, knots]; norm_num)
example := C121_bspline_outside h (t := 2) (Or.inr (by simp [knotAt, knots]))
example := C121_bspline_end h
example := C121_bspline_convex h (t := 1 / 3) (by simp [knotAt, knots])
  (by simp [knotAt, knots]; norm_num)
example := C121_bspline_arclen h

end Clamped

/-- `C45_one_sided`. -/
example (ps : Arr (PointN ℝ 2) 3) {b b' : BSpline ℝ (PointN ℝ 2) 6 3 2}
    (h : BSpline.new ![0, 0, 0, 1, 2, 3] ps = .ok b)
    (h' : BSpline.new ![0, 1, 2, 3, 3, 3] ps = .ok b') :
    b.knotDomain = some (0, 3) ∧ b'.knotDomain = some (0, 3) := by
  constructor
  · rw [(C45_one_sided h).1 front_000123 not_back_000123]
    simp [knotAt]
  · rw [(C45_one_sided h').2 not_front_012333 back_012333]
    simp [knotAt]

/-- Unclamped splines of degree 2 over the knots 0, 1, ..., 7 (`C48_unclamped_far`,
`C48_unclamped_found`): at 5/2 the search starts two spans too far and the result is control
point 2; at 9/2 it starts at the right span. -/
example (ps : Arr (PointN ℝ 2) 5) : ∃ b : BSpline ℝ (PointN ℝ 2) 8 5 2,
    BSpline.new (uniformKnots 8) ps = .ok b ∧ b.eval (5 / 2 : ℝ) = .ok (ps 2) ∧
    ∃ q, b.eval (9 / 2 : ℝ) = .ok q ∧ ∀ c, coord q c = splineCoord 2 (uniformKnots 8) ps (9 / 2) c
      - coxDeBoor (knotAt (uniformKnots 8)) 2 4 (9 / 2) * coord (ps 4) c := by
  have v : ValidSpline 5 2 (uniformKnots 8) := valid_uniform (by norm_num) (by norm_num)
  obtain ⟨b, hb⟩ := (C43_accepts (D := 2) _ ps).2 v
  have hf : ¬ FrontClamped 2 (uniformKnots 8) :=
    not_front_uniform (C := 5) (by norm_num) (by norm_num) (by norm_num)
  have hg : ¬ BackClamped 2 (uniformKnots 8) :=
    not_back_uniform (C := 5) (by norm_num) (by norm_num) (by norm_num)
  have hu : ∀ i : ℕ, i < 8 → knotAt (uniformKnots 8) i = i := fun i hi => knotAt_uniform hi
  have hpr : ∀ (t : ℝ) (p : ℕ), Probe 8 p → p < 4 → knotAt (uniformKnots 8) (p + 1) ≤ t := by
    intro t p hp hlt
    exfalso
    have : 8 / 2 ≤ p := by
      induction hp with
      | first => exact le_rfl
      | next _ _ => omega
    omega
  have heps : ∀ i : Fin 8, uniformKnots 8 i < 9 / 2 → eps ≤ 9 / 2 - uniformKnots 8 i := by
    intro i hi
    have he : eps ≤ 1 / 2 := by unfold eps; norm_num
    have hui : uniformKnots 8 i = ((i.val : ℕ) : ℝ) := by
      rw [← hu i i.2, knotAt_lt _ i.2]
    rw [hui] at hi ⊢
    have : i.val ≤ 4 := by
      by_contra hn
      have : (5 : ℝ) ≤ (i.val : ℝ) := by exact_mod_cast (by omega : 5 ≤ i.val)
      linarith
    have : (i.val : ℝ) ≤ 4 := by exact_mod_cast this
    linarith
  obtain ⟨hi, h1⟩ := C48_unclamped_far hb hf hg (t := 5 / 2) (m := 2) (k := 4) le_rfl
    (by rw [hu 2 (by norm_num)]; norm_num) (by rw [hu _ (by norm_num)]; norm_num) Probe.first
    (by norm_num) (by norm_num) (hpr _)
  obtain ⟨q, h2, hc⟩ := C48_unclamped_found hb hf hg (t := 9 / 2) (m := 4) (by norm_num)
    (by norm_num) (by rw [hu 4 (by norm_num)]; norm_num) (by rw [hu _ (by norm_num)]; norm_num) heps
    Probe.first (hpr _)
  exact ⟨b, hb, h1, q, h2, hc⟩

end Witness
end Stroke
