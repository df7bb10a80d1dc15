import Verif.Props.BSpline
import Verif.Props.BSplineCalculus
import Verif.Props.BSplineJoints
import Verif.Props.BSplineLength
import Verif.Props.BSplineMaps
import Verif.Props.BSplinePieces
import Verif.Props.BSplineReparam
import Verif.Props.BSplineSuccess

/-!
# Witnesses: theorems about B-splines

For theorems without an example of their own next to them: each is applied to a concrete spline
of degree 2, which shows that its hypotheses can be met.
-/

namespace Stroke
namespace Witness

/-- A knot vector of degree 2 for four control points, clamped on both sides. -/
noncomputable def knots : Arr ℝ 7 := ![0, 0, 0, 1 / 2, 1, 1, 1]

noncomputable def points : Arr (PointN ℝ 2) 4 := ![pt2 1 0, pt2 3 4, pt2 6 0, pt2 9 4]

theorem knots_valid : ValidSpline 4 2 knots := by
  refine ⟨by norm_num, by norm_num, ?_⟩
  intro i j hij
  fin_cases i <;> fin_cases j <;> simp at hij <;> simp [knots] <;> norm_num

theorem knots_front : FrontClamped 2 knots :=
  (frontClamped_iff knots_valid).2 (by simp [knotAt, knots, eps_pos])

theorem knots_back : BackClamped 2 knots :=
  (backClamped_iff knots_valid).2 (by simp [knotAt, knots, eps_pos])

/-- The spline of the following examples exists. -/
theorem spline_exists : ∃ b : BSpline ℝ (PointN ℝ 2) 7 4 2, BSpline.new knots points = .ok b :=
  (C43_accepts _ _).2 knots_valid

/-- A quarter turn. -/
noncomputable def turn (p : PointN ℝ 2) : PointN ℝ 2 := pt2 (-coord p 1) (coord p 0)

theorem turn_linear : IsLinearMap turn := by
  intro i
  have hd : Point.dim (PointN ℝ 2) = 2 := rfl
  by_cases hi : i < 2
  · interval_cases i
    · exact ⟨fun j => if j = 1 then -1 else 0, fun p => by
        simp [turn, hd, Finset.sum_range_succ]⟩
    · exact ⟨fun j => if j = 0 then 1 else 0, fun p => by
        simp [turn, hd, Finset.sum_range_succ]⟩
  · exact ⟨fun _ => 0, fun p => by rw [coord_out _ hi]; simp⟩

section Clamped
variable {b : BSpline ℝ (PointN ℝ 2) 7 4 2} (h : BSpline.new knots points = .ok b)
include h

theorem spline_domain : b.knotDomain = some (0, 1) := by
  rw [C45_partial h ⟨fun _ => knots_back, fun _ => knots_front⟩]
  simp [knotAt, knots]

example := C46_outside h
example := C47_partial h (Or.inl knots_front) (t := 1 / 3) (by simp [knotAt, knots])
  (by simp [knotAt, knots]; norm_num)
example := C47_clamped h knots_front knots_back (t := 1 / 3) (spline_domain h) (by norm_num)
  (by norm_num)
example := C48_partial h (Or.inl knots_front) (t := 3 / 4) (k := 3) (by norm_num) (by norm_num)
  (by simp [knotAt, knots]; norm_num) (by simp [knotAt, knots]; norm_num)
  (by
    have : eps ≤ 1 / 4 := by unfold eps; norm_num
    intro i hi
    fin_cases i <;> simp [knots] at hi <;> simp [knots] <;> norm_num at * <;> linarith)
example := C48_near_knots h (Or.inl knots_front) (t := 3 / 4) (k := 3) (by norm_num) (by norm_num)
  (by simp [knotAt, knots]; norm_num) (by simp [knotAt, knots]; norm_num)
example := C49_end h knots_front knots_back (spline_domain h)
example := C49_start_partial h knots_front knots_back (by norm_num)
  (by simp [knotAt, knots]) (spline_domain h)
example := C53_actual h knots_front knots_back (spline_domain h) 10
example := C53_partial h knots_front knots_back (spline_domain h) (by norm_num) (n := 10)
  (by norm_num)
example := C79_shift 5 h
example := C47_no_error h (t := 1 / 3) (spline_domain h) (by norm_num) (by norm_num)
example := C80_linear_partial turn_linear h

end Clamped

/-- Splines clamped on one side only. -/
example (ps : Arr (PointN ℝ 2) 3) : ∃ b b' : BSpline ℝ (PointN ℝ 2) 6 3 2,
    BSpline.new ![0, 0, 0, 1, 2, 3] ps = .ok b ∧ BSpline.new ![0, 1, 2, 3, 3, 3] ps = .ok b' ∧
    FrontClamped 2 (![0, 0, 0, 1, 2, 3] : Fin 6 → ℝ) ∧
    ¬ BackClamped 2 (![0, 0, 0, 1, 2, 3] : Fin 6 → ℝ) ∧
    ¬ FrontClamped 2 (![0, 1, 2, 3, 3, 3] : Fin 6 → ℝ) ∧
    BackClamped 2 (![0, 1, 2, 3, 3, 3] : Fin 6 → ℝ) := by
  obtain ⟨b, hb⟩ := (C43_accepts (D := 2) _ ps).2 valid_000123
  obtain ⟨b', hb'⟩ := (C43_accepts (D := 2) _ ps).2 valid_012333
  exact ⟨b, b', hb, hb', front_000123, not_back_000123, not_front_012333, back_012333⟩

/-- An unclamped spline of degree 1 (C47_unclamped_partial). -/
example (ps : Arr (PointN ℝ 2) 4) : ∃ b : BSpline ℝ (PointN ℝ 2) 6 4 1,
    BSpline.new (uniformKnots 6) ps = .ok b ∧ ∃ q, b.eval (5 / 2 : ℝ) = .ok q := by
  have v : ValidSpline 4 1 (uniformKnots 6) := valid_uniform (by norm_num) (by norm_num)
  have hf : ¬ FrontClamped 1 (uniformKnots 6) :=
    not_front_uniform (C := 4) (by norm_num) (by norm_num) (by norm_num)
  have hg : ¬ BackClamped 1 (uniformKnots 6) :=
    not_back_uniform (C := 4) (by norm_num) (by norm_num) (by norm_num)
  obtain ⟨b, hb⟩ := (C43_accepts (D := 1) _ ps).2 v
  refine ⟨b, hb, C47_unclamped_partial hb hf hg (lo := 1) (hi := 4) ?_ (by norm_num) (by norm_num)⟩
  rw [C45_partial hb ⟨fun x => absurd x hf, fun x => absurd x hg⟩, knotAt_uniform (by norm_num),
    knotAt_uniform (by norm_num)]
  norm_num

/-- An unclamped spline of degree 2, in the part of its domain where the search works
(C47_unclamped_left). -/
example (ps : Arr (PointN ℝ 2) 6) : ∃ b : BSpline ℝ (PointN ℝ 2) 9 6 2,
    BSpline.new (uniformKnots 9) ps = .ok b ∧ ∃ q, b.eval (9 / 2 : ℝ) = .ok q := by
  have v : ValidSpline 6 2 (uniformKnots 9) := valid_uniform (by norm_num) (by norm_num)
  obtain ⟨b, hb⟩ := (C43_accepts (D := 2) _ ps).2 v
  refine ⟨b, hb, C47_unclamped_left hb
    (not_front_uniform (C := 6) (by norm_num) (by norm_num) (by norm_num))
    (not_back_uniform (C := 6) (by norm_num) (by norm_num) (by norm_num)) ?_ ?_ ?_⟩ <;>
  · rw [knotAt_uniform (by norm_num)]; norm_num

example := C82_partial (D := 3) (by norm_num) points
example := C82_false (D := 3) (by norm_num) points
  (by
    intro h
    have := congrArg (fun p => coord p 1) h
    simp [points, coord_default] at this)

end Witness
end Stroke
