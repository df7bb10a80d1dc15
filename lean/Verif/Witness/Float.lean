import Verif.Props.Witnesses
import Verif.Props.AnyMaps
import Verif.Props.FloatBSpline
import Verif.Props.FloatBSplineEval
import Verif.Props.FloatBoxPanics
import Verif.Props.FloatDerivative
import Verif.Props.FloatExact
import Verif.Props.FloatFlatten
import Verif.Props.FloatHull
import Verif.Props.FloatMonotone
import Verif.Props.FloatPropagation
import Verif.Props.PolylineError
import Verif.Props.ArcLengthRate
import Verif.Props.FloatContinuity

/-!
# Witnesses: theorems about floating point

For theorems without an example of their own next to them: each is applied to a concrete curve in
double precision, which shows that its hypotheses can be met.
-/

namespace Stroke
namespace Witness
open Scalar Fl

variable (cosI acosI : ℝ → ℝ) (powI : ℝ → ℝ → ℝ)

local notation "F" => binary64 cosI acosI powI
local notation "pt" => smallPoint cosI acosI powI
local notation "Q" => smallQuad cosI acosI powI
local notation "C" => smallCubic cosI acosI powI

/-- The parameter 3/8. -/
theorem param_ok : (3 / 8 : ℝ) ∈ (F).grid ∧ |(3 / 8 : ℝ)| ≤ (F).max := by
  have h := binary64_dyadics cosI acosI powI 3 3 (by norm_num) (by norm_num)
  norm_num at h ⊢
  exact h

local notation "p38" => param_ok cosI acosI powI

theorem u_le : (F).u ≤ 1 / 1024 := (b64_small cosI acosI powI).1.trans (by norm_num)
theorem eta_le : (F).eta ≤ 1 / 1024 := (b64_small cosI acosI powI).2.1.trans (by norm_num)
theorem max_ge {x : ℝ} (h : x ≤ 10 ^ 60) : x ≤ (F).max := h.trans (b64_small cosI acosI powI).2.2
theorem bd (a b : Fin 11) : BoundedBy 10 (pt a b) := smallPoint_bounded cosI acosI powI a b
theorem finite_pt (a b : Fin 11) : FinitePoint (pt a b) := fun i => (bd cosI acosI powI a b i).1

theorem pt_ne (a b : Fin 11) (i : Fin 2) : (pt a b).coords i ≠ nan := by
  intro h
  have := finite_pt cosI acosI powI a b i
  rw [h] at this
  exact this

/-- 3/8 as a parameter in [0, 1). -/
theorem unit38 : UnitParam (fin (3 / 8) (p38) : Fl F) := by
  constructor
  · rw [lit_zero]; exact le_fin.2 (by norm_num)
  · rw [lit_one]; exact lt_fin.2 (by norm_num)

/-- All the points lie in the square from 0 to 10. -/
theorem inside (a b : Fin 11) : InsideBox (fun _ => 0) (fun _ => 10) (pt a b) := by
  intro i
  refine ⟨(bd cosI acosI powI a b i).1, ?_, (abs_le.1 (bd cosI acosI powI a b i).2).2⟩
  fin_cases i
  · show 0 ≤ ((pt a b).coords 0).toReal
    rw [smallPoint_zero]; positivity
  · show 0 ≤ ((pt a b).coords 1).toReal
    rw [smallPoint_one]; positivity

theorem inside_Q : ∀ p ∈ (Q).controlPoints, InsideBox (fun _ => 0) (fun _ => 10) p := by
  intro p hp
  simp only [QuadraticBezier.controlPoints, smallQuad, List.mem_cons, List.not_mem_nil,
    or_false] at hp
  rcases hp with rfl | rfl | rfl <;> exact inside cosI acosI powI _ _

theorem inside_C : ∀ p ∈ (C).controlPoints, InsideBox (fun _ => 0) (fun _ => 10) p := by
  intro p hp
  simp only [CubicBezier.controlPoints, smallCubic, List.mem_cons, List.not_mem_nil,
    or_false] at hp
  rcases hp with rfl | rfl | rfl | rfl <;> exact inside cosI acosI powI _ _

/-- A path of five halvings at 3/8. -/
noncomputable def path : List (Fl F × Bool) :=
  [(fin _ (p38), true), (fin _ (p38), false), (fin _ (p38), true), (fin _ (p38), true),
    (fin _ (p38), false)]

theorem path_mem : ∀ x ∈ path cosI acosI powI, x.1 = fin _ (p38) := by
  intro x hx
  simp only [path, List.mem_cons, List.not_mem_nil, or_false] at hx
  rcases hx with rfl | rfl | rfl | rfl | rfl <;> rfl

/-! ### Evaluation, derivatives, splits -/

example := C67_quadratic_eval (Q) (M := 10) (p38) (by norm_num) (by norm_num) (u_le cosI acosI powI)
  (eta_le cosI acosI powI) (bd cosI acosI powI _ _) (bd cosI acosI powI _ _)
  (bd cosI acosI powI _ _) (max_ge cosI acosI powI (by norm_num))
example := C67_line_eval (⟨pt 1 2, pt 3 4⟩ : LineSegment _) (M := 10) (p38) (by norm_num) (by norm_num)
  (u_le cosI acosI powI) (eta_le cosI acosI powI) (bd cosI acosI powI _ _)
  (bd cosI acosI powI _ _) (max_ge cosI acosI powI (by norm_num))
example := C67_quadratic_casteljau (Q) (M := 10) (p38) (by norm_num) (by norm_num)
  (u_le cosI acosI powI) (eta_le cosI acosI powI) (bd cosI acosI powI _ _) (bd cosI acosI powI _ _)
  (bd cosI acosI powI _ _) (max_ge cosI acosI powI (by norm_num))
example := C67_quadratic_agree (Q) (M := 10) (p38) (by norm_num) (by norm_num)
  (u_le cosI acosI powI) (eta_le cosI acosI powI) (bd cosI acosI powI _ _) (bd cosI acosI powI _ _)
  (bd cosI acosI powI _ _) (max_ge cosI acosI powI (by norm_num))
example := C92_cubic (C) (M := 10) (p38) (by norm_num) (by norm_num) (u_le cosI acosI powI)
  (eta_le cosI acosI powI) (bd cosI acosI powI _ _) (bd cosI acosI powI _ _)
  (bd cosI acosI powI _ _) (bd cosI acosI powI _ _) (max_ge cosI acosI powI (by norm_num))
example := C86_quadratic (Q) (M := 10) (p38) (by norm_num) (by norm_num) (u_le cosI acosI powI)
  (eta_le cosI acosI powI) (bd cosI acosI powI _ _) (bd cosI acosI powI _ _)
  (bd cosI acosI powI _ _) (max_ge cosI acosI powI (by norm_num))
example := C86_cubic (C) (M := 10) (p38) (by norm_num) (by norm_num) (u_le cosI acosI powI)
  (eta_le cosI acosI powI) (bd cosI acosI powI _ _) (bd cosI acosI powI _ _)
  (bd cosI acosI powI _ _) (bd cosI acosI powI _ _) (max_ge cosI acosI powI (by norm_num))
example (i : Fin 2) := C86_cubic_descend (C) (i := i) (s := 1 / 2) (M := 10) (by norm_num) (u_le cosI acosI powI)
  (eta_le cosI acosI powI) (bd cosI acosI powI _ _) (bd cosI acosI powI _ _)
  (bd cosI acosI powI _ _) (bd cosI acosI powI _ _) (max_ge cosI acosI powI (by norm_num))
  (path cosI acosI powI)
  (fun x hx => by
    rw [path_mem cosI acosI powI x hx]
    exact ⟨trivial, by norm_num, by norm_num⟩)
  (by
    obtain ⟨hu, he, _⟩ := b64_small cosI acosI powI
    show ((5 : ℕ) : ℝ) * (20 * (F).u * (10 + 1) + 14 * (F).eta) ≤ 1
    norm_num at hu he ⊢
    linarith) (by norm_num) (by norm_num)
example := C60_cubic (C) (finite_pt cosI acosI powI _ _) (finite_pt cosI acosI powI _ _)
  (finite_pt cosI acosI powI _ _) (finite_pt cosI acosI powI _ _)
example := C112_float_quadratic (Q) (M := 10) (p38) (p38)
  (l := 1 / 2) ⟨by norm_num, by norm_num⟩ ⟨by norm_num, by norm_num⟩ ⟨by norm_num, by norm_num⟩
  (u_le cosI acosI powI) (eta_le cosI acosI powI) (by norm_num) (bd cosI acosI powI _ _)
  (bd cosI acosI powI _ _) (bd cosI acosI powI _ _) (max_ge cosI acosI powI (by norm_num)) le_rfl
example := C101_binary64 cosI acosI powI (C) (M := 10) (D := 30) (by norm_num) (by norm_num)
  (by norm_num) (bd cosI acosI powI _ _) (bd cosI acosI powI _ _) (bd cosI acosI powI _ _)
  (bd cosI acosI powI _ _) (small_dist _ _ _ _ _ _ _) (small_dist _ _ _ _ _ _ _)
  (small_dist _ _ _ _ _ _ _) 1000 (by norm_num) (by norm_num)

/-! ### Staying inside a box -/

example := C108_line (C108_ieee cosI acosI powI).1 (⟨pt 1 2, pt 3 4⟩ : LineSegment _) (fun _ => 0) (fun _ => 10)
  (fun _ => max_ge cosI acosI powI (by norm_num)) (inside cosI acosI powI _ _)
  (inside cosI acosI powI _ _) (unit38 cosI acosI powI)
example := C108_quadratic (C108_ieee cosI acosI powI).1 (Q) (fun _ => 0) (fun _ => 10)
  (fun _ => max_ge cosI acosI powI (by norm_num)) (inside_Q cosI acosI powI)
  (unit38 cosI acosI powI)
example := C108_quadratic_descend (C108_ieee cosI acosI powI).1 (fun _ => 0) (fun _ => 10)
  (fun _ => max_ge cosI acosI powI (by norm_num)) (path cosI acosI powI)
  (fun x hx => by rw [path_mem cosI acosI powI x hx]; exact unit38 cosI acosI powI) (Q)
  (inside_Q cosI acosI powI)
example := C108_quadratic_box (C108_ieee cosI acosI powI).1 (Q) (fun _ => 0) (fun _ => 10)
  (fun _ => max_ge cosI acosI powI (by norm_num)) (inside_Q cosI acosI powI)
example := C108_cubic_box (C108_ieee cosI acosI powI).1 (C) (fun _ => 0) (fun _ => 10)
  (fun _ => max_ge cosI acosI powI (by norm_num)) (inside_C cosI acosI powI)
example := C109_cubic (C108_ieee cosI acosI powI).1 (u_le cosI acosI powI) (eta_le cosI acosI powI) (C)

/-- `C64_quadratic`, `C64_cubic`: the curves have boxes. -/
example : (∃ box, (Q).boundingBox = some box) ∧ ∃ box, (C).boundingBox = some box := by
  obtain ⟨b, hb, _⟩ := C108_quadratic_box (C108_ieee cosI acosI powI).1 (Q) (fun _ => 0)
    (fun _ => 10) (fun _ => max_ge cosI acosI powI (by norm_num)) (inside_Q cosI acosI powI)
  obtain ⟨b', hb', _⟩ := C108_cubic_box (C108_ieee cosI acosI powI).1 (C) (fun _ => 0)
    (fun _ => 10) (fun _ => max_ge cosI acosI powI (by norm_num)) (inside_C cosI acosI powI)
  exact ⟨⟨b, hb⟩, b', hb'⟩

/-- `C109_quadratic_axis`: a curve with an infinite control point has a box. -/
example : ∃ (q : QuadraticBezier (PointN (Fl F) 2)) (box : Arr (Fl F × Fl F) 2),
    q.boundingBox = some box ∧ ¬ (q.ctrl.coords 0).IsFinite ∧
    box 0 = minmax (q.start.coords 0) (q.end_.coords 0) := by
  have h := (C109_quadratic (C108_ieee cosI acosI powI).1
    (⟨pt 1 2, ⟨fun _ => inf true⟩, pt 3 4⟩ : QuadraticBezier _)).not
  have hb : (⟨pt 1 2, ⟨fun _ => inf true⟩, pt 3 4⟩ : QuadraticBezier _).boundingBox ≠ none :=
    h.2 (by
      rintro ⟨i, h | h⟩
      · exact pt_ne cosI acosI powI 1 2 i h
      · exact pt_ne cosI acosI powI 3 4 i h)
  obtain ⟨box, hb⟩ := Option.ne_none_iff_exists'.1 hb
  exact ⟨_, box, hb, not_false, C109_quadratic_axis _ hb 0 (fun h => h.2.1)⟩

example := C64_line (⟨pt 1 2, pt 3 4⟩ : LineSegment _) (pt_ne cosI acosI powI 1 2)
  (pt_ne cosI acosI powI 3 4)

/-! ### Lines and constants -/

example := C97_constant (finite_pt cosI acosI powI 3 4) (t := fin _ (p38)) trivial
example (i : Fin 2) := C97_line_monotone (⟨pt 1 2, pt 3 4⟩ : LineSegment _) i
  (t := fin _ (p38)) (t' := fin _ (p38)) (le_fin.2 le_rfl)

/-! ### Computed curves do not jump -/

/-- `C118_cubic`: in double precision, the horizontal coordinate of a small cubic curve with the
control coordinates 0, 0, 4, 4 goes back by less than 10⁻¹¹ between any two parameters. -/
example {s t : ℝ} (hs : s ∈ (F).grid ∧ |s| ≤ (F).max) (ht : t ∈ (F).grid ∧ |t| ≤ (F).max)
    (s0 : 0 ≤ s) (hst : s ≤ t) (t1 : t ≤ 1) :
    (((C).eval (fin s hs)).coords 0).toReal ≤ (((C).eval (fin t ht)).coords 0).toReal + 1 / 10 ^ 11 := by
  obtain ⟨hu, he, hm⟩ := b64_small cosI acosI powI
  have u0 := (F).u_nonneg
  have e0 := (F).eta_nonneg
  have bd := smallPoint_bounded cosI acosI powI
  have h := ((C118_cubic (C) hs ht ⟨s0, hst.trans t1⟩ ⟨s0.trans hst, t1⟩
    (hu.trans (by norm_num)) (he.trans (by norm_num)) (bd _ _) (bd _ _) (bd _ _) (bd _ _)
    (by norm_num) (le_trans (by norm_num) hm) 0 0 0 4 4
    (by rw [smallCubic, smallPoint_zero]; norm_num) (by rw [smallCubic, smallPoint_zero]; norm_num)
    (by rw [smallCubic, smallPoint_zero]; norm_num)
    (by rw [smallCubic, smallPoint_zero]; norm_num)).2 le_rfl (by norm_num) le_rfl hst).1
  refine h.trans (add_le_add_right ?_ _)
  calc _ ≤ 2 * (((1 + 1 / 10 ^ 15 : ℝ) ^ 9 - 1) * 10 + (54 * 10 + 10) * (1 / 10 ^ 15)) := by gcongr
    _ ≤ _ := by norm_num

/-- `C118_bezier` applies to every pair of parameters. -/
example {s t : ℝ} (hs : s ∈ (F).grid ∧ |s| ≤ (F).max) (ht : t ∈ (F).grid ∧ |t| ≤ (F).max)
    (s01 : 0 ≤ s ∧ s ≤ 1) (t01 : 0 ≤ t ∧ t ≤ 1) :=
  C118_bezier (by norm_num) (smallBezier cosI acosI powI) hs ht s01 t01
    (smallBezier_bounded cosI acosI powI) (by norm_num) rfl (by
      obtain ⟨hu, he, hm⟩ := b64_small cosI acosI powI
      have := smallBezier_error cosI acosI powI
      rw [add_sub_cancel]
      exact this.trans (le_trans (by norm_num) hm))

/-! ### Splines -/

/-- `C46_float`, `C63_nan_parameter`, `C49_float_end`: a spline whose knots are finite. -/
example : ∃ (knots : Arr (Fl F) 5) (b : BSpline (Fl F) (PointN (Fl F) 2) 5 3 1),
    FiniteKnots knots ∧ b.eval nan = .err .KnotDomainViolation := by
  obtain ⟨knots, b, hb, hk, _⟩ := clamped_float_witness («F» := binary64 cosI acosI powI)
  exact ⟨knots, b, hk, C63_nan_parameter hb hk⟩

end Witness
end Stroke
