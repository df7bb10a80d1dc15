import Verif.Lemmas.Exact

/-!
# Concrete points used in the tests beside the theorems
-/

namespace Stroke

/-- Test data: the segment from 1 to 3 on the number line. -/
noncomputable def seg13 : LineSegment (PointN ℝ 1) :=
  LineSegment.new (PointN.new fun _ => 1) (PointN.new fun _ => 3)

theorem coord_pn1 (x : ℝ) : coord (PointN.new (fun _ : Fin 1 => x)) 0 = x := rfl

theorem coord_pn (n : ℕ) (f : Fin n → ℝ) (i : Fin n) : coord (PointN.new f) i.val = f i := by
  unfold coord
  show (PointN.axis (PointN.new f) i.val).getD 0 = _
  simp [PointN.axis, Arr.get?, i.isLt, i.isLt.le, PointN.new]

theorem pdist_pn1 (x y : ℝ) :
    pdist (PointN.new (fun _ : Fin 1 => x)) (PointN.new (fun _ : Fin 1 => y)) = |x - y| := by
  unfold pdist
  show Real.sqrt (∑ i ∈ Finset.range 1, _) = _
  rw [Finset.sum_range_one, coord_pn1, coord_pn1, Real.sqrt_sq_eq_abs]

/-- Test data: a point of the plane. -/
def pt2 (x y : ℝ) : PointN ℝ 2 := PointN.new ![x, y]

@[simp] theorem coord_pt2_0 (x y : ℝ) : coord (pt2 x y) 0 = x := coord_pn 2 ![x, y] 0
@[simp] theorem coord_pt2_1 (x y : ℝ) : coord (pt2 x y) 1 = y := coord_pn 2 ![x, y] 1

theorem pdist_pt2 (x y x' y' : ℝ) :
    pdist (pt2 x y) (pt2 x' y') = Real.sqrt ((x - x') ^ 2 + (y - y') ^ 2) := by
  unfold pdist
  show Real.sqrt (∑ i ∈ Finset.range 2, _) = _
  rw [Finset.sum_range_succ, Finset.sum_range_one]; simp

end Stroke
