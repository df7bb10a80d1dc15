import Verif.Props.Invariance

set_option linter.unusedSectionVars false

/-!
# A curve and its degree elevations are the same curve (C78)
-/

namespace Stroke

variable {P : Type} [Point ℝ P] [LawfulPoint P] {n : ℕ}

/-! ### Specification -/

/-- `e` are the control points of the curve with control points `p`, written with one degree more:
`(n + 1) e_k = k p_{k-1} + (n + 1 - k) p_k` for a curve of degree `n`. -/
def IsElevation (p : Fin (n + 1) → P) (e : Fin (n + 2) → P) : Prop :=
  ∀ (k : Fin (n + 2)) (i : ℕ), ((n : ℝ) + 1) * coord (e k) i
    = k.val * coord (p ⟨k.val - 1, by omega⟩) i
      + ((n : ℝ) + 1 - k.val) * coord (p ⟨min k.val n, by omega⟩) i

/-! ### Theorems -/

theorem bernstein_raise_left (n k : ℕ) (hk : k ≤ n) (t : ℝ) :
    ((n : ℝ) + 1) * ((1 - t) * bernstein n k t) = ((n : ℝ) + 1 - k) * bernstein (n + 1) k t := by
  unfold bernstein
  have h : ((n + 1 : ℕ) : ℝ) * (n.choose k : ℝ) = ((n + 1).choose k : ℝ) * ((n + 1 - k : ℕ) : ℝ) := by
    have := Nat.choose_mul_succ_eq n k
    rw [mul_comm] at this
    exact_mod_cast this
  rw [Nat.cast_sub (by omega)] at h
  push_cast at h
  rw [show n + 1 - k = n - k + 1 by omega, pow_succ]
  linear_combination (t ^ k * (1 - t) ^ (n - k) * (1 - t)) * h

theorem bernstein_raise_right (n k : ℕ) (t : ℝ) :
    ((n : ℝ) + 1) * (t * bernstein n k t) = ((k : ℝ) + 1) * bernstein (n + 1) (k + 1) t := by
  unfold bernstein
  have h : ((n + 1 : ℕ) : ℝ) * (n.choose k : ℝ) = ((n + 1).choose (k + 1) : ℝ) * ((k + 1 : ℕ) : ℝ) := by
    exact_mod_cast Nat.add_one_mul_choose_eq n k
  push_cast at h
  rw [show n + 1 - (k + 1) = n - k by omega]
  linear_combination (t ^ k * (1 - t) ^ (n - k) * t) * h

theorem elevation_coord {p : Fin (n + 1) → P} {e : Fin (n + 2) → P} (h : IsElevation p e)
    (t : ℝ) (i : ℕ) : bezierCoord e t i = bezierCoord p t i := by
  have hn : ((n : ℝ) + 1) ≠ 0 := by positivity
  apply mul_left_cancel₀ hn
  unfold bezierCoord
  have e1 : ((n : ℝ) + 1) * ∑ k : Fin (n + 2), bernstein (n + 2 - 1) k.val t * coord (e k) i
      = ∑ k : Fin (n + 2), (bernstein (n + 1) k.val t * (k.val * coord (p ⟨k.val - 1, by omega⟩) i)
        + bernstein (n + 1) k.val t
          * (((n : ℝ) + 1 - k.val) * coord (p ⟨min k.val n, by omega⟩) i)) := by
    rw [Finset.mul_sum]
    refine Finset.sum_congr rfl fun k _ => ?_
    rw [← mul_add, ← h k i, show n + 2 - 1 = n + 1 by omega]
    ring
  rw [e1, Finset.sum_add_distrib, Fin.sum_univ_succ,
    Fin.sum_univ_castSucc (f := fun k : Fin (n + 2) => bernstein (n + 1) k.val t
          * (((n : ℝ) + 1 - k.val) * coord (p ⟨min k.val n, by omega⟩) i))]
  simp only [Fin.val_zero, Fin.val_succ, Fin.val_castSucc, Fin.val_last]
  have e2 : ((n : ℝ) + 1) * ∑ k : Fin (n + 1), bernstein (n + 1 - 1) k.val t * coord (p k) i
      = (∑ k : Fin (n + 1), ((n : ℝ) + 1) * (t * bernstein n k.val t) * coord (p k) i)
        + ∑ k : Fin (n + 1), ((n : ℝ) + 1) * ((1 - t) * bernstein n k.val t) * coord (p k) i := by
    rw [← Finset.sum_add_distrib, Finset.mul_sum]
    refine Finset.sum_congr rfl fun k _ => ?_
    rw [show n + 1 - 1 = n by omega]
    ring
  rw [e2]
  have e3 : ∀ k : Fin (n + 1), bernstein (n + 1) (k.val + 1) t
        * (((k.val + 1 : ℕ) : ℝ) * coord (p ⟨k.val + 1 - 1, by omega⟩) i)
      = ((n : ℝ) + 1) * (t * bernstein n k.val t) * coord (p k) i := by
    intro k
    rw [bernstein_raise_right]
    have : (⟨k.val + 1 - 1, by omega⟩ : Fin (n + 1)) = k := Fin.ext (by simp)
    rw [this]; push_cast; ring
  have e4 : ∀ k : Fin (n + 1), bernstein (n + 1) k.val t
        * (((n : ℝ) + 1 - k.val) * coord (p ⟨min k.val n, by omega⟩) i)
      = ((n : ℝ) + 1) * ((1 - t) * bernstein n k.val t) * coord (p k) i := by
    intro k
    rw [bernstein_raise_left n k.val (by omega)]
    have : (⟨min k.val n, by omega⟩ : Fin (n + 1)) = k := Fin.ext (by simp; omega)
    rw [this]; ring
  simp only [e3, e4]
  push_cast
  ring

/-- **C78** (curves of any degree): raising the degree by one changes neither the points of the
curve nor what `arclen` and `distance_to_point` report. -/
theorem C78_bezier (p : Fin (n + 1) → P) (e : Fin (n + 2) → P) (h : IsElevation p e) :
    (∀ t : ℝ, (Bezier.new e).eval t = (Bezier.new p).eval t) ∧
    (∀ m : ℕ, (Bezier.new e).arclen (S := ℝ) m = (Bezier.new p).arclen m) ∧
    (∀ x : P, (Bezier.new e).distanceToPoint (S := ℝ) x = (Bezier.new p).distanceToPoint x) := by
  have he : ∀ t : ℝ, (Bezier.new e).eval t = (Bezier.new p).eval t := by
    intro t
    obtain ⟨q, hq, hc⟩ := C30_eval (Bezier.new e) (by omega) t
    obtain ⟨q', hq', hc'⟩ := C30_eval (Bezier.new p) (by omega) t
    rw [hq, hq']
    congr 1
    apply point_ext; intro i
    rw [hc, hc']
    exact elevation_coord h t i
  have h0 : e ⟨0, by omega⟩ = p ⟨0, by omega⟩ := by
    apply point_ext; intro i
    have := h ⟨0, by omega⟩ i
    have hn : ((n : ℝ) + 1) ≠ 0 := by positivity
    simp only [Nat.cast_zero, zero_mul, zero_add, sub_zero, Nat.zero_min] at this
    exact mul_left_cancel₀ hn this
  refine ⟨he, fun m => ?_, fun x => ?_⟩
  · rw [bezier_arclen_eq, bezier_arclen_eq, funext he]
  · rw [bezier_distance_eq, bezier_distance_eq, funext he, Arr.get?_lt _ (by omega),
      Arr.get?_lt _ (by omega)]
    show (some (e ⟨0, _⟩)).bind _ = (some (p ⟨0, _⟩)).bind _
    rw [h0]

/-- **C78** (specialised curves): a line segment written as a quadratic curve, and a quadratic
curve written as a cubic one, have the same points; the quadratic and cubic curves also have the
same `arclen`, `distance_to_point` and points of the derivative. -/
theorem C78_specialised (a b c d1 d2 m : P)
    (hm : ∀ i, 2 * coord m i = coord a i + coord b i)
    (h1 : ∀ i, 3 * coord d1 i = coord a i + 2 * coord b i)
    (h2 : ∀ i, 3 * coord d2 i = 2 * coord b i + coord c i) :
    (∀ t : ℝ, (QuadraticBezier.new a m b).eval t = (LineSegment.new a b).eval t) ∧
    (∀ t : ℝ, (CubicBezier.new a d1 d2 c).eval t = (QuadraticBezier.new a b c).eval t) ∧
    (∀ t : ℝ, (CubicBezier.new a d1 d2 c).derivative.eval t
      = (QuadraticBezier.new a b c).derivative.eval t) ∧
    (∀ k : ℕ, (CubicBezier.new a d1 d2 c).arclen (S := ℝ) k
      = (QuadraticBezier.new a b c).arclen k) ∧
    (∀ x : P, (CubicBezier.new a d1 d2 c).distanceToPoint (S := ℝ) x
      = (QuadraticBezier.new a b c).distanceToPoint x) := by
  have hm' : ∀ i, coord m i = (coord a i + coord b i) / 2 := fun i => by linarith [hm i]
  have h1' : ∀ i, coord d1 i = (coord a i + 2 * coord b i) / 3 := fun i => by linarith [h1 i]
  have h2' : ∀ i, coord d2 i = (2 * coord b i + coord c i) / 3 := fun i => by linarith [h2 i]
  have he : ∀ t : ℝ, (CubicBezier.new a d1 d2 c).eval t = (QuadraticBezier.new a b c).eval t := by
    intro t
    apply point_ext; intro i
    simp [CubicBezier.eval, CubicBezier.new, QuadraticBezier.eval, QuadraticBezier.new, h1', h2']
    ring
  have hec : ∀ t : ℝ, (CubicBezier.new a d1 d2 c).evalCasteljau t
      = (QuadraticBezier.new a b c).evalCasteljau t := by
    intro t
    apply point_ext; intro i
    simp [CubicBezier.evalCasteljau, CubicBezier.new, QuadraticBezier.evalCasteljau,
      QuadraticBezier.new, h1', h2']
    ring
  refine ⟨fun t => ?_, he, fun t => ?_, fun k => ?_, fun x => ?_⟩
  · apply point_ext; intro i
    simp [LineSegment.eval, LineSegment.new, QuadraticBezier.eval, QuadraticBezier.new, hm']
    ring
  · apply point_ext; intro i
    simp [CubicBezier.derivative, CubicBezier.new, QuadraticBezier.derivative,
      QuadraticBezier.eval, QuadraticBezier.new, LineSegment.eval, h1', h2']
    ring
  · rw [cubic_arclen_eq, quadratic_arclen_eq]; simp only [hec]
  · rw [cubic_distance_eq, quadratic_distance_eq]; simp only [he]; rfl

/-- Test: the elevation of the segment from 0 to 6 on the number line is 0, 3, 6. -/
example : IsElevation ![pt1 0, pt1 6] ![pt1 0, pt1 3, pt1 6] := by
  intro k i
  by_cases hi : i < 1
  · interval_cases i
    fin_cases k <;> norm_num [Matrix.cons_val_one, Matrix.cons_val_zero]
  · rw [coord_out _ hi, coord_out _ hi, coord_out _ hi]; ring

end Stroke
