import Verif.Props.Uniqueness
import Mathlib.Analysis.MeanInequalities

/-!
# Moving one control point (C94)
-/

set_option linter.unusedSectionVars false

namespace Stroke

variable {P : Type} [Point ℝ P] [LawfulPoint P] {N : ℕ}

theorem bezierCoord_update (ps : Fin N → P) (k : Fin N) (v : P) (t : ℝ) (i : ℕ) :
    bezierCoord (Function.update ps k v) t i
      = bezierCoord ps t i + bernstein (N - 1) k.val t * (coord v i - coord (ps k) i) := by
  unfold bezierCoord
  rw [← sub_eq_iff_eq_add', ← Finset.sum_sub_distrib, Finset.sum_eq_single k]
  · rw [Function.update_self]; ring
  · intro j _ hj
    rw [Function.update_of_ne hj, sub_self]
  · intro h; exact absurd (Finset.mem_univ _) h

/-- **C94**: writing the point `v` over control point `k` (through the mutable iterator) moves the
point at `t` by the `k`-th Bernstein polynomial at `t` times the displacement of the control
point. -/
theorem C94_bezier (b : Bezier P N) (k : Fin N) (v : P) (t : ℝ) :
    ∃ p p', b.eval t = some p ∧
      (b.iterMut fun j q => if j = k.val then v else q).eval t = some p' ∧
      ∀ i, coord p' i - coord p i
        = bernstein (N - 1) k.val t * (coord v i - coord (b.control_points k) i) := by
  have hN : 1 ≤ N := by have := k.isLt; omega
  obtain ⟨p, hp, hc⟩ := C30_eval b hN t
  obtain ⟨p', hp', hc'⟩ := C30_eval (b.iterMut fun j q => if j = k.val then v else q) hN t
  refine ⟨p, p', hp, hp', fun i => ?_⟩
  have e : (b.iterMut fun j q => if j = k.val then v else q).controlPoints
      = Function.update b.controlPoints k v := by
    funext j
    by_cases hj : j = k
    · subst hj; simp [Bezier.iterMut, Bezier.controlPoints]
    · rw [Function.update_of_ne hj]
      have : j.val ≠ k.val := fun h => hj (Fin.ext h)
      simp [Bezier.iterMut, Bezier.controlPoints, this]
  rw [hc, hc', e, bezierCoord_update]
  show _ + bernstein (N - 1) k.val t * (coord v i - coord (b.control_points k) i) - _ = _
  ring

/-- **C94**: the distance the point at `t` moves is at most the distance the control point moves,
for parameters in [0, 1]; a point strictly inside moves whenever the control point does. -/
theorem C94_bezier_distance (b : Bezier P N) (k : Fin N) (v : P) (t : ℝ) (h0 : 0 ≤ t) (h1 : t ≤ 1) :
    ∃ p p', b.eval t = some p ∧
      (b.iterMut fun j q => if j = k.val then v else q).eval t = some p' ∧
      pdist p p' = bernstein (N - 1) k.val t * pdist (b.control_points k) v ∧
      (0 < t → t < 1 → b.control_points k ≠ v → p ≠ p') := by
  obtain ⟨p, p', hp, hp', hc⟩ := C94_bezier b k v t
  have hB := bernstein_nonneg (n := N - 1) (k := k.val) h0 h1
  refine ⟨p, p', hp, hp', ?_, fun t0 t1 hne he => ?_⟩
  · unfold pdist
    rw [← Real.sqrt_sq hB, ← Real.sqrt_mul (sq_nonneg _), Finset.mul_sum]
    congr 1
    refine Finset.sum_congr rfl fun i _ => ?_
    have := hc i
    rw [show coord p i - coord p' i = -(coord p' i - coord p i) by ring, this]
    ring
  · apply hne
    apply point_ext
    intro i
    have h2 := hc i
    rw [he, sub_self] at h2
    have hpos : 0 < bernstein (N - 1) k.val t := by
      unfold bernstein
      have := Nat.choose_pos (show k.val ≤ N - 1 by have := k.isLt; omega)
      have h3 : (0 : ℝ) < ((N - 1).choose k.val : ℝ) := by exact_mod_cast this
      have h4 : 0 < 1 - t := by linarith
      positivity
    rcases mul_eq_zero.1 h2.symm with h | h
    · exact absurd h hpos.ne'
    · linarith

/-- **C94** for the specialised curves. -/
theorem C94_specialised (a b c d v : P) (t : ℝ) (i : ℕ) :
    coord ((LineSegment.new v b).eval t) i - coord ((LineSegment.new a b).eval t) i
      = (1 - t) * (coord v i - coord a i) ∧
    coord ((LineSegment.new a v).eval t) i - coord ((LineSegment.new a b).eval t) i
      = t * (coord v i - coord b i) ∧
    coord ((QuadraticBezier.new v b c).eval t) i - coord ((QuadraticBezier.new a b c).eval t) i
      = (1 - t) ^ 2 * (coord v i - coord a i) ∧
    coord ((QuadraticBezier.new a v c).eval t) i - coord ((QuadraticBezier.new a b c).eval t) i
      = 2 * t * (1 - t) * (coord v i - coord b i) ∧
    coord ((QuadraticBezier.new a b v).eval t) i - coord ((QuadraticBezier.new a b c).eval t) i
      = t ^ 2 * (coord v i - coord c i) ∧
    coord ((CubicBezier.new v b c d).eval t) i - coord ((CubicBezier.new a b c d).eval t) i
      = (1 - t) ^ 3 * (coord v i - coord a i) ∧
    coord ((CubicBezier.new a v c d).eval t) i - coord ((CubicBezier.new a b c d).eval t) i
      = 3 * t * (1 - t) ^ 2 * (coord v i - coord b i) ∧
    coord ((CubicBezier.new a b v d).eval t) i - coord ((CubicBezier.new a b c d).eval t) i
      = 3 * t ^ 2 * (1 - t) * (coord v i - coord c i) ∧
    coord ((CubicBezier.new a b c v).eval t) i - coord ((CubicBezier.new a b c d).eval t) i
      = t ^ 3 * (coord v i - coord d i) := by
  simp only [C05_eval, C10_eval, C20_eval]
  simp only [LineSegment.new, QuadraticBezier.new, CubicBezier.new]
  refine ⟨?_, ?_, ?_, ?_, ?_, ?_, ?_, ?_, ?_⟩ <;> ring

/-! ### Where a control point has the largest influence -/

theorem pow_mul_pow_le {k m : ℕ} (t : ℝ) (h0 : 0 ≤ t) (h1 : t ≤ 1) :
    t ^ k * (1 - t) ^ m ≤ ((k : ℝ) / ((k + m : ℕ) : ℝ)) ^ k * (1 - (k : ℝ) / ((k + m : ℕ) : ℝ)) ^ m := by
  have o0 : 0 ≤ 1 - t := by linarith
  rcases Nat.eq_zero_or_pos k with rfl | hk
  · simp only [pow_zero, one_mul, Nat.cast_zero, zero_div, sub_zero, one_pow]
    exact pow_le_one₀ o0 (by linarith)
  rcases Nat.eq_zero_or_pos m with rfl | hm
  · have : (k : ℝ) ≠ 0 := by positivity
    simp only [pow_zero, mul_one, Nat.add_zero, div_self this, one_pow]
    exact pow_le_one₀ h0 h1
  have hk' : (0 : ℝ) < k := by exact_mod_cast hk
  have hm' : (0 : ℝ) < m := by exact_mod_cast hm
  have hn : (0 : ℝ) < ((k + m : ℕ) : ℝ) := by push_cast; linarith
  set n : ℝ := ((k + m : ℕ) : ℝ) with hnd
  have hnk : n = k + m := by rw [hnd]; push_cast; rfl
  have w1 : 0 < (k : ℝ) / n := by positivity
  have w2e : 1 - (k : ℝ) / n = m / n := by field_simp; linarith
  have w2 : 0 < (m : ℝ) / n := by positivity
  rw [w2e]
  have key := Real.geom_mean_le_arith_mean2_weighted w1.le w2.le
    (show 0 ≤ t / (k / n) by positivity) (show 0 ≤ (1 - t) / (m / n) by positivity)
    (by rw [← w2e]; ring)
  have e1 : (k : ℝ) / n * (t / (k / n)) + m / n * ((1 - t) / (m / n)) = 1 := by
    field_simp
    ring
  rw [e1] at key
  have key2 := Real.rpow_le_one (z := n) (by positivity) key hn.le
  rw [Real.mul_rpow (by positivity) (by positivity), ← Real.rpow_mul (by positivity),
    ← Real.rpow_mul (by positivity), div_mul_cancel₀ _ hn.ne', div_mul_cancel₀ _ hn.ne',
    Real.rpow_natCast, Real.rpow_natCast, div_pow t, div_pow (1 - t)] at key2
  have p1 : 0 < ((k : ℝ) / n) ^ k := by positivity
  have p2 : 0 < ((m : ℝ) / n) ^ m := by positivity
  rw [div_mul_div_comm, div_le_one (mul_pos p1 p2)] at key2
  exact key2

/-- **C94**: control point `k` of a curve of degree `n` has its largest influence at the parameter
`k / n`. -/
theorem C94_influence {n k : ℕ} (hk : k ≤ n) (t : ℝ) (h0 : 0 ≤ t) (h1 : t ≤ 1) :
    bernstein n k t ≤ bernstein n k ((k : ℝ) / n) := by
  obtain ⟨m, rfl⟩ := Nat.exists_eq_add_of_le hk
  unfold bernstein
  rw [Nat.add_sub_cancel_left, mul_assoc, mul_assoc]
  exact mul_le_mul_of_nonneg_left (pow_mul_pow_le t h0 h1) (Nat.cast_nonneg _)

/-- **C94**, in terms of the API: moving control point `k` moves no point of the curve further than
the point at `k / (N - 1)`. -/
theorem C94_largest (b : Bezier P N) (k : Fin N) (v : P) (t : ℝ) (h0 : 0 ≤ t) (h1 : t ≤ 1) :
    ∃ p p' q q', b.eval t = some p ∧
      (b.iterMut fun j q => if j = k.val then v else q).eval t = some p' ∧
      b.eval ((k.val : ℝ) / ((N - 1 : ℕ) : ℝ)) = some q ∧
      (b.iterMut fun j q => if j = k.val then v else q).eval ((k.val : ℝ) / ((N - 1 : ℕ) : ℝ))
        = some q' ∧
      pdist p p' ≤ pdist q q' := by
  have hk := k.isLt
  have s0 : 0 ≤ (k.val : ℝ) / ((N - 1 : ℕ) : ℝ) := by positivity
  have s1 : (k.val : ℝ) / ((N - 1 : ℕ) : ℝ) ≤ 1 := by
    apply div_le_one_of_le₀ _ (Nat.cast_nonneg _)
    exact_mod_cast (by omega : k.val ≤ N - 1)
  obtain ⟨p, p', hp, hp', e, -⟩ := C94_bezier_distance b k v t h0 h1
  obtain ⟨q, q', hq, hq', e', -⟩ := C94_bezier_distance b k v _ s0 s1
  refine ⟨p, p', q, q', hp, hp', hq, hq', ?_⟩
  rw [e, e']
  exact mul_le_mul_of_nonneg_right (C94_influence (by omega) t h0 h1) (pdist_nonneg _ _)

/-- Test: in the plane, moving the middle one of three control points from (1, 2) to (1, 4) moves
the point at 1/2 by half of that. -/
example : ∃ (b : Bezier (PointN ℝ 2) 3) (p p' : PointN ℝ 2), b.eval (1 / 2 : ℝ) = some p ∧
    (b.iterMut fun j q => if j = 1 then pt2 1 4 else q).eval (1 / 2 : ℝ) = some p' ∧
    coord p' 1 - coord p 1 = 1 := by
  obtain ⟨p, p', hp, hp', h⟩ := C94_bezier (Bezier.new ![pt2 0 0, pt2 1 2, pt2 2 0]) 1 (pt2 1 4) (1 / 2)
  refine ⟨_, p, p', hp, hp', ?_⟩
  rw [h 1]
  simp [Bezier.new, bernstein]
  norm_num

end Stroke
