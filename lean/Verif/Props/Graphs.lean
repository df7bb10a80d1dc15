import Verif.Props.BSplineMonotone
import Verif.Props.BSplineJoints
import Verif.Props.Easing
import Verif.Props.Lipschitz
import Verif.Props.Uniqueness
import Verif.Props.Workarounds
import Mathlib.Analysis.SpecialFunctions.Bernstein

set_option linter.unusedSectionVars false

/-!
# Curves as graphs of functions (C155)

A Bezier curve whose control points are equally spaced on an axis runs along this axis with constant speed, and
no other Bezier curve does.  So the curve is the graph of a function, `solve_t_for_axis` finds its parameters
exactly, and if the control points are taken from the graph of a continuous function the curve tends to the
graph as the number of control points grows.  For a B-spline the control point `i` belongs at the average of
the knots `i + 1, ..., i + D`.

`evalFixed` (Verif/Repaired/Model.lean) has the last property; `eval` has not (`C155_partial`, `C155_false`).
-/

namespace Stroke

section Curves
variable {P : Type} [Point ℝ P] [LawfulPoint P] {n c : ℕ} {x w : ℝ}

theorem bsum_line (hn : 1 ≤ n) (x w t : ℝ) : bsum n (fun k => x + w * (k / n)) t = x + w * t := by
  have n0 : (n : ℝ) ≠ 0 := by positivity
  have h1 := bernstein_sum n t
  have h2 := bernstein_linear n t
  have e : ∀ k ∈ Finset.range (n + 1), bernstein n k t * (x + w * (k / n))
      = x * bernstein n k t + w / n * (bernstein n k t * k) := by
    intro k _
    field_simp
  unfold bsum
  rw [Finset.sum_congr rfl e, Finset.sum_add_distrib, ← Finset.mul_sum, ← Finset.mul_sum, h1, h2]
  field_simp

/-- **C155**: a coordinate of a Bezier curve is a linear function of the parameter exactly if this coordinate
of the control points is equally spaced. -/
theorem C155_bezier (b : Bezier P (n + 1)) (hn : 1 ≤ n) :
    (∀ t : ℝ, 0 ≤ t → t ≤ 1 → ∃ q, b.eval t = some q ∧ coord q c = x + w * t) ↔
      ∀ i : Fin (n + 1), coord (b.control_points i) c = x + w * (i.val / n) := by
  have h0 : 1 ≤ n + 1 := by omega
  constructor
  · intro h i
    obtain ⟨T, hT, card⟩ := (Set.Icc_infinite (zero_lt_one (α := ℝ))).exists_subset_card_eq (n + 1)
    have key := bsum_unique (m := n) (x := fun k => coord (extend b.control_points k) c)
      (y := fun k => x + w * (k / n)) (T := T) (by omega) (fun t ht => by
        obtain ⟨t0, t1⟩ := hT ht
        obtain ⟨q, hq, e⟩ := h t t0 t1
        obtain ⟨q', hq', e'⟩ := C30_eval b h0 t
        rw [hq] at hq'
        cases hq'
        rw [bsum_line hn, ← e, e', bezierCoord_eq_bsum h0]
        rfl) i.val (by omega)
    simpa only [extend_lt _ i.isLt] using key
  · intro h t _ _
    obtain ⟨q, hq, e⟩ := C30_eval b h0 t
    refine ⟨q, hq, ?_⟩
    rw [e, ← bsum_line hn, bezierCoord, bsum, Finset.sum_range]
    exact Finset.sum_congr rfl fun i _ => by rw [show b.controlPoints i = b.control_points i from rfl, h i]; rfl

/-- **C155**: such a curve is the graph of a function: different parameters have different coordinates. -/
theorem C155_graph (b : Bezier P (n + 1)) (hn : 1 ≤ n) (hw : w ≠ 0)
    (h : ∀ i : Fin (n + 1), coord (b.control_points i) c = x + w * (i.val / n)) {s t : ℝ} (s0 : 0 ≤ s)
    (s1 : s ≤ 1) (t0 : 0 ≤ t) (t1 : t ≤ 1) {p q : P} (hp : b.eval s = some p) (hq : b.eval t = some q)
    (hc : coord p c = coord q c) : s = t := by
  obtain ⟨p', e1, e2⟩ := (C155_bezier b hn).2 h s s0 s1
  obtain ⟨q', e3, e4⟩ := (C155_bezier b hn).2 h t t0 t1
  rw [hp] at e1
  rw [hq] at e3
  cases e1
  cases e3
  rw [e2, e4] at hc
  exact mul_left_cancel₀ hw (by linarith)

/-- **C155**: control points taken from the graph of a continuous function give a curve that tends to this
graph, uniformly, as the number of control points grows. -/
theorem C155_approximation {f : ℝ → ℝ} (hf : ContinuousOn f (Set.Icc 0 1)) {ε : ℝ} (hε : 0 < ε) :
    ∃ N, ∀ n ≥ N, ∀ b : Bezier P (n + 1),
      (∀ i : Fin (n + 1), coord (b.control_points i) c = f (i.val / n)) →
      ∀ t : ℝ, 0 ≤ t → t ≤ 1 → ∃ q, b.eval t = some q ∧ |coord q c - f t| < ε := by
  let g : C(unitInterval, ℝ) := ⟨fun x => f x, hf.comp_continuous continuous_subtype_val fun x => x.2⟩
  obtain ⟨N, hN⟩ := Metric.tendsto_atTop.1 (bernsteinApproximation_uniform g) ε hε
  refine ⟨N, fun n hn b h t t0 t1 => ?_⟩
  obtain ⟨q, hq, e⟩ := C30_eval b (by omega) t
  refine ⟨q, hq, ?_⟩
  have key := (ContinuousMap.dist_lt_iff hε).1 (hN n hn) ⟨t, t0, t1⟩
  rw [Real.dist_eq, bernsteinApproximation.apply] at key
  have same : coord q c
      = ∑ k : Fin (n + 1), _root_.bernstein n k ⟨t, t0, t1⟩ • g (bernstein.z k) := by
    rw [e, bezierCoord]
    refine Finset.sum_congr rfl fun i _ => ?_
    rw [show b.controlPoints i = b.control_points i from rfl, h i, bernstein_apply]
    rfl
  rw [same]
  exact key

/-- **C155** for quadratic curves: on an axis with equally spaced control points `solve_t_for_axis` returns
exactly the parameter of every value in between. -/
theorem C155_quadratic (q : QuadraticBezier P) (hc : c < Point.dim P)
    (h : coord q.ctrl c - coord q.start c = coord q.end_ c - coord q.ctrl c) :
    (∀ t : ℝ, coord (q.eval t) c = coord q.start c + (coord q.end_ c - coord q.start c) * t) ∧
    ∀ v : ℝ, (coord q.start c - v) * (coord q.end_ c - v) < 0 → eps ≤ pdist q.start q.end_ ^ 2 →
      eps ≤ |coord q.end_ c - coord q.start c| →
      q.solveTForAxis v c = some [(v - coord q.start c) / (coord q.end_ c - coord q.start c)] := by
  have line : ∀ t : ℝ, coord (q.eval t) c = coord q.start c + (coord q.end_ c - coord q.start c) * t := by
    intro t
    rw [C10_eval]
    linear_combination (2 * t * (1 - t)) * (h / 2)
  refine ⟨line, fun v hv hse he => ?_⟩
  obtain ⟨t, e, -, e', -⟩ := C116_quadratic q v c hc hv hse (Or.inr ⟨by linarith, he⟩)
  have d0 : coord q.end_ c - coord q.start c ≠ 0 := abs_pos.1 (eps_pos.trans_le he)
  rw [e]
  rw [line] at e'
  congr 2
  rw [eq_div_iff d0]
  linarith

/-- **C155** for cubic curves. -/
theorem C155_cubic (q : CubicBezier P) (hc : c < Point.dim P)
    (h : coord q.ctrl1 c - coord q.start c = coord q.ctrl2 c - coord q.ctrl1 c)
    (h' : coord q.ctrl2 c - coord q.ctrl1 c = coord q.end_ c - coord q.ctrl2 c) :
    (∀ t : ℝ, coord (q.eval t) c = coord q.start c + (coord q.end_ c - coord q.start c) * t) ∧
    ∀ v : ℝ, (coord q.start c - v) * (coord q.end_ c - v) < 0 → eps ≤ pdist q.start q.end_ ^ 2 →
      eps ≤ |coord q.end_ c - coord q.start c| →
      q.solveTForAxis v c = some [(v - coord q.start c) / (coord q.end_ c - coord q.start c)] := by
  have k1 : coord q.ctrl1 c = coord q.start c + (coord q.end_ c - coord q.start c) / 3 := by linarith
  have k2 : coord q.ctrl2 c = coord q.start c + (coord q.end_ c - coord q.start c) * 2 / 3 := by linarith
  have line : ∀ t : ℝ, coord (q.eval t) c = coord q.start c + (coord q.end_ c - coord q.start c) * t := by
    intro t
    rw [C20_eval, k1, k2]
    ring
  refine ⟨line, fun v hv hse he => ?_⟩
  obtain ⟨t, e, -, e', -⟩ := C116_cubic_flat q v c hc hv hse (by linarith) (Or.inr ⟨by linarith, he⟩)
  have d0 : coord q.end_ c - coord q.start c ≠ 0 := abs_pos.1 (eps_pos.trans_le he)
  rw [e]
  rw [line] at e'
  congr 2
  rw [eq_div_iff d0]
  linarith

/-- Hypotheses of `C155_cubic`, and what it gives: the graph of a cubic function from (0, 0) to (3, 2). -/
example : (CubicBezier.new (pt2 0 0) (pt2 1 5) (pt2 2 (-1)) (pt2 3 2)).solveTForAxis (3 / 2 : ℝ) 0
    = some [1 / 2] := by
  have h := (C155_cubic (c := 0) (CubicBezier.new (pt2 0 0) (pt2 1 5) (pt2 2 (-1)) (pt2 3 2))
    (by norm_num [Point.dim]) (by norm_num [CubicBezier.new]) (by norm_num [CubicBezier.new])).2 (3 / 2)
    (by norm_num [CubicBezier.new])
    (by norm_num [CubicBezier.new, pdist, Finset.sum_range_succ, Point.dim, eps])
    (by norm_num [CubicBezier.new, eps])
  norm_num [CubicBezier.new] at h
  exact h

/-- Hypotheses of `C155_quadratic`, and what it gives. -/
example : (QuadraticBezier.new (pt2 0 0) (pt2 1 5) (pt2 2 (-1))).solveTForAxis (1 / 2 : ℝ) 0
    = some [1 / 4] := by
  have h := (C155_quadratic (c := 0) (QuadraticBezier.new (pt2 0 0) (pt2 1 5) (pt2 2 (-1)))
    (by norm_num [Point.dim]) (by norm_num [QuadraticBezier.new])).2 (1 / 2)
    (by norm_num [QuadraticBezier.new])
    (by norm_num [QuadraticBezier.new, pdist, Finset.sum_range_succ, Point.dim, eps])
    (by norm_num [QuadraticBezier.new, eps])
  norm_num [QuadraticBezier.new] at h
  exact h

/-- Hypotheses of `C155_bezier`, `C155_graph` and `C155_approximation`: control points from the graph of `|x - 1/2|`,
for every number of them. -/
example {n : ℕ} : let b : Bezier (PointN ℝ 2) (n + 1) := Bezier.new fun i => pt2 (i.val / n) |(i.val : ℝ) / n - 1 / 2|
    (∀ i : Fin (n + 1), coord (b.control_points i) 0 = 0 + 1 * (i.val / n)) ∧
    (∀ i : Fin (n + 1), coord (b.control_points i) 1 = (fun x : ℝ => |x - 1 / 2|) (i.val / n)) ∧
    ContinuousOn (fun x : ℝ => |x - 1 / 2|) (Set.Icc 0 1) := by
  refine ⟨fun i => ?_, fun i => ?_, (by fun_prop : Continuous _).continuousOn⟩
  · simp [Bezier.new]
  · simp [Bezier.new]

end Curves

section Splines
variable {P : Type} [Point ℝ P] [LawfulPoint P] {K C D c k : ℕ} {t : ℝ}
variable {knots : Arr ℝ K} {ps : Arr P C} {b : BSpline ℝ P K C D}

/-- The place of control point `i` on an axis that is to be the parameter: the average of the knots
`i + 1, ..., i + D`. -/
noncomputable def knotAverage (D : ℕ) (knots : Arr ℝ K) (i : ℕ) : ℝ :=
  (∑ m ∈ Finset.range D, knotAt knots (i + 1 + m)) / D

theorem splineCoord_average (v : ValidSpline C D knots) (hD : 1 ≤ D)
    (h : ∀ i, coord (ps i) c = knotAverage D knots i.val) (h1 : knotAt knots D ≤ t)
    (h2 : t < knotAt knots C) : splineCoord D knots ps t c = t := by
  obtain ⟨v1, v2, v3⟩ := v
  have key := basis_greville (fun i j (hij : i ≤ j) (hj : j < K) => mono_knotAt v3 hij hj) v2 hD v1 h1 h2
  rw [Finset.sum_range] at key
  unfold splineCoord
  simp only [h]
  exact key

/-- **C155** for the repaired program: with the control points at the averages of the knots the coordinate of
the point at `t` is `t`. -/
theorem C155_repaired (h : BSpline.new knots ps = .ok b) (hD : 1 ≤ D)
    (hp : ∀ i, coord (ps i) c = knotAverage D knots i.val) (h1 : knotAt knots D ≤ t)
    (h2 : t < knotAt knots C) : ∃ q, b.evalFixed t = .ok q ∧ coord q c = t := by
  obtain ⟨q, hq, e⟩ := C121_bspline h h1 h2
  exact ⟨q, hq, by rw [e, splineCoord_average ((new_ok_iff _ _ _).1 h).1 hD hp h1 h2]⟩

theorem knotAverage_mem (v : ValidSpline C D knots) (hD : 1 ≤ D) (hDk : D ≤ k) (hkC : k < C) {i : ℕ}
    (i1 : k ≤ i + D) (i2 : i ≤ k) :
    knotAt knots (k - D + 1) ≤ knotAverage D knots i ∧ knotAverage D knots i ≤ knotAt knots (k + D) := by
  obtain ⟨v1, v2, v3⟩ := v
  have D0 : (0 : ℝ) < D := by exact_mod_cast hD
  unfold knotAverage
  rw [le_div_iff₀ D0, div_le_iff₀ D0]
  have lo : ∑ _m ∈ Finset.range D, knotAt knots (k - D + 1) ≤ ∑ m ∈ Finset.range D, knotAt knots (i + 1 + m) :=
    Finset.sum_le_sum fun m hm => mono_knotAt v3 (by omega) (by have := Finset.mem_range.1 hm; omega)
  have hi : ∑ m ∈ Finset.range D, knotAt knots (i + 1 + m) ≤ ∑ _m ∈ Finset.range D, knotAt knots (k + D) :=
    Finset.sum_le_sum fun m hm => mono_knotAt v3 (by have := Finset.mem_range.1 hm; omega) (by omega)
  rw [Finset.sum_const, Finset.card_range, nsmul_eq_mul] at lo hi
  constructor <;> linarith

/-- **C155** for the repaired program: control points taken from the graph of a function give a point whose
distance from the graph is no more than the function changes from `t` to the knots around it. -/
theorem C155_repaired_approximation (h : BSpline.new knots ps = .ok b) (hD : 1 ≤ D) {f : ℝ → ℝ}
    (hp : ∀ i, coord (ps i) c = f (knotAverage D knots i.val)) (hDk : D ≤ k) (hkC : k < C)
    (k1 : knotAt knots k ≤ t) (k2 : t < knotAt knots (k + 1)) {ε : ℝ}
    (hf : ∀ y, knotAt knots (k - D + 1) ≤ y → y ≤ knotAt knots (k + D) → |f y - f t| ≤ ε) :
    ∃ q, b.evalFixed t = .ok q ∧ |coord q c - f t| ≤ ε := by
  have v := ((new_ok_iff _ _ _).1 h).1
  obtain ⟨v1, v2, v3⟩ := id v
  have hm := fun i j (hij : i ≤ j) (hj : j < K) => mono_knotAt v3 hij hj
  have h1 : knotAt knots D ≤ t := (hm D k hDk (by omega)).trans k1
  have h2 : t < knotAt knots C := k2.trans_le (hm (k + 1) C hkC (by omega))
  obtain ⟨q, hq, e⟩ := C121_bspline h h1 h2
  refine ⟨q, hq, ?_⟩
  have one := basis_sum_one hm v2 v1 h1 h2
  rw [Finset.sum_range] at one
  have e' : coord q c - f t
      = ∑ i : Fin C, coxDeBoor (knotAt knots) D i.val t * (f (knotAverage D knots i.val) - f t) := by
    simp only [mul_sub, Finset.sum_sub_distrib]
    rw [← Finset.sum_mul, one, one_mul, e]
    unfold splineCoord
    simp only [hp]
  rw [e']
  calc |∑ i : Fin C, coxDeBoor (knotAt knots) D i.val t * (f (knotAverage D knots i.val) - f t)|
      ≤ ∑ i : Fin C, |coxDeBoor (knotAt knots) D i.val t * (f (knotAverage D knots i.val) - f t)| :=
        Finset.abs_sum_le_sum_abs _ _
    _ ≤ ∑ i : Fin C, coxDeBoor (knotAt knots) D i.val t * ε := by
        refine Finset.sum_le_sum fun i _ => ?_
        have nn := coxDeBoor_nonneg (t := t) hm D i.val (by omega)
        rw [abs_mul, abs_of_nonneg nn]
        by_cases hi : k ≤ i.val + D ∧ i.val ≤ k
        · obtain ⟨a1, a2⟩ := knotAverage_mem v hD hDk hkC hi.1 hi.2
          exact mul_le_mul_of_nonneg_left (hf _ a1 a2) nn
        · rw [coxDeBoor_eq_zero hm (by omega) k1 k2 D i.val (by omega) (by omega)]
          simp
    _ = ε := by rw [← Finset.sum_mul, one, one_mul]

/-- **C155**, what holds of `eval` itself: the coordinate falls short by the term of control point `k`. -/
theorem C155_partial (h : BSpline.new knots ps = .ok b) (hf : FrontClamped D knots ∨ BackClamped D knots)
    (hD : 1 ≤ D) (hp : ∀ i, coord (ps i) c = knotAverage D knots i.val) (hDk : D ≤ k) (hkC : k < C)
    (k1 : knotAt knots k ≤ t) (k2 : t < knotAt knots (k + 1))
    (heps : ∀ i : Fin K, knots i < t → eps ≤ t - knots i) :
    ∃ q, b.eval t = .ok q ∧ coord q c = t - coxDeBoor (knotAt knots) D k t * knotAverage D knots k := by
  have v := ((new_ok_iff _ _ _).1 h).1
  obtain ⟨v1, v2, v3⟩ := id v
  obtain ⟨q, hq, e⟩ := C48_partial h hf hDk hkC k1 k2 heps
  refine ⟨q, hq, ?_⟩
  rw [e, splineCoord_average v hD hp ((mono_knotAt v3 hDk (by omega)).trans k1)
    (k2.trans_le (mono_knotAt v3 (show k + 1 ≤ C by omega) (by omega))), hp]

/-- **C155** with the calls of this version: the points of the detour of C136. -/
theorem C155_detour (v : ValidSpline C D knots) (hf : FrontClamped D knots ∨ BackClamped D knots)
    (ps : Arr P C) (hD : 1 ≤ D) (hp : ∀ i, coord (ps i) c = knotAverage D knots i.val) (hDk : D ≤ k)
    (hkC : k < C) (k1 : knotAt knots k ≤ t) (k2 : t < knotAt knots (k + 1))
    (heps : ∀ i : Fin K, knots i < t → eps ≤ t - knots i) :
    ∃ (b : BSpline ℝ P K C D) (q : P), BSpline.new knots (fun i => ps i - ps ⟨k, hkC⟩) = .ok b ∧
      b.eval t = .ok q ∧ coord (q + ps ⟨k, hkC⟩) c = t := by
  obtain ⟨v1, v2, v3⟩ := id v
  obtain ⟨b, q, hb, hq, e⟩ := C136_bspline v hf ps hDk hkC k1 k2 heps
  exact ⟨b, q, hb, hq, by rw [e, splineCoord_average v hD hp ((mono_knotAt v3 hDk (by omega)).trans k1)
    (k2.trans_le (mono_knotAt v3 (show k + 1 ≤ C by omega) (by omega)))]⟩

/-- **C155** is false of `eval`: on every span after a knot, unless the average that belongs to it is 0. -/
theorem C155_false (h : BSpline.new knots ps = .ok b) (hf : FrontClamped D knots ∨ BackClamped D knots)
    (hD : 1 ≤ D) (hp : ∀ i, coord (ps i) c = knotAverage D knots i.val) (hDk : D ≤ k) (hkC : k < C)
    (k1 : knotAt knots k < t) (k2 : t < knotAt knots (k + 1)) (hk : knotAverage D knots k ≠ 0)
    (heps : ∀ i : Fin K, knots i < t → eps ≤ t - knots i) :
    ∃ q, b.eval t = .ok q ∧ coord q c ≠ t := by
  obtain ⟨v1, v2, v3⟩ := ((new_ok_iff _ _ _).1 h).1
  have hm := fun i j (hij : i ≤ j) (hj : j < K) => mono_knotAt v3 hij hj
  obtain ⟨q, hq, e⟩ := C155_partial h hf hD hp hDk hkC k1.le k2 heps
  refine ⟨q, hq, ?_⟩
  have pos := coxDeBoor_pos hm D k t (by omega) k1 (k2.trans_le (hm _ _ (by omega) (by omega)))
  rw [e]
  intro e0
  have : coxDeBoor (knotAt knots) D k t * knotAverage D knots k = 0 := by linarith
  exact hk ((mul_eq_zero.1 this).resolve_left pos.ne')

/-- Hypotheses of the theorems about splines: the quadratic spline with knots 0 0 0 1 2 2 2 and control points
at 0, 1/2, 3/2, 2 on the line, at the parameter 3/2. -/
example : ∃ b : BSpline ℝ (PointN ℝ 1) 7 4 2,
    BSpline.new ![0, 0, 0, 1, 2, 2, 2] (fun i => ⟨fun _ => knotAverage 2 ![0, 0, 0, 1, 2, 2, 2] i.val⟩) = .ok b ∧
    FrontClamped 2 (![0, 0, 0, 1, 2, 2, 2] : Arr ℝ 7) ∧
    knotAverage 2 (![0, 0, 0, 1, 2, 2, 2] : Arr ℝ 7) 2 = 3 / 2 ∧
    knotAverage 2 (![0, 0, 0, 1, 2, 2, 2] : Arr ℝ 7) 3 = 2 ∧
    (knotAt (![0, 0, 0, 1, 2, 2, 2] : Arr ℝ 7) 3 < 3 / 2 ∧
      3 / 2 < knotAt (![0, 0, 0, 1, 2, 2, 2] : Arr ℝ 7) 4) ∧
    ∀ i, (![0, 0, 0, 1, 2, 2, 2] : Arr ℝ 7) i < 3 / 2 →
      eps ≤ 3 / 2 - (![0, 0, 0, 1, 2, 2, 2] : Arr ℝ 7) i := by
  have v : ValidSpline 4 2 (![0, 0, 0, 1, 2, 2, 2] : Arr ℝ 7) := by
    refine ⟨by norm_num, by norm_num, ?_⟩
    intro i j hij
    fin_cases i <;> fin_cases j <;> simp_all [Fin.le_def]
  obtain ⟨b, hb⟩ := (C43_accepts (D := 2) (![0, 0, 0, 1, 2, 2, 2] : Arr ℝ 7)
    (fun i => (⟨fun _ => knotAverage 2 ![0, 0, 0, 1, 2, 2, 2] i.val⟩ : PointN ℝ 1))).2 v
  refine ⟨b, hb, ?_, ?_, ?_, ?_, ?_⟩
  · intro i hi
    fin_cases i <;> simp_all [knotAt, eps_pos]
  · norm_num [knotAverage, Finset.sum_range_succ, knotAt]
  · norm_num [knotAverage, Finset.sum_range_succ, knotAt]
  · norm_num [knotAt]
  · intro i hi
    unfold eps
    fin_cases i <;> first | (exfalso; norm_num at hi; done) | norm_num

end Splines
end Stroke
