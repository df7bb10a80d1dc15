import Verif.Props.Cubic
import Verif.Lemmas.Casteljau

/-!
# Properties of the generic `Bezier<P, N>` (C30–C38, C41)

Everything here is for an arbitrary number `N` of control points.
-/

namespace Stroke

variable {P : Type} [Point ℝ P] [LawfulPoint P] {N : ℕ}

/-- **C30**: with at least one control point, `eval` does not panic and computes the
Bernstein form, for every degree, parameter and axis. -/
theorem C30_eval (b : Bezier P N) (hN : 1 ≤ N) (t : ℝ) :
    ∃ q, b.eval t = some q ∧ ∀ i, coord q i = bezierCoord b.controlPoints t i := by
  refine ⟨_, bezier_eval_cas b hN t, fun i => ?_⟩
  rw [coord_cas, bezierCoord_eq_bsum hN]
  simp only [Nat.zero_add]
  rfl

/-- **C30**: without control points `eval` panics (for every scalar type). -/
theorem C30_eval_empty {S Q : Type} [Scalar S] [Point S Q] (b : Bezier Q 0) (t : S) :
    b.eval t = none := bezier_eval_zero b t

/-- **C31**: the first and last control points are interpolated. -/
theorem C31_endpoints (b : Bezier P N) (hN : 1 ≤ N) :
    b.eval (0 : ℝ) = some (b.control_points ⟨0, hN⟩) ∧
    b.eval (1 : ℝ) = some (b.control_points ⟨N - 1, by omega⟩) := by
  constructor
  · obtain ⟨q, hq, hc⟩ := C30_eval b hN 0
    rw [hq]; congr 1
    apply point_ext; intro i
    rw [hc, bezierCoord, Finset.sum_eq_single ⟨0, hN⟩]
    · simp [bernstein, Bezier.controlPoints]
    · intro k _ hk
      have : k.val ≠ 0 := fun h => hk (Fin.ext h)
      simp [bernstein, this]
    · simp
  · obtain ⟨q, hq, hc⟩ := C30_eval b hN 1
    rw [hq]; congr 1
    apply point_ext; intro i
    rw [hc, bezierCoord, Finset.sum_eq_single ⟨N - 1, by omega⟩]
    · simp [bernstein, Bezier.controlPoints]
    · intro k _ hk
      have : N - 1 - k.val ≠ 0 := fun h => hk (Fin.ext (by have := k.isLt; show k.val = N - 1; omega))
      simp [bernstein, this]
    · simp

/-- **C33**: `split` does not panic, for any `N`, and for `N ≥ 1` the two curves are
the pieces of the original on `[0, t]` and `[t, 1]`. -/
theorem C33_split (b : Bezier P N) (t : ℝ) :
    ∃ l r, b.split t = some (l, r) ∧ (1 ≤ N → ∀ s : ℝ,
      l.eval s = b.eval (t * s) ∧ r.eval s = b.eval (t + (1 - t) * s)) := by
  refine ⟨_, _, bezier_split_cas b t, fun hN s => ?_⟩
  constructor
  · rw [bezier_eval_cas _ hN, bezier_eval_cas _ hN]
    congr 1
    apply point_ext; intro i
    rw [coord_cas, coord_cas, ← bsum_left]
    apply bsum_congr
    intro k hk
    rw [Nat.zero_add, extend_lt _ (by omega), coord_cas]
  · rw [bezier_eval_cas _ hN, bezier_eval_cas _ hN]
    congr 1
    apply point_ext; intro i
    rw [coord_cas, coord_cas, ← bsum_right]
    apply bsum_congr
    intro k hk
    rw [Nat.zero_add, extend_lt _ (by omega), coord_cas]
    simp only [Nat.zero_add]

/-- **C34**: for `N ≥ 2`, `derivative()` returns a curve (with `N - 1` control points)
that evaluates to the derivative of `eval`. -/
theorem C34_derivative (b : Bezier P N) (hN : 2 ≤ N) (t : ℝ) :
    ∃ d : Bezier P (N - 1), Bezier.derivative (S := ℝ) b = some d ∧
      ∃ (f : ℝ → P) (v : P), (∀ u, b.eval u = some (f u)) ∧ d.eval t = some v ∧
        HasPointDerivAt f (coord v) t := by
  refine ⟨_, bezier_derivative_eq b hN, _, _, fun u => bezier_eval_cas b (by omega) u,
    bezier_eval_cas _ (by omega) t, ?_⟩
  intro i _
  simp only [coord_cas, Nat.zero_add]
  obtain ⟨n, rfl⟩ : ∃ n, N = n + 2 := ⟨N - 2, by omega⟩
  have h := hasDerivAt_bsum n (fun k => coord (extend b.control_points k) i) t
  refine h.congr_deriv ?_
  show _ = bsum n _ t
  rw [mul_comm, ← bsum_mul_const]
  apply bsum_congr
  intro k hk
  rw [extend_lt _ (show k + 1 < n + 2 by omega), extend_lt _ (show k < n + 2 by omega),
    extend_lt _ (show k < n + 2 - 1 by omega)]
  simp

/-- **C35** is false of the code: with a single control point (a type the crate
accepts, of degree 0), `derivative()` panics, whatever the scalar type. -/
theorem C35_false {S Q : Type} [Scalar S] [Point S Q] (b : Bezier Q 1) :
    Bezier.derivative (S := S) b = none := bezier_derivative_one b

/-- **C35** (partial: `N ≥ 2`): `derivative()` does not panic and has control points
`(N-1)(P_{k+1} - P_k)`, for every scalar type.  Missing: `N = 1`, where it
panics (`C35_false`). -/
theorem C35_partial {S Q : Type} [Scalar S] [Point S Q] (b : Bezier Q N) (hN : 2 ≤ N) :
    ∃ d : Bezier Q (N - 1), Bezier.derivative (S := S) b = some d ∧ ∀ k : Fin (N - 1),
      d.control_points k = (b.control_points ⟨k.val + 1, by omega⟩
        - b.control_points ⟨k.val, by omega⟩) * (Scalar.ofUsize (N - 1) : S) :=
  ⟨_, bezier_derivative_eq b hN, fun _ => rfl⟩

/-! ### Agreement with the specialised curves (C32) -/

/-- **C32**: two control points: the same points as `LineSegment`. -/
theorem C32_line (a b : P) (t : ℝ) :
    (Bezier.new ![a, b]).eval t = some ((LineSegment.new a b).eval t) := by
  obtain ⟨q, hq, hc⟩ := C30_eval (Bezier.new ![a, b]) (by norm_num) t
  rw [hq]; congr 1
  apply point_ext; intro i
  rw [hc, C05_eval, bezierCoord, Fin.sum_univ_two]
  simp [bernstein, Bezier.controlPoints, Bezier.new, LineSegment.new]

/-- **C32**: three control points: the same points as `QuadraticBezier`. -/
theorem C32_quadratic_eval (a b c : P) (t : ℝ) :
    (Bezier.new ![a, b, c]).eval t = some ((QuadraticBezier.new a b c).eval t) := by
  obtain ⟨q, hq, hc⟩ := C30_eval (Bezier.new ![a, b, c]) (by norm_num) t
  rw [hq]; congr 1
  apply point_ext; intro i
  rw [hc, C10_eval, bezierCoord, Fin.sum_univ_three]
  simp [bernstein, Bezier.controlPoints, Bezier.new, QuadraticBezier.new]

/-- **C32**: four control points: the same points as `CubicBezier`. -/
theorem C32_cubic_eval (a b c d : P) (t : ℝ) :
    (Bezier.new ![a, b, c, d]).eval t = some ((CubicBezier.new a b c d).eval t) := by
  obtain ⟨q, hq, hc⟩ := C30_eval (Bezier.new ![a, b, c, d]) (by norm_num) t
  rw [hq]; congr 1
  apply point_ext; intro i
  rw [hc, C20_eval, bezierCoord, Fin.sum_univ_four]
  simp [bernstein, Bezier.controlPoints, Bezier.new, CubicBezier.new]

/-- **C32**: splitting gives the same control points as `QuadraticBezier::split`. -/
theorem C32_quadratic_split (a b c : P) (t : ℝ) :
    ∃ l r, (Bezier.new ![a, b, c]).split t = some (l, r) ∧
      l.intoIter = ((QuadraticBezier.new a b c).split t).1.controlPoints ∧
      r.intoIter = ((QuadraticBezier.new a b c).split t).2.controlPoints := by
  refine ⟨_, _, bezier_split_cas _ t, ?_, ?_⟩ <;>
  · simp only [Bezier.intoIter, Arr.toList, List.ofFn_succ, List.ofFn_zero,
      QuadraticBezier.controlPoints, QuadraticBezier.split, QuadraticBezier.new, List.cons.injEq,
      and_true, cas, extend, Bezier.new]
    refine ⟨?_, ?_, ?_⟩ <;> apply point_ext <;> intro i <;> simp [cas, extend] <;> ring

/-- **C32**: splitting gives the same control points as `CubicBezier::split`. -/
theorem C32_cubic_split (a b c d : P) (t : ℝ) :
    ∃ l r, (Bezier.new ![a, b, c, d]).split t = some (l, r) ∧
      l.intoIter = ((CubicBezier.new a b c d).split t).1.controlPoints ∧
      r.intoIter = ((CubicBezier.new a b c d).split t).2.controlPoints := by
  refine ⟨_, _, bezier_split_cas _ t, ?_, ?_⟩ <;>
  · simp only [Bezier.intoIter, Arr.toList, List.ofFn_succ, List.ofFn_zero,
      CubicBezier.controlPoints, CubicBezier.split, CubicBezier.new, List.cons.injEq,
      and_true, cas, extend, Bezier.new]
    refine ⟨?_, ?_, ?_, ?_⟩ <;> apply point_ext <;> intro i <;> simp [cas, extend] <;> ring

omit [LawfulPoint P] in
/-- **C32**: differentiating gives the same control points as the specialised
curves. -/
theorem C32_derivative (a b c d : P) :
    (∃ e, Bezier.derivative (S := ℝ) (Bezier.new ![a, b, c]) = some e ∧
      e.intoIter = [(QuadraticBezier.new a b c).derivative.start,
        (QuadraticBezier.new a b c).derivative.end_]) ∧
    (∃ e, Bezier.derivative (S := ℝ) (Bezier.new ![a, b, c, d]) = some e ∧
      e.intoIter = (CubicBezier.new a b c d).derivative.controlPoints) := by
  constructor
  · refine ⟨_, bezier_derivative_eq _ (by norm_num), ?_⟩
    simp [Bezier.intoIter, Arr.toList, Bezier.new, QuadraticBezier.derivative, QuadraticBezier.new,
      List.ofFn_succ]
  · refine ⟨_, bezier_derivative_eq _ (by norm_num), ?_⟩
    simp [Bezier.intoIter, Arr.toList, Bezier.new, CubicBezier.derivative, CubicBezier.new,
      List.ofFn_succ, QuadraticBezier.controlPoints]

/-! ### Convex hull, affine invariance, reversal (C36–C38) -/

/-- **C36**: on [0, 1], the point returned by the generic curve is a convex
combination of the control points, with Bernstein weights. -/
theorem C36_bezier (b : Bezier P N) (hN : 1 ≤ N) (t : ℝ) (h0 : 0 ≤ t) (h1 : t ≤ 1) :
    ∃ q, b.eval t = some q ∧
      IsConvexCombination (fun k : Fin N => bernstein (N - 1) k t) b.controlPoints q := by
  obtain ⟨q, hq, hc⟩ := C30_eval b hN t
  refine ⟨q, hq, fun k => bernstein_nonneg h0 h1, ?_, hc⟩
  rw [Fin.sum_univ_eq_sum_range (fun k => bernstein (N - 1) k t) N]
  have := bernstein_sum (N - 1) t
  rwa [show N - 1 + 1 = N by omega] at this

/-- **C36** for the specialised curves. -/
theorem C36_specialised (l : LineSegment P) (q : QuadraticBezier P) (c : CubicBezier P)
    (t : ℝ) (h0 : 0 ≤ t) (h1 : t ≤ 1) :
    IsConvexCombination (fun k : Fin 2 => bernstein 1 k t) ![l.start, l.end_] (l.eval t) ∧
    IsConvexCombination (fun k : Fin 3 => bernstein 2 k t) ![q.start, q.ctrl, q.end_] (q.eval t) ∧
    IsConvexCombination (fun k : Fin 4 => bernstein 3 k t)
      ![c.start, c.ctrl1, c.ctrl2, c.end_] (c.eval t) := by
  refine ⟨?_, ?_, ?_⟩
  · obtain ⟨p, hp, h⟩ := C36_bezier (Bezier.new ![l.start, l.end_]) (by norm_num) t h0 h1
    rw [C32_line] at hp
    cases hp; exact h
  · obtain ⟨p, hp, h⟩ := C36_bezier (Bezier.new ![q.start, q.ctrl, q.end_]) (by norm_num) t h0 h1
    rw [C32_quadratic_eval] at hp
    cases hp; exact h
  · obtain ⟨p, hp, h⟩ :=
      C36_bezier (Bezier.new ![c.start, c.ctrl1, c.ctrl2, c.end_]) (by norm_num) t h0 h1
    rw [C32_cubic_eval] at hp
    cases hp; exact h

/-- Consequence of **C36**: every coordinate of the curve stays between bounds of
the control points' coordinates. -/
theorem C36_bounds (b : Bezier P N) (hN : 1 ≤ N) (t : ℝ) (h0 : 0 ≤ t) (h1 : t ≤ 1) (i : ℕ)
    (lo hi : ℝ) (hlo : ∀ k, lo ≤ coord (b.control_points k) i)
    (hhi : ∀ k, coord (b.control_points k) i ≤ hi) :
    ∃ q, b.eval t = some q ∧ lo ≤ coord q i ∧ coord q i ≤ hi := by
  obtain ⟨q, hq, hw, hs, hc⟩ := C36_bezier b hN t h0 h1
  refine ⟨q, hq, ?_, ?_⟩
  · rw [hc, ← one_mul lo, ← hs, Finset.sum_mul]
    exact Finset.sum_le_sum fun k _ => mul_le_mul_of_nonneg_left (hlo k) (hw k)
  · rw [hc, ← one_mul hi, ← hs, Finset.sum_mul]
    exact Finset.sum_le_sum fun k _ => mul_le_mul_of_nonneg_left (hhi k) (hw k)

/-- An affine map between point types: every output coordinate is an affine
function of the input coordinates. -/
def IsAffine {Q : Type} [Point ℝ Q] (f : P → Q) : Prop :=
  ∀ i, ∃ (m : ℕ → ℝ) (c : ℝ), ∀ p,
    coord (f p) i = (∑ j ∈ Finset.range (Point.dim P), m j * coord p j) + c

/-- **C37**: evaluation commutes with affine maps (also between point types of
different dimensions), for every number of control points and every `t`. -/
theorem C37_bezier {Q : Type} [Point ℝ Q] [LawfulPoint Q] (f : P → Q) (hf : IsAffine f)
    (b : Bezier P N) (t : ℝ) :
    (Bezier.new fun k => f (b.control_points k)).eval t = (b.eval t).map f := by
  rcases Nat.eq_zero_or_pos N with rfl | hN
  · rw [bezier_eval_zero, bezier_eval_zero]; rfl
  obtain ⟨q, hq, hc⟩ := C30_eval b hN t
  obtain ⟨q', hq', hc'⟩ := C30_eval (Bezier.new fun k => f (b.control_points k)) hN t
  rw [hq, hq']
  show some q' = some (f q)
  congr 1
  apply point_ext; intro i
  obtain ⟨m, c, h⟩ := hf i
  rw [hc', h]
  simp only [bezierCoord, hc, Bezier.controlPoints, Bezier.new, h, mul_add, Finset.sum_add_distrib,
    Finset.mul_sum]
  rw [← Finset.sum_mul, Finset.sum_comm]
  have hs : ∑ k : Fin N, bernstein (N - 1) k t = 1 := by
    rw [Fin.sum_univ_eq_sum_range (fun k => bernstein (N - 1) k t) N]
    have := bernstein_sum (N - 1) t
    rwa [show N - 1 + 1 = N by omega] at this
  rw [hs, one_mul]
  congr 1
  apply Finset.sum_congr rfl
  intro j _
  apply Finset.sum_congr rfl
  intro k _
  ring

/-- **C37** for the specialised curves. -/
theorem C37_specialised {Q : Type} [Point ℝ Q] [LawfulPoint Q] (f : P → Q) (hf : IsAffine f)
    (a b c d : P) (t : ℝ) :
    (LineSegment.new (f a) (f b)).eval t = f ((LineSegment.new a b).eval t) ∧
    (QuadraticBezier.new (f a) (f b) (f c)).eval t = f ((QuadraticBezier.new a b c).eval t) ∧
    (CubicBezier.new (f a) (f b) (f c) (f d)).eval t = f ((CubicBezier.new a b c d).eval t) := by
  refine ⟨?_, ?_, ?_⟩
  · have h := C37_bezier f hf (Bezier.new ![a, b]) t
    have e : (fun k => f ((Bezier.new ![a, b]).control_points k)) = ![f a, f b] := by
      funext k; fin_cases k <;> rfl
    rw [e, C32_line, C32_line] at h
    exact Option.some.inj h
  · have h := C37_bezier f hf (Bezier.new ![a, b, c]) t
    have e : (fun k => f ((Bezier.new ![a, b, c]).control_points k)) = ![f a, f b, f c] := by
      funext k; fin_cases k <;> rfl
    rw [e, C32_quadratic_eval, C32_quadratic_eval] at h
    exact Option.some.inj h
  · have h := C37_bezier f hf (Bezier.new ![a, b, c, d]) t
    have e : (fun k => f ((Bezier.new ![a, b, c, d]).control_points k))
        = ![f a, f b, f c, f d] := by
      funext k; fin_cases k <;> rfl
    rw [e, C32_cubic_eval, C32_cubic_eval] at h
    exact Option.some.inj h

/-- Test: the rotation by 90° followed by a translation, in the plane, is affine. -/
example : IsAffine (fun p : PointN ℝ 2 => pt2 (-coord p 1 + 3) (coord p 0 - 7)) := by
  intro i
  have hd : Point.dim (PointN ℝ 2) = 2 := rfl
  by_cases hi : i < 2
  · interval_cases i
    · refine ⟨fun j => if j = 1 then -1 else 0, 3, fun p => ?_⟩
      rw [hd, Finset.sum_range_succ, Finset.sum_range_one]; simp
    · refine ⟨fun j => if j = 0 then 1 else 0, -7, fun p => ?_⟩
      rw [hd, Finset.sum_range_succ, Finset.sum_range_one]; simp; ring
  · exact ⟨fun _ => 0, 0, fun p => by rw [coord_out _ hi]; simp⟩

/-- **C38**: the curve with reversed control points is the original run backwards. -/
theorem C38_bezier (b : Bezier P N) (t : ℝ) :
    (Bezier.new fun k => b.control_points k.rev).eval t = b.eval (1 - t) := by
  rcases Nat.eq_zero_or_pos N with rfl | hN
  · rw [bezier_eval_zero, bezier_eval_zero]
  obtain ⟨q, hq, hc⟩ := C30_eval b hN (1 - t)
  obtain ⟨q', hq', hc'⟩ := C30_eval (Bezier.new fun k => b.control_points k.rev) hN t
  rw [hq, hq']
  congr 1
  apply point_ext; intro i
  rw [hc, hc']
  simp only [bezierCoord, Bezier.controlPoints, Bezier.new]
  rw [← Equiv.sum_comp Fin.revPerm]
  apply Finset.sum_congr rfl
  intro k _
  simp only [Fin.revPerm_apply, Fin.rev_rev]
  rw [bernstein_symm (by have := k.isLt; omega)]
  congr 2
  rw [Fin.val_rev]; omega

/-- **C38** for the specialised curves. -/
theorem C38_specialised (a b c d : P) (t : ℝ) :
    (LineSegment.new b a).eval t = (LineSegment.new a b).eval (1 - t) ∧
    (QuadraticBezier.new c b a).eval t = (QuadraticBezier.new a b c).eval (1 - t) ∧
    (CubicBezier.new d c b a).eval t = (CubicBezier.new a b c d).eval (1 - t) := by
  refine ⟨?_, ?_, ?_⟩ <;> apply point_ext <;> intro i
  · rw [C05_eval, C05_eval]; simp [LineSegment.new]; ring
  · rw [C10_eval, C10_eval]; simp [QuadraticBezier.new]; ring
  · rw [C20_eval, C20_eval]; simp [CubicBezier.new]; ring

/-! ### Construction and iteration (C41) -/

/-- **C41**: construction and iteration round-trip, for every `N`; mutating through
the iterator replaces exactly the addressed points. -/
theorem C41_round_trip {Q : Type} (ps : Arr Q N) (f : ℕ → Q → Q) :
    (Bezier.new ps).controlPoints = ps ∧ (Bezier.new ps).intoIter = List.ofFn ps ∧
    (∀ k : Fin N, ((Bezier.new ps).iterMut f).control_points k = f k.val (ps k)) ∧
    (∀ (k : Fin N) (j : ℕ) (v : Q), k.val ≠ j →
      ((Bezier.new ps).iterMut fun i q => if i = j then v else q).control_points k = ps k) := by
  refine ⟨rfl, rfl, fun _ => rfl, fun k j v h => ?_⟩
  simp [Bezier.iterMut, Bezier.new, h]

/-- Test: a Bezier curve of degree 5 in the plane meets the hypotheses above. -/
example : ∃ b : Bezier (PointN ℝ 2) 6, 2 ≤ 6 ∧ b.control_points 0 ≠ b.control_points 5 := by
  refine ⟨Bezier.new fun k => pt2 k.val (k.val ^ 2), by norm_num, fun h => ?_⟩
  have := congrArg (coord · 0) h
  simp [Bezier.new] at this

end Stroke
