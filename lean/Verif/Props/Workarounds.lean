import Verif.Props.RepairedMore
import Verif.Props.FlatExact
import Verif.Props.RepairedBSplineMore

/-!
# Right results from the code as it is (C136)

For each call with a wrong result, a way to get the right one by other calls of the same version of
the library.  All the functions in this file are those of the code, none is a repaired one.
-/

namespace Stroke

section Curves
variable {P : Type} [Point ℝ P] [LawfulPoint P] {N : ℕ}

/-- **C136**: cut a segment with the generic curve with the same two points, instead of
`LineSegment::split` (C06). -/
theorem C136_split (a b : P) (t : ℝ) :
    ∃ l r, (Bezier.new ![a, b]).split t = some (l, r) ∧
      l.intoIter = [a, (LineSegment.new a b).eval t] ∧
      r.intoIter = [(LineSegment.new a b).eval t, b] ∧
      ∀ s : ℝ, l.eval s = some ((LineSegment.new a b).eval (t * s)) ∧
        r.eval s = some ((LineSegment.new a b).eval (t + (1 - t) * s)) := by
  obtain ⟨l, r, h, hs⟩ := C33_split (Bezier.new ![a, b]) t
  have e := h.symm.trans (bezier_split_cas (Bezier.new ![a, b]) t)
  rw [Option.some.injEq, Prod.mk.injEq] at e
  refine ⟨l, r, h, ?_, ?_, fun s => ?_⟩
  · rw [e.1]
    simp only [Bezier.intoIter, Arr.toList, List.ofFn_succ, List.ofFn_zero, List.cons.injEq, and_true]
    refine ⟨rfl, point_ext fun i => ?_⟩
    rw [C05_eval, coord_cas]
    simp [bsum, bernstein, Finset.sum_range_succ, extend, Bezier.new, LineSegment.new]
  · rw [e.2]
    simp only [Bezier.intoIter, Arr.toList, List.ofFn_succ, List.ofFn_zero, List.cons.injEq, and_true]
    refine ⟨point_ext fun i => ?_, rfl⟩
    rw [C05_eval, coord_cas]
    simp [bsum, bernstein, Finset.sum_range_succ, extend, Bezier.new, LineSegment.new]
  · obtain ⟨h1, h2⟩ := hs (by norm_num) s
    rw [h1, h2, C32_line, C32_line]
    exact ⟨rfl, rfl⟩

omit [LawfulPoint P] in
theorem segmentDistances_comm (a b p : P) : segmentDistances a b p = segmentDistances b a p := by
  have : ∀ a b : P, segmentDistances a b p ⊆ segmentDistances b a p := by
    rintro a b d ⟨s, h0, h1, rfl⟩
    refine ⟨1 - s, by linarith, by linarith, ?_⟩
    congr 1
    refine Finset.sum_congr rfl fun i _ => ?_
    ring
  exact (this a b).antisymm (this b a)

omit [LawfulPoint P] in
theorem along_swap (a b p : P) : along b a p = pdist a b ^ 2 - along a b p := by
  rw [pdist_sq, along, along, ← Finset.sum_sub_distrib]
  exact Finset.sum_congr rfl fun i _ => by ring

/-- **C136**: ask for the distance from both ends and take the smaller answer, instead of
`LineSegment::distance_to_point` alone (C07).  Segments shorter than `√EPSILON`: the smaller answer is
less than `√EPSILON` too large. -/
theorem C136_distance (a b p : P) :
    ∃ d d', (LineSegment.new a b).distanceToPoint p = some d ∧
      (LineSegment.new b a).distanceToPoint p = some d' ∧
      (eps ≤ pdist a b ^ 2 → IsSegmentDistance a b p (min d d')) ∧
      (pdist a b ^ 2 < eps → min d d' ∈ segmentDistances a b p ∧
        ∀ e ∈ segmentDistances a b p, min d d' ≤ e + Real.sqrt eps) := by
  obtain ⟨d, hd, hm⟩ := C07_never_below (LineSegment.new a b) p
  obtain ⟨d', hd', hm'⟩ := C07_never_below (LineSegment.new b a) p
  have hm'' : d' ∈ segmentDistances a b p := by
    rw [segmentDistances_comm]; exact hm'
  have hmin : min d d' ∈ segmentDistances a b p := by
    rcases min_choice d d' with h | h <;> rw [h]
    exacts [hm, hm'']
  refine ⟨d, d', hd, hd', fun hl => ⟨hmin, ?_⟩, fun hl => ⟨hmin, ?_⟩⟩
  · rcases lt_or_ge (along a b p) (pdist a b ^ 2) with h | h
    · obtain ⟨e, he, hle⟩ := C07_partial (LineSegment.new a b) p
        (by rw [pdist_comm]; exact hl) (by rw [pdist_comm]; exact h)
      rw [hd, Option.some.injEq] at he
      subst he
      exact fun x hx => (min_le_left _ _).trans (hle.2 hx)
    · have h' : along b a p < pdist b a ^ 2 := by
        rw [along_swap, pdist_comm b a]
        have := eps_pos
        linarith
      obtain ⟨e, he, hle⟩ := C07_partial (LineSegment.new b a) p hl
        (by rw [pdist_comm]; exact h')
      rw [hd', Option.some.injEq] at he
      subst he
      intro x hx
      rw [segmentDistances_comm] at hx
      exact (min_le_right _ _).trans (hle.2 hx)
  · obtain ⟨h1, h2⟩ := C07_short (LineSegment.new a b) p (by rw [pdist_comm]; exact hl)
    rw [hd, Option.some.injEq] at h1
    subst h1
    exact fun e he => (min_le_left _ _).trans (h2 e he)

/-- **C136**: test a quadratic curve in both directions, instead of `is_linear` alone (C18). -/
theorem C136_is_linear (a b c : P) (tol : ℝ) (hl : eps ≤ pdist a c ^ 2) :
    ∃ r r', (QuadraticBezier.new a b c).isLinear tol = some r ∧
      (QuadraticBezier.new c b a).isLinear tol = some r' ∧
      ((r || r') = true ↔ NearSegment a c b tol) := by
  obtain ⟨d, d', hd, hd', h, -⟩ := C136_distance a c b
  refine ⟨_, _, isLinear_eq (QuadraticBezier.new a b c) tol d hd,
    isLinear_eq (QuadraticBezier.new c b a) tol d' hd', ?_⟩
  have hl' : eps ≤ pdist c a ^ 2 := by rwa [pdist_comm]
  simp only [QuadraticBezier.new, hl, hl', true_and]
  rw [Bool.or_eq_true, decide_eq_true_iff, decide_eq_true_iff, ← min_le_iff]
  exact nearSegment_iff (h hl)

/-- **C136**: test a cubic curve by the two quadratic curves with the same ends and one of the control
points each, in both directions, instead of `CubicBezier::is_linear` (C28). -/
theorem C136_is_linear_cubic (c : CubicBezier P) (tol : ℝ) (hl : eps ≤ pdist c.start c.end_ ^ 2) :
    ∃ r1 r1' r2 r2', (QuadraticBezier.new c.start c.ctrl1 c.end_).isLinear tol = some r1 ∧
      (QuadraticBezier.new c.end_ c.ctrl1 c.start).isLinear tol = some r1' ∧
      (QuadraticBezier.new c.start c.ctrl2 c.end_).isLinear tol = some r2 ∧
      (QuadraticBezier.new c.end_ c.ctrl2 c.start).isLinear tol = some r2' ∧
      (((r1 || r1') && (r2 || r2')) = true ↔
        NearSegment c.start c.end_ c.ctrl1 tol ∧ NearSegment c.start c.end_ c.ctrl2 tol) := by
  obtain ⟨r1, r1', h1, h1', e1⟩ := C136_is_linear c.start c.ctrl1 c.end_ tol hl
  obtain ⟨r2, r2', h2, h2', e2⟩ := C136_is_linear c.start c.ctrl2 c.end_ tol hl
  exact ⟨r1, r1', r2, r2', h1, h1', h2, h2', by rw [Bool.and_eq_true, e1, e2]⟩

/-- **C136**: test a quadratic curve in both directions, instead of `is_a_point` alone (C77). -/
theorem C136_is_a_point (a b c : P) (tol : ℝ) :
    ((QuadraticBezier.new a b c).isAPoint tol && (QuadraticBezier.new c b a).isAPoint tol) = true ↔
      pdist a b ≤ |tol| ∧ pdist b c ≤ |tol| ∧ pdist a c ≤ |tol| := by
  have key : ∀ x y : P, pdist x y ^ 2 ≤ tol * tol ↔ pdist x y ≤ |tol| := fun x y => by
    rw [← sq, ← sq_abs tol, sq_le_sq₀ (pdist_nonneg _ _) (abs_nonneg _)]
  unfold QuadraticBezier.isAPoint
  rw [squaredLength_sub, squaredLength_sub, squaredLength_sub, squaredLength_sub]
  simp only [le_real, Bool.and_eq_true, decide_eq_true_eq, QuadraticBezier.new, key]
  rw [pdist_comm c a, pdist_comm c b]
  tauto

/-- **C136**: take the component of the derivative curve, instead of `CubicBezier::dd` (C23). -/
theorem C136_dd (c : CubicBezier P) (t : ℝ) {i : ℕ} (hi : i < Point.dim P) :
    ∃ v, Point.axis (c.derivative.eval t) i = some v ∧
      HasDerivAt (fun u : ℝ => coord (c.eval u) i) v t :=
  ⟨_, axis_eq _ hi, C22_derivative c t i hi⟩

omit [LawfulPoint P] in
theorem polylineLength_first (f : ℕ → P) {n : ℕ} (hn : 1 ≤ n) :
    polylineLength f 0 n = pdist (f 0) (f 1) + polylineLength f 1 n := by
  unfold polylineLength
  rw [Finset.sum_eq_sum_Ico_succ_bot (by omega)]

/-- **C136**: add the first chord to `arclen` (C15, C26, C39). -/
theorem C136_arclen (q : QuadraticBezier P) (c : CubicBezier P) (b : Bezier P N) (hN : 1 ≤ N) {n : ℕ}
    (hn : 1 ≤ n) :
    (∃ x, q.arclen n = some x ∧ x + pdist (q.eval (0 : ℝ)) (q.eval (1 / n : ℝ))
      = polylineLength (fun i : ℕ => q.eval ((i : ℝ) / n)) 0 n) ∧
    (∃ x, c.arclen n = some x ∧ x + pdist (c.eval (0 : ℝ)) (c.eval (1 / n : ℝ))
      = polylineLength (fun i : ℕ => c.eval ((i : ℝ) / n)) 0 n) ∧
    ∃ f : ℝ → P, (∀ t, b.eval t = some (f t)) ∧
      ∃ x, b.arclen n = some x ∧ x + pdist (f 0) (f (1 / n))
        = polylineLength (fun i : ℕ => f ((i : ℝ) / n)) 0 n := by
  refine ⟨⟨_, C15_actual q n, ?_⟩, ⟨_, C26_actual c n, ?_⟩, ?_⟩
  · rw [polylineLength_first _ hn]
    simp [add_comm]
  · rw [polylineLength_first _ hn]
    simp [add_comm]
  · obtain ⟨f, hf, ha⟩ := C39_actual b hN
    refine ⟨f, hf, _, ha n, ?_⟩
    rw [polylineLength_first _ hn]
    simp [add_comm]

end Curves

/-! ### B-splines -/

section Splines
variable {P : Type} [Point ℝ P] [LawfulPoint P] {K C D : ℕ}

/-- A constant spline has the value of its control points. -/
theorem splineCoord_sub {knots : Fin K → ℝ} (v : ValidSpline C D knots) {t : ℝ} {k : ℕ} (hDk : D ≤ k)
    (hkC : k < C) (h1 : knotAt knots k ≤ t) (h2 : t < knotAt knots (k + 1)) (ps : Fin C → P) (p : P)
    (c : ℕ) :
    splineCoord D knots (fun i => ps i - p) t c = splineCoord D knots ps t c - coord p c := by
  have hm : ∀ i j, i ≤ j → j < K → knotAt knots i ≤ knotAt knots j :=
    fun i j hij hj => mono_knotAt v.2.2 hij hj
  have hs : ∑ i : Fin C, coxDeBoor (knotAt knots) D i.val t = 1 := by
    have e := coxDeBoor_sum_span hm hDk hkC v.2.1 h1 h2 (fun _ => (1 : ℝ))
    rw [← Fin.sum_univ_eq_sum_range (fun i => coxDeBoor (knotAt knots) D i t * 1) C] at e
    simp only [mul_one, one_mul] at e
    rw [e, coxDeBoor_sum hm hDk (by have := v.2.1; omega) h1 h2]
  unfold splineCoord
  simp only [coord_sub, mul_sub, Finset.sum_sub_distrib]
  rw [← Finset.sum_mul, hs, one_mul]

/-- **C136**: to evaluate a B-spline at `t`, `knots[k] ≤ t < knots[k+1]`, move control point `k` to the
origin, evaluate, and move the result back, instead of evaluating directly (C48).  For knot vectors
clamped on at least one side, and `t` not within the machine epsilon above a knot. -/
theorem C136_bspline {knots : Arr ℝ K} (v : ValidSpline C D knots)
    (hc : FrontClamped D knots ∨ BackClamped D knots) (ps : Arr P C) {t : ℝ} {k : ℕ} (hDk : D ≤ k)
    (hkC : k < C) (h1 : knotAt knots k ≤ t) (h2 : t < knotAt knots (k + 1))
    (heps : ∀ i : Fin K, knots i < t → eps ≤ t - knots i) :
    ∃ (b : BSpline ℝ P K C D) (q : P),
      BSpline.new knots (fun i => ps i - ps ⟨k, hkC⟩) = .ok b ∧ b.eval t = .ok q ∧
      ∀ c, coord (q + ps ⟨k, hkC⟩) c = splineCoord D knots ps t c := by
  obtain ⟨b, hb⟩ := (C43_accepts (D := D) knots (fun i => ps i - ps ⟨k, hkC⟩)).2 v
  obtain ⟨q, hq, hcq⟩ := C48_partial hb hc hDk hkC h1 h2 heps
  refine ⟨b, q, hb, hq, fun c => ?_⟩
  rw [coord_add, hcq, splineCoord_sub v hDk hkC h1 h2, coord_sub]
  ring

/-- The knot vector with `D` more copies of the first knot in front. -/
noncomputable def paddedKnots (D : ℕ) (knots : Fin K → ℝ) : Fin (K + D) → ℝ :=
  fun i => knotAt knots (i.val - D)

theorem knotAt_padded (knots : Fin K → ℝ) {i : ℕ} (hi : i < K + D) :
    knotAt (paddedKnots D knots) i = knotAt knots (i - D) := by
  rw [knotAt_lt _ hi, paddedKnots]

theorem coxDeBoor_shift_by (u : ℕ → ℝ) (m d i : ℕ) (t : ℝ) :
    coxDeBoor (fun j => u (j + m)) d i t = coxDeBoor u d (i + m) t := by
  induction m generalizing u with
  | zero => rfl
  | succ m ih =>
    have e : (fun j => u (j + (m + 1))) = fun j => (fun l => u (l + 1)) (j + m) := by
      funext j
      rw [show j + (m + 1) = j + m + 1 by omega]
    rw [e, ih (fun l => u (l + 1)), coxDeBoor_shift]
    rfl

/-- Control points with `D` more of them in front. -/
def paddedPoints (D : ℕ) (extra : ℕ → P) (ps : Fin C → P) : Fin (C + D) → P :=
  fun i => if h : D ≤ i.val then ps ⟨i.val - D, by omega⟩ else extra i.val

theorem padded_valid {knots : Fin K → ℝ} (v : ValidSpline C D knots) :
    ValidSpline (C + D) D (paddedKnots D knots) := by
  obtain ⟨v1, v2, v3⟩ := v
  refine ⟨by omega, by omega, fun i j hij => ?_⟩
  exact mono_knotAt v3 (Nat.sub_le_sub_right hij D) (by have := j.2; omega)

omit [LawfulPoint P] in
/-- The additional knots and control points change nothing on the domain of the spline. -/
theorem splineCoord_padded {knots : Fin K → ℝ} (v : ValidSpline C D knots) (ps : Fin C → P)
    (extra : ℕ → P) {t : ℝ} {k : ℕ} (hDk : D ≤ k) (hkC : k < C) (h1 : knotAt knots k ≤ t)
    (h2 : t < knotAt knots (k + 1)) (c : ℕ) :
    splineCoord D (paddedKnots D knots) (paddedPoints D extra ps) t c
      = splineCoord D knots ps t c := by
  have vp := padded_valid v
  obtain ⟨v1, v2, v3⟩ := id v
  have hm : ∀ i j, i ≤ j → j < K → knotAt knots i ≤ knotAt knots j :=
    fun i j hij hj => mono_knotAt v3 hij hj
  have e1 : knotAt (paddedKnots D knots) (k + D) = knotAt knots k := by
    rw [knotAt_padded _ (by omega), Nat.add_sub_cancel]
  have e2 : knotAt (paddedKnots D knots) (k + D + 1) = knotAt knots (k + 1) := by
    rw [knotAt_padded _ (by omega), show k + D + 1 - D = k + 1 by omega]
  have hmp : ∀ i j, i ≤ j → j < K + D →
      knotAt (paddedKnots D knots) i ≤ knotAt (paddedKnots D knots) j :=
    fun i j hij hj => mono_knotAt vp.2.2 hij hj
  have l : splineCoord D (paddedKnots D knots) (paddedPoints D extra ps) t c
      = ∑ i ∈ Finset.range (C + D), coxDeBoor (knotAt (paddedKnots D knots)) D i t
        * coord (if D ≤ i then extend ps (i - D) else extra i) c := by
    rw [← Fin.sum_univ_eq_sum_range (fun i => coxDeBoor (knotAt (paddedKnots D knots)) D i t
      * coord (if D ≤ i then extend ps (i - D) else extra i) c) (C + D)]
    refine Finset.sum_congr rfl fun i _ => ?_
    unfold paddedPoints
    by_cases h : D ≤ i.val
    · simp only [h, dif_pos, if_pos]
      rw [extend_lt ps (show i.val - D < C by omega)]
    · simp only [h, dif_neg, if_neg, not_false_eq_true]
  have r : splineCoord D knots ps t c
      = ∑ i ∈ Finset.range C, coxDeBoor (knotAt knots) D i t * coord (extend ps i) c := by
    rw [← Fin.sum_univ_eq_sum_range (fun i => coxDeBoor (knotAt knots) D i t
      * coord (extend ps i) c) C]
    exact Finset.sum_congr rfl fun i _ => by rw [extend_lt ps i.2]
  rw [l, r, coxDeBoor_sum_span hmp (k := k + D) (by omega) (by omega) vp.2.1 (by rw [e1]; exact h1)
      (by rw [e2]; exact h2) (fun i => coord (if D ≤ i then extend ps (i - D) else extra i) c),
    coxDeBoor_sum_span hm hDk hkC v2 h1 h2 (fun i => coord (extend ps i) c)]
  refine Finset.sum_congr rfl fun m hm' => ?_
  have hmD : m ≤ D := by have := Finset.mem_range.1 hm'; omega
  rw [if_pos (by omega), show k + D - D + m - D = k - D + m by omega,
    show k + D - D + m = k - D + m + D by omega, ← coxDeBoor_shift_by]
  congr 1
  refine coxDeBoor_congr (K := K) (fun i hi => ?_) D _ (by omega) t
  rw [knotAt_padded _ (by omega), Nat.add_sub_cancel]

/-- **C136**: splines of every other kind, also those on which `eval` panics (C47): put `D` more copies
of the first knot and `D` arbitrary control points in front, which changes nothing on the domain of the
spline, and proceed as in `C136_bspline`. -/
theorem C136_bspline_any_kind {knots : Arr ℝ K} (v : ValidSpline C D knots) (ps : Arr P C)
    (extra : ℕ → P) {t : ℝ} {k : ℕ} (hDk : D ≤ k) (hkC : k < C) (h1 : knotAt knots k ≤ t)
    (h2 : t < knotAt knots (k + 1)) (heps : ∀ i : Fin K, knots i < t → eps ≤ t - knots i) :
    ∃ (b : BSpline ℝ P (K + D) (C + D) D) (q : P),
      BSpline.new (paddedKnots D knots)
        (fun i => paddedPoints D extra ps i - ps ⟨k, hkC⟩) = .ok b ∧
      b.eval t = .ok q ∧ ∀ c, coord (q + ps ⟨k, hkC⟩) c = splineCoord D knots ps t c := by
  obtain ⟨v1, v2, v3⟩ := id v
  have hf : FrontClamped D (paddedKnots D knots) := by
    intro i hi
    rw [knotAt_padded _ (by omega), paddedKnots, show i.val - D = 0 by omega, show 0 - D = 0 by omega,
      sub_self, abs_zero]
    exact eps_pos
  have e1 : knotAt (paddedKnots D knots) (k + D) = knotAt knots k := by
    rw [knotAt_padded _ (by omega), Nat.add_sub_cancel]
  have e2 : knotAt (paddedKnots D knots) (k + D + 1) = knotAt knots (k + 1) := by
    rw [knotAt_padded _ (by omega), show k + D + 1 - D = k + 1 by omega]
  obtain ⟨b, q, hb, hq, hcq⟩ := C136_bspline (padded_valid v) (Or.inl hf) (paddedPoints D extra ps)
    (t := t) (k := k + D) (by omega) (by omega) (by rw [e1]; exact h1) (by rw [e2]; exact h2)
    (by
      intro i hi
      have hiK : i.val - D < K := by have := i.2; omega
      have := heps ⟨i.val - D, hiK⟩
      rw [← knotAt_lt knots hiK] at this
      exact this hi)
  have ek : paddedPoints D extra ps ⟨k + D, by omega⟩ = ps ⟨k, hkC⟩ := by
    unfold paddedPoints
    rw [dif_pos (by simp)]
    congr 2
    simp
  rw [ek] at hb hcq
  exact ⟨b, q, hb, hq, fun c => (hcq c).trans (splineCoord_padded v ps extra hDk hkC h1 h2 c)⟩

theorem knotAt_trim (knots : Fin K → ℝ) {i : ℕ} (hi : i < K - 2) :
    knotAt (trimKnots knots) i = knotAt knots (i + 1) := by
  rw [knotAt_lt _ hi, trimKnots]

/-- **C136**: to evaluate the derivative of a B-spline, make a spline of its own of the control points
that `derivative` returns and the knots without the first and the last, instead of evaluating the spline
that `derivative` returns (C52); evaluate it as in `C136_bspline`. -/
theorem C136_derivative {knots : Arr ℝ K} {ps : Arr P C} {b : BSpline ℝ P K C D}
    (h : BSpline.new knots ps = .ok b) (hD : 1 ≤ D)
    (hc : FrontClamped D knots ∨ BackClamped D knots)
    (hden : ∀ i, i + 1 < C → knotAt knots (i + 1) < knotAt knots (i + D + 1)) :
    ∃ d, b.derivative = some d ∧ ∀ (k : ℕ) (t : ℝ) (hDk : D ≤ k) (hkC : k < C),
      knotAt knots k < t → t < knotAt knots (k + 1) →
      (∀ i : Fin K, knots i < t → eps ≤ t - knots i) →
      ∃ (e : BSpline ℝ P (K - 2) (C - 1) (D - 1)) (q : P),
        BSpline.new (trimKnots knots)
          (fun i => d.control_points i - d.control_points ⟨k - 1, by omega⟩) = .ok e ∧
        e.eval t = .ok q ∧
        ∀ c, HasDerivAt (fun t => splineCoord D knots ps t c)
          (coord (q + d.control_points ⟨k - 1, by omega⟩) c) t := by
  obtain ⟨v1, v2, v3⟩ := ((new_ok_iff _ _ _).1 h).1
  obtain ⟨d, hd, vt, -, hder⟩ := C52_partial h hD hden
  refine ⟨d, hd, fun k t hDk hkC h1 h2 heps => ?_⟩
  have hm : ∀ i j, i ≤ j → j < K → knotAt knots i ≤ knotAt knots j :=
    fun i j hij hj => mono_knotAt v3 hij hj
  have hc' : FrontClamped (D - 1) (trimKnots knots) ∨ BackClamped (D - 1) (trimKnots knots) := by
    rcases hc with hc | hc
    · refine Or.inl fun i hi => ?_
      have := i.2
      rw [knotAt_trim _ (by omega), trimKnots]
      have a1 := hm 1 (i.val + 1) (by omega) (by omega)
      have a2 := hm 0 1 (by omega) (by omega)
      have a3 := hc ⟨i.val + 1, by omega⟩ (by simp only; omega)
      rw [← knotAt_lt knots (show i.val + 1 < K by omega), abs_lt] at a3
      rw [Nat.zero_add, abs_lt]
      exact ⟨by linarith [eps_pos], by linarith [a3.2]⟩
    · refine Or.inr fun i hi => ?_
      have := i.2
      rw [knotAt_trim _ (by omega), trimKnots]
      have a1 := hm (i.val + 1) (K - 2 - 1 + 1) (by omega) (by omega)
      have a2 := hm (K - 2 - 1 + 1) (K - 1) (by omega) (by omega)
      have a3 := hc ⟨i.val + 1, by omega⟩ (by simp only; omega)
      rw [← knotAt_lt knots (show i.val + 1 < K by omega), abs_lt] at a3
      rw [abs_lt]
      exact ⟨by linarith [a3.1], by linarith [eps_pos]⟩
  have e1 : knotAt (trimKnots knots) (k - 1) = knotAt knots k := by
    rw [knotAt_trim _ (by omega), show k - 1 + 1 = k by omega]
  have e2 : knotAt (trimKnots knots) (k - 1 + 1) = knotAt knots (k + 1) := by
    rw [knotAt_trim _ (by omega), show k - 1 + 1 + 1 = k + 1 by omega]
  obtain ⟨e, q, he, hq, hcq⟩ := C136_bspline vt hc' d.control_points (k := k - 1) (t := t)
    (by omega) (by omega) (by rw [e1]; exact h1.le) (by rw [e2]; exact h2) (by
      intro i hi
      have hiK : i.val + 1 < K := by have := i.2; omega
      have := heps ⟨i.val + 1, hiK⟩
      rw [← knotAt_lt knots hiK] at this
      exact this hi)
  refine ⟨e, q, he, hq, fun c => ?_⟩
  rw [hcq]
  exact hder k t hDk hkC h1 h2 c

end Splines

/-! ### Cases that meet the hypotheses -/

/-- A segment of length 5, and a point beyond its end: the answers are 6 and 1, the distance is 1. -/
example : ∃ d d', (LineSegment.new (p1 0) (p1 5)).distanceToPoint (p1 6) = some d ∧
    (LineSegment.new (p1 5) (p1 0)).distanceToPoint (p1 6) = some d' ∧ eps ≤ pdist (p1 0) (p1 5) ^ 2 ∧
    d = 6 ∧ d' = 1 := by
  have dd : ∀ x y : ℝ, pdist (p1 x) (p1 y) = |x - y| := fun x y => pdist_pn1 x y
  have hl : eps ≤ pdist (p1 0) (p1 5) ^ 2 := by
    rw [dd]
    have := eps_lt_one
    norm_num
    linarith
  have hf := C07_false (LineSegment.new (p1 0) (p1 5)) (p1 6) (by rw [pdist_comm]; exact hl) (by
    show pdist (p1 5) (p1 0) ^ 2 ≤ ∑ i ∈ Finset.range 1,
      (coord (p1 6) i - coord (p1 0) i) * (coord (p1 5) i - coord (p1 0) i)
    rw [dd, Finset.sum_range_one]
    norm_num)
  obtain ⟨d, d', hd, hd', h, -⟩ := C136_distance (p1 0) (p1 5) (p1 6)
  have e := (h hl).unique hf.2.1
  have e6 := hf.1
  rw [hd, Option.some.injEq] at e6
  subst e6
  simp only [LineSegment.new, dd] at e
  refine ⟨_, d', hd, hd', hl, ?_, ?_⟩
  · simp only [LineSegment.new, dd]
    norm_num
  · norm_num at e
    rcases min_choice 6 d' with h | h <;> rw [h] at e <;> norm_num at e
    exact e

/-- The spline of degree 1 with knots 0, 1, 2, 3 (clamped nowhere) and control points 0, 10 at 3/2:
the code returns 10 (`C48_false_unclamped`), the detour the right value 5. -/
example : ∃ (b : BSpline ℝ (PointN ℝ 1) 5 3 1) (q : PointN ℝ 1),
    BSpline.new (paddedKnots 1 (uniformKnots 4)) (fun i : Fin 3 =>
      (if h : 1 ≤ i.val then (![p1 0, p1 10] : Arr (PointN ℝ 1) 2) ⟨i.val - 1, by omega⟩ else p1 7)
        - p1 10) = .ok b ∧
    b.eval (3 / 2 : ℝ) = .ok q ∧ coord (q + p1 10) 0 = 5 := by
  have v : ValidSpline 2 1 (uniformKnots 4) := valid_uniform (by norm_num) (by norm_num)
  obtain ⟨b, q, hb, hq, hc⟩ := C136_bspline_any_kind v ![p1 0, p1 10] (fun _ => p1 7) (t := 3 / 2)
    (k := 1) le_rfl (by norm_num) (by norm_num [knotAt_uniform]) (by norm_num [knotAt_uniform]) (by
      have : eps ≤ 1 / 2 := by unfold eps; norm_num
      intro i hi
      have hi' : (i.val : ℝ) < 3 / 2 := hi
      have h1 : i.val < 2 := by
        by_contra h
        have : (2 : ℝ) ≤ i.val := by exact_mod_cast not_lt.1 h
        linarith
      have h2 : (i.val : ℝ) ≤ 1 := by exact_mod_cast (by omega : i.val ≤ 1)
      show eps ≤ 3 / 2 - (i.val : ℝ)
      linarith)
  refine ⟨b, q, hb, hq, (hc 0).trans ?_⟩
  obtain ⟨-, -, -, h5⟩ := C48_false_unclamped
  exact h5

end Stroke
