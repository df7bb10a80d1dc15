import Verif.Props.BSplineVariation

/-!
# A B-spline curve determines its control points (C148)

Two curves over the same knots that are equal on a part, however short, of the span between two knots
have the same `D + 1` control points of that span.  So a curve determines all the control points that
it uses at all: those with a span of positive length among the ones they reach into, and the last one,
which is the end of the curve.  In particular no two different choices of control points give the same
curve, unless a knot is so often repeated that a control point is never used.  The proof is by
induction on the degree: the derivative of a spline that is constantly zero is a spline of one degree
less that is constantly zero, so neighbouring control points are equal, and the basis functions add
up to 1.

`evalFixed` (Verif/Repaired/Model.lean) has the property.  Of the code's `eval` a different set of
control points can be read off: control point `k` does not take part in the span `k` (C48), so the
points used are those with a span of positive length among the `D` spans after the first one they
reach into.  The two sets are the same unless a knot inside the curve is repeated more than `D` times;
where they differ, `eval` does not depend on a control point that shapes the curve.
-/

namespace Stroke

open Filter Topology

/-! ### The basis functions of one span are independent -/

theorem spline_zero_span {d : ℕ} : ∀ {u : ℕ → ℝ} {K C k : ℕ} {a b : ℝ} {x : ℕ → ℝ},
    (∀ i j, i ≤ j → j < K → u i ≤ u j) → K = C + d + 1 → d < C → d ≤ k → k < C →
    a < b → u k ≤ a → b ≤ u (k + 1) →
    (∀ t, a < t → t < b → ∑ i ∈ Finset.range C, coxDeBoor u d i t * x i = 0) →
    ∀ i, i ≤ k → k ≤ i + d → x i = 0 := by
  induction d with
  | zero =>
    intro u K C k a b x hm hK hdC hdk hkC hab ha hb hz i h1 h2
    have hi : i = k := by omega
    subst hi
    have t1 : a < (a + b) / 2 := by linarith
    have t2 : (a + b) / 2 < b := by linarith
    have e := coxDeBoor_sum_span hm hdk hkC hK (ha.trans t1.le) (t2.trans_le hb) x
    rw [hz _ t1 t2] at e
    have s := coxDeBoor_sum hm hdk (show i + 1 < K by omega) (ha.trans t1.le) (t2.trans_le hb)
    simp only [zero_add, Finset.sum_range_one, Nat.sub_zero, Nat.add_zero] at e s
    rw [s, mul_one] at e
    exact e.symm
  | succ d ih =>
    intro u K C k a b x hm hK hdC hdk hkC hab ha hb hz
    have huk : u k < u (k + 1) := ha.trans_lt (hab.trans_le hb)
    have hstep : ∀ i, i ≤ k - 1 → k - 1 ≤ i + d → x (i + 1) = x i := by
      intro i i1 i2
      have h := ih (u := fun j => u (j + 1)) (K := C - 1 + d + 1) (C := C - 1) (k := k - 1) (a := a) (b := b)
        (x := fun i => (x (i + 1) - x i) * ((d + 1 : ℝ) / (u (i + (d + 1) + 1) - u (i + 1))))
        (fun i j hij hj => hm _ _ (by omega) (by omega)) rfl (by omega) (by omega) (by omega)
        hab (by rwa [show k - 1 + 1 = k by omega]) (by rwa [show k - 1 + 1 = k by omega])
        (fun t t1 t2 => by
          simp only [coxDeBoor_shift]
          have hd := hasDerivAt_spline hm hK hdC hdk hkC (ha.trans_lt t1) (t2.trans_le hb) x
          have h0 : HasDerivAt (fun t => ∑ i ∈ Finset.range C, coxDeBoor u (d + 1) i t * x i) 0 t := by
            refine (hasDerivAt_const t (0 : ℝ)).congr_of_eventuallyEq ?_
            filter_upwards [Ioo_mem_nhds t1 t2] with s hs
            exact hz s hs.1 hs.2
          exact hd.unique h0) i i1 i2
      have hpos : 0 < u (i + (d + 1) + 1) - u (i + 1) := by
        have := hm (i + 1) k (by omega) (by omega)
        have := hm (k + 1) (i + (d + 1) + 1) (by omega) (by omega)
        linarith
      rcases mul_eq_zero.1 h with h | h
      · linarith
      · exfalso
        have : (0 : ℝ) < (d + 1 : ℝ) / (u (i + (d + 1) + 1) - u (i + 1)) := by positivity
        linarith
    have hall : ∀ n i, i + n = k → k ≤ i + (d + 1) → x i = x k := by
      intro n
      induction n with
      | zero => intro i hi _; rw [← hi, Nat.add_zero]
      | succ n ihn =>
        intro i hi hik
        rw [← hstep i (by omega) (by omega)]
        exact ihn (i + 1) (by omega) (by omega)
    have t1 : a < (a + b) / 2 := by linarith
    have t2 : (a + b) / 2 < b := by linarith
    have e := coxDeBoor_sum_span hm hdk hkC hK (ha.trans t1.le) (t2.trans_le hb) x
    rw [hz _ t1 t2] at e
    have s := coxDeBoor_sum hm hdk (show k + (d + 1) + 1 < K by omega) (ha.trans t1.le) (t2.trans_le hb)
    rw [Finset.sum_congr rfl fun m hmm => by
      rw [hall (d + 1 - m) (k - (d + 1) + m) (by have := Finset.mem_range.1 hmm; omega) (by omega)],
      ← Finset.mul_sum, s, mul_one] at e
    intro i h1 h2
    rw [hall (k - i) i (by omega) h2, ← e]

variable {P : Type} [Point ℝ P] [LawfulPoint P] {K C D : ℕ} {knots : Arr ℝ K} {ps ps' : Arr P C}
  {b b' : BSpline ℝ P K C D}

/-- Two splines that agree on a part of a span have the same control points there. -/
theorem spline_span_unique (v : ValidSpline C D knots) {k : ℕ} (hDk : D ≤ k) (hkC : k < C) {l r : ℝ}
    (hlr : l < r) (hl : knotAt knots k ≤ l) (hr : r ≤ knotAt knots (k + 1))
    (hz : ∀ t, l < t → t < r → ∀ c, splineCoord D knots ps t c = splineCoord D knots ps' t c)
    (i : Fin C) (h1 : i.val ≤ k) (h2 : k ≤ i.val + D) : ps i = ps' i := by
  obtain ⟨v1, v2, v3⟩ := id v
  have hm := fun i j (hij : i ≤ j) (hj : j < K) => mono_knotAt v3 hij hj
  refine point_ext fun c => ?_
  have := spline_zero_span (x := fun i => coord (extend ps i) c - coord (extend ps' i) c) hm v2 v1 hDk
    hkC hlr hl hr (fun t t1 t2 => by
      simp only [mul_sub, Finset.sum_sub_distrib]
      rw [← splineCoord_extend (ps := ps), ← splineCoord_extend (ps := ps'), hz t t1 t2, sub_self])
    i.val h1 h2
  simp only [extend_lt _ i.isLt] at this
  linarith

/-- Control point `i` is used by the curve: it is the last one, or one of the spans `i, ..., i + D`
that it reaches into lies in the domain and is not empty. -/
def Used (C D : ℕ) (knots : Arr ℝ K) (i : ℕ) : Prop :=
  i + 1 = C ∨ ∃ k, i ≤ k ∧ k ≤ i + D ∧ D ≤ k ∧ k < C ∧ knotAt knots k < knotAt knots (k + 1)

/-- The same without the span `i`. -/
def UsedLater (C D : ℕ) (knots : Arr ℝ K) (i : ℕ) : Prop :=
  i + 1 = C ∨ ∃ k, i < k ∧ k ≤ i + D ∧ D ≤ k ∧ k < C ∧ knotAt knots k < knotAt knots (k + 1)

/-- **C148** for the repaired program, one span: curves that are equal on a part of a span have the
same control points in that span. -/
theorem C148_repaired_span (h : BSpline.new knots ps = .ok b) (h' : BSpline.new knots ps' = .ok b')
    {k : ℕ} (hDk : D ≤ k) (hkC : k < C) {l r : ℝ} (hlr : l < r) (hl : knotAt knots k ≤ l)
    (hr : r ≤ knotAt knots (k + 1)) (hz : ∀ t, l < t → t < r → b.evalFixed t = b'.evalFixed t)
    (i : Fin C) (h1 : i.val ≤ k) (h2 : k ≤ i.val + D) : ps i = ps' i := by
  have v := ((new_ok_iff _ _ _).1 h).1
  obtain ⟨v1, v2, v3⟩ := id v
  have hm := fun i j (hij : i ≤ j) (hj : j < K) => mono_knotAt v3 hij hj
  refine spline_span_unique v hDk hkC hlr hl hr (fun t t1 t2 c => ?_) i h1 h2
  have hD : knotAt knots D ≤ t := ((hm D k hDk (by omega)).trans hl).trans t1.le
  have hC : t < knotAt knots C := (t2.trans_le hr).trans_le (hm (k + 1) C hkC (by omega))
  obtain ⟨q, hq, hqc⟩ := C121_bspline h hD hC
  obtain ⟨q', hq', hqc'⟩ := C121_bspline h' hD hC
  have := hz t t1 t2
  rw [hq, hq'] at this
  simp only [Outcome.ok.injEq] at this
  rw [← hqc, ← hqc', this]

/-- **C148** for the repaired program: two splines with the same knots are the same curve if and only
if they have the same control points, up to those that no part of the curve uses. -/
theorem C148_repaired (h : BSpline.new knots ps = .ok b) (h' : BSpline.new knots ps' = .ok b') :
    (∀ t, b.evalFixed t = b'.evalFixed t) ↔ ∀ i : Fin C, Used C D knots i.val → ps i = ps' i := by
  have v := ((new_ok_iff _ _ _).1 h).1
  obtain ⟨v1, v2, v3⟩ := id v
  have hm := fun i j (hij : i ≤ j) (hj : j < K) => mono_knotAt v3 hij hj
  constructor
  · rintro hz i (hi | ⟨k, k1, k2, k3, k4, k5⟩)
    · have := hz (knotAt knots C)
      rw [C121_bspline_end h, C121_bspline_end h'] at this
      simp only [Outcome.ok.injEq] at this
      rwa [show i = ⟨C - 1, by omega⟩ from Fin.ext (by simp only; omega)]
    · exact C148_repaired_span h h' k3 k4 k5 le_rfl le_rfl (fun t _ _ => hz t) i k1 k2
  · intro hu t
    rcases lt_or_ge t (knotAt knots D) with t1 | t1
    · rw [C121_bspline_outside h (.inl t1), C121_bspline_outside h' (.inl t1)]
    rcases lt_trichotomy t (knotAt knots C) with t2 | rfl | t2
    · obtain ⟨q, hq, hqc⟩ := C121_bspline h t1 t2
      obtain ⟨q', hq', hqc'⟩ := C121_bspline h' t1 t2
      rw [hq, hq']
      congr 1
      refine point_ext fun c => ?_
      rw [hqc, hqc', splineCoord, splineCoord]
      obtain ⟨k, hDk, hkC, k1, k2⟩ := exists_basis_span v1 t1 t2
      refine Finset.sum_congr rfl fun i _ => ?_
      have hi := i.isLt
      by_cases hs : i.val ≤ k ∧ k ≤ i.val + D
      · rw [hu i (.inr ⟨k, hs.1, hs.2, hDk, hkC, k1.trans_lt k2⟩)]
      · rw [coxDeBoor_eq_zero hm (show k + 1 < K by omega) k1 k2 D i.val (by omega) (by omega),
          zero_mul, zero_mul]
    · rw [C121_bspline_end h, C121_bspline_end h', hu _ (.inl (by simp only; omega))]
    · rw [C121_bspline_outside h (.inr t2), C121_bspline_outside h' (.inr t2)]

/-- **C148** for the repaired program: if every knot in `[knots[D], knots[C]]` may be repeated, but no
`D + 2` consecutive knots are equal, different control points give different curves. -/
theorem C148_repaired_injective (h : BSpline.new knots ps = .ok b) (h' : BSpline.new knots ps' = .ok b')
    (hmult : ∀ i, i + 1 < C → max (knotAt knots i) (knotAt knots D)
      < min (knotAt knots (i + D + 1)) (knotAt knots C))
    (hz : ∀ t, b.evalFixed t = b'.evalFixed t) : ps = ps' := by
  have v := ((new_ok_iff _ _ _).1 h).1
  obtain ⟨v1, v2, v3⟩ := id v
  have hm := fun i j (hij : i ≤ j) (hj : j < K) => mono_knotAt v3 hij hj
  funext i
  refine (C148_repaired h h').1 hz i ?_
  by_cases hi : i.val + 1 = C
  · exact .inl hi
  have hlt := hmult i.val (by omega)
  set x := max (knotAt knots i.val) (knotAt knots D) with hx
  have x1 : knotAt knots i.val ≤ x := le_max_left _ _
  have x2 : knotAt knots D ≤ x := le_max_right _ _
  have x3 : x < knotAt knots (i.val + D + 1) := hlt.trans_le (min_le_left _ _)
  have x4 : x < knotAt knots C := hlt.trans_le (min_le_right _ _)
  obtain ⟨k, hDk, hkC, k1, k2⟩ := exists_basis_span v1 x2 x4
  refine .inr ⟨k, ?_, ?_, hDk, hkC, k1.trans_lt k2⟩
  · by_contra hcon
    have := hm (k + 1) i.val (by omega) (by omega)
    linarith
  · by_contra hcon
    have := hm (i.val + D + 1) k (by omega) (by omega)
    linarith

/-- **C148**, the part that holds of `eval` itself, one span: curves that are equal on a part of a
span (that starts `EPSILON` or more after the knot) have the same control points there, except for the
one that `eval` leaves out. -/
theorem C148_partial (h : BSpline.new knots ps = .ok b) (h' : BSpline.new knots ps' = .ok b')
    (hc : FrontClamped D knots ∨ BackClamped D knots)
    {k : ℕ} (hDk : D ≤ k) (hkC : k < C) {l r : ℝ} (hlr : l < r) (hl : knotAt knots k + eps ≤ l)
    (hr : r ≤ knotAt knots (k + 1)) (hz : ∀ t, l < t → t < r → b.eval t = b'.eval t)
    (i : Fin C) (h1 : i.val < k) (h2 : k ≤ i.val + D) : ps i = ps' i := by
  classical
  have v := ((new_ok_iff _ _ _).1 h).1
  obtain ⟨v1, v2, v3⟩ := id v
  have hm := fun i j (hij : i ≤ j) (hj : j < K) => mono_knotAt v3 hij hj
  have key := spline_span_unique (ps := Function.update ps ⟨k, hkC⟩ Point.default)
    (ps' := Function.update ps' ⟨k, hkC⟩ Point.default) v hDk hkC hlr
    (by linarith [eps_pos]) hr (fun t t1 t2 c => ?_) i h1.le h2
  · rwa [Function.update_of_ne, Function.update_of_ne] at key <;>
      exact fun e => by rw [e] at h1; exact lt_irrefl _ h1
  have heps : ∀ i : Fin K, knots i < t → eps ≤ t - knots i := by
    intro j hj
    by_cases hjk : j.val ≤ k
    · have := hm j.val k hjk (by omega)
      rw [knotAt_lt _ j.isLt] at this
      simp only [Fin.eta] at this
      linarith
    · have := hm (k + 1) j.val (by omega) j.isLt
      rw [knotAt_lt _ j.isLt] at this
      simp only [Fin.eta] at this
      linarith
  have hk1 : knotAt knots k ≤ t := by linarith [eps_pos]
  have hk2 : t < knotAt knots (k + 1) := t2.trans_le hr
  obtain ⟨q, hq, hqc⟩ := C48_partial h hc hDk hkC hk1 hk2 heps
  obtain ⟨q', hq', hqc'⟩ := C48_partial h' hc hDk hkC hk1 hk2 heps
  have heq := hz t t1 t2
  rw [hq, hq'] at heq
  simp only [Outcome.ok.injEq] at heq
  have upd : ∀ ps : Arr P C, splineCoord D knots (Function.update ps ⟨k, hkC⟩ Point.default) t c
      = splineCoord D knots ps t c - coxDeBoor (knotAt knots) D k t * coord (ps ⟨k, hkC⟩) c := by
    intro ps
    rw [splineCoord, splineCoord, Fintype.sum_eq_add_sum_compl (⟨k, hkC⟩ : Fin C),
      Fintype.sum_eq_add_sum_compl (⟨k, hkC⟩ : Fin C) (fun i => coxDeBoor (knotAt knots) D i.val t
        * coord (ps i) c), Function.update_self, coord_default, mul_zero, zero_add, add_sub_cancel_left]
    refine Finset.sum_congr rfl fun j hj => ?_
    rw [Function.update_of_ne (by simpa using hj)]
  rw [upd, upd, ← hqc, ← hqc', heq]

/-- **C148**, the part that holds of `eval` itself: if the spans are longer than `EPSILON` or empty,
two splines with the same knots evaluate to the same points if and only if they have the same control
points, up to those that are used neither at the end nor in a span after their first one. -/
theorem C148_partial_all (h : BSpline.new knots ps = .ok b) (h' : BSpline.new knots ps' = .ok b')
    (hc : FrontClamped D knots ∨ BackClamped D knots)
    (hlong : ∀ k, D ≤ k → k < C → knotAt knots k < knotAt knots (k + 1) →
      knotAt knots k + eps < knotAt knots (k + 1)) :
    (∀ t, knotAt knots D ≤ t → t ≤ knotAt knots C → b.eval t = b'.eval t)
      ↔ ∀ i : Fin C, UsedLater C D knots i.val → ps i = ps' i := by
  have v := ((new_ok_iff _ _ _).1 h).1
  obtain ⟨v1, v2, v3⟩ := id v
  have hm := fun i j (hij : i ≤ j) (hj : j < K) => mono_knotAt v3 hij hj
  constructor
  · rintro hz i (hi | ⟨k, k1, k2, k3, k4, k5⟩)
    · have := hz (knotAt knots C) (hm D C v1.le (by omega)) le_rfl
      rw [eval_end h, eval_end h', extend_lt _ (by omega), extend_lt _ (by omega)] at this
      simp only [Outcome.ok.injEq] at this
      rwa [show i = ⟨C - 1, by omega⟩ from Fin.ext (by simp only; omega)]
    · refine C148_partial h h' hc k3 k4 (hlong k k3 k4 k5) le_rfl le_rfl (fun t t1 t2 => hz t ?_ ?_) i
        k1 k2
      · linarith [eps_pos, hm D k k3 (by omega)]
      · linarith [hm (k + 1) C k4 (by omega)]
  · intro hu t t1 t2
    rcases eq_or_lt_of_le t2 with rfl | t2
    · rw [eval_end h, eval_end h', extend_lt _ (by omega), extend_lt _ (by omega), hu _ (.inl (by simp only; omega))]
    obtain ⟨k, hDk, hkC, k1, k2⟩ := exists_basis_span v1 t1 t2
    rw [eval_in_span h hc hDk hkC k1 k2, eval_in_span h' hc hDk hkC k1 k2]
    congr 1
    refine point_ext fun c => ?_
    rw [coord_deBoorValue_weights, coord_deBoorValue_weights]
    refine Finset.sum_congr rfl fun m hmm => ?_
    have := Finset.mem_range.1 hmm
    rw [extend_lt _ (show m + k - D < C by omega), extend_lt _ (show m + k - D < C by omega),
      hu _ (.inr ⟨k, by simp only; omega, by simp only; omega, hDk, hkC, k1.trans_lt k2⟩)]

/-! ### A knot repeated too often, and the hypotheses -/

theorem valid_001122 : ValidSpline 4 1 (![0, 0, 1, 1, 2, 2] : Fin 6 → ℝ) := by
  refine ⟨by norm_num, by norm_num, fun i j hij => ?_⟩
  fin_cases i <;> fin_cases j <;> simp_all

theorem front_001122 : FrontClamped 1 (![0, 0, 1, 1, 2, 2] : Fin 6 → ℝ) := by
  intro i hi
  fin_cases i <;> simp_all [knotAt, eps_pos]

theorem long_001122 {k : ℕ} (h1 : 1 ≤ k) (h2 : k < 4)
    (h3 : knotAt (![0, 0, 1, 1, 2, 2] : Fin 6 → ℝ) k < knotAt (![0, 0, 1, 1, 2, 2] : Fin 6 → ℝ) (k + 1)) :
    k ≠ 2 ∧ knotAt (![0, 0, 1, 1, 2, 2] : Fin 6 → ℝ) k + eps
      < knotAt (![0, 0, 1, 1, 2, 2] : Fin 6 → ℝ) (k + 1) := by
  have := eps_le_quarter
  interval_cases k
  · exact ⟨by norm_num, by simp [knotAt]; linarith⟩
  · simp [knotAt] at h3
  · exact ⟨by norm_num, by simp [knotAt]; linarith⟩

/-- **C148** is false of the code: degree 1, knots 0 0 1 1 2 2, the curve from control point 0 to 1
and from 2 to 3.  Whatever control point 1 is, `eval` returns the same points.  The repaired program
tells any two different choices apart. -/
theorem C148_false (p q r s s' : P) (hne : s ≠ s') : ∃ b b' : BSpline ℝ P 6 4 1,
    BSpline.new ![0, 0, 1, 1, 2, 2] ![p, s, q, r] = .ok b ∧
    BSpline.new ![0, 0, 1, 1, 2, 2] ![p, s', q, r] = .ok b' ∧
    (∀ t, 0 ≤ t → t ≤ 2 → b.eval t = b'.eval t) ∧
    ∃ t, b.evalFixed t ≠ b'.evalFixed t := by
  obtain ⟨b, hb⟩ := (C43_accepts (D := 1) _ ![p, s, q, r]).2 valid_001122
  obtain ⟨b', hb'⟩ := (C43_accepts (D := 1) _ ![p, s', q, r]).2 valid_001122
  refine ⟨b, b', hb, hb', ?_, ?_⟩
  · have := (C148_partial_all hb hb' (.inl front_001122)
      fun k h1 h2 h3 => (long_001122 h1 h2 h3).2).2 fun i hi => ?_
    · simpa [knotAt] using this
    · fin_cases i
      · rfl
      · exfalso
        rcases hi with hi | ⟨k, k1, k2, k3, k4, k5⟩
        · norm_num at hi
        · have := (long_001122 k3 k4 k5).1
          simp only at k1 k2
          omega
      · rfl
      · rfl
  · by_contra hcon
    simp only [not_exists, not_not] at hcon
    refine hne ?_
    have := (C148_repaired hb hb').1 hcon 1 (.inr ⟨1, by norm_num, by norm_num, by norm_num, by norm_num,
      by simp [knotAt]⟩)
    simpa using this

/-- The hypothesis of `C148_repaired_injective` is met by the knots 0 0 1 1 2 2 and degree 1. -/
example (i : ℕ) (hi : i + 1 < 4) : max (knotAt (![0, 0, 1, 1, 2, 2] : Fin 6 → ℝ) i)
    (knotAt (![0, 0, 1, 1, 2, 2] : Fin 6 → ℝ) 1)
      < min (knotAt (![0, 0, 1, 1, 2, 2] : Fin 6 → ℝ) (i + 1 + 1))
        (knotAt (![0, 0, 1, 1, 2, 2] : Fin 6 → ℝ) 4) := by
  have : i < 3 := by omega
  interval_cases i <;> simp [knotAt]

/-- And every control point of a clamped spline with knots 0 0 0 1 2 2 2 and degree 2 can be read off
`eval`. -/
example (ps ps' : Arr P 4) : ∃ b b' : BSpline ℝ P 7 4 2,
    BSpline.new ![0, 0, 0, 1, 2, 2, 2] ps = .ok b ∧ BSpline.new ![0, 0, 0, 1, 2, 2, 2] ps' = .ok b' ∧
    ((∀ t, 0 ≤ t → t ≤ 2 → b.eval t = b'.eval t) → ps = ps') := by
  obtain ⟨b, hb⟩ := (C43_accepts (D := 2) _ ps).2 valid_0001222
  obtain ⟨b', hb'⟩ := (C43_accepts (D := 2) _ ps').2 valid_0001222
  refine ⟨b, b', hb, hb', fun hz => funext fun i => ?_⟩
  have e := eps_le_quarter
  refine (C148_partial_all hb hb' (.inl front_0001222) (fun k h1 h2 _ => ?_)).1
    (by simpa [knotAt] using hz) i ?_
  · interval_cases k <;> simp [knotAt] <;> linarith
  · fin_cases i
    · exact .inr ⟨2, by norm_num, by norm_num, by norm_num, by norm_num, by simp [knotAt]⟩
    · exact .inr ⟨2, by norm_num, by norm_num, by norm_num, by norm_num, by simp [knotAt]⟩
    · exact .inr ⟨3, by norm_num, by norm_num, by norm_num, by norm_num, by simp [knotAt]⟩
    · exact .inl rfl

end Stroke
