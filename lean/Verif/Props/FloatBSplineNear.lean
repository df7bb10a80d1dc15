import Verif.Props.FloatBSplineSuccess
import Verif.Props.FloatBSplineError
import Verif.Props.FloatOrder
import Verif.Props.BSplineLocal
import Verif.Props.FloatDerivativeMore

/-!
# Splines clamped at one end, in floating point

The rounding error of `eval` (C83), the order of the computed points (C111) and the control points
that `eval` looks at (C115) for splines that need be clamped at one end only, and only up to the
machine epsilon.
-/

namespace Stroke

open Fl

variable {F : FloatFormat} {n K C D : ℕ}

section

variable {P : Type} [Point (Fl F) P] {knots : Arr (Fl F) K} {ps : Arr P C}
  {b : BSpline (Fl F) P K C D}

theorem span_pinned {u : ℕ → ℝ} (hm : ∀ i j, i ≤ j → j < K → u i ≤ u j) {t : ℝ} {k k' : ℕ}
    (hk : k < K) (hk' : k' < K) (h1 : u k ≤ t) (h2 : t < u (k + 1)) (h3 : u k' ≤ t)
    (h4 : t < u (k' + 1)) : k' = k := by
  rcases Nat.lt_trichotomy k' k with hlt | heq | hgt
  · have := hm (k' + 1) k (by omega) hk
    linarith
  · exact heq
  · have := hm (k + 1) k' (by omega) hk'
    linarith

theorem domain_front (h : BSpline.new knots ps = .ok b) (hf : NearFront D knots)
    (hb : ¬ NearBack D knots) (hD : D < K) (hK : K - 1 < K) :
    b.knotDomain = some (knots ⟨D, hD⟩, knots ⟨K - 1, hK⟩) := by
  have hkind := (float_kind h).2.1 hf hb
  obtain ⟨v1, v2, v3, hbeq⟩ := (new_generic _ _ _).1 h
  have hkn : b.knots = knots := by rw [hbeq]
  rw [BSpline.knotDomain, hkind]
  simp only [BSpline.knotDomainClampedStart]
  rw [usub_le (by omega), hkn, Arr.get?_lt _ (show D < K by omega)]
  simp only [Option.bind_eq_bind, Option.bind_some]
  rw [Arr.get?_lt _ (show K - 1 < K by omega)]
  rfl

theorem domain_back (h : BSpline.new knots ps = .ok b) (hf : ¬ NearFront D knots)
    (hb : NearBack D knots) (h0 : 0 < K) (hC : C < K) :
    b.knotDomain = some (knots ⟨0, h0⟩, knots ⟨C, hC⟩) := by
  have hkind := (float_kind h).2.2.1 hf hb
  obtain ⟨v1, v2, v3, hbeq⟩ := (new_generic _ _ _).1 h
  have hkn : b.knots = knots := by rw [hbeq]
  rw [BSpline.knotDomain, hkind]
  simp only [BSpline.knotDomainClampedEnd]
  rw [usub_le (by omega)]
  simp only [Option.bind_eq_bind, Option.bind_some]
  rw [usub_le (by omega), hkn, Arr.get?_lt _ (show 0 < K by omega)]
  simp only [Option.bind_some]
  rw [Arr.get?_lt _ (show K - 1 - D < K by omega)]
  simp only [Option.bind_some, show K - 1 - D = C by omega]
  rfl

theorem domain_both (h : BSpline.new knots ps = .ok b) (hf : NearFront D knots)
    (hb : NearBack D knots) (hD : D < K) (hC : C < K) :
    b.knotDomain = some (knots ⟨D, hD⟩, knots ⟨C, hC⟩) := by
  have hkind := (float_kind h).1 hf hb
  obtain ⟨v1, v2, v3, hbeq⟩ := (new_generic _ _ _).1 h
  have hkn : b.knots = knots := by rw [hbeq]
  rw [BSpline.knotDomain, hkind]
  simp only [BSpline.knotDomainClamped]
  rw [usub_le (by omega)]
  simp only [Option.bind_eq_bind, Option.bind_some]
  rw [usub_le (by omega), hkn, Arr.get?_lt _ (show D < K by omega)]
  simp only [Option.bind_some]
  rw [Arr.get?_lt _ (show K - 1 - D < K by omega)]
  simp only [Option.bind_some, show K - 1 - D = C by omega]
  rfl

theorem ne_knot (hk : FiniteKnots knots) {r : ℝ} (hr : r ∈ F.grid ∧ |r| ≤ F.max) {i : ℕ}
    (hi : i < K) (hne : r ≠ knotAt (fun i => (knots i).toReal) i) :
    (Scalar.eq (fin r hr) (knots ⟨i, hi⟩) : Bool) = false := by
  obtain ⟨o, e⟩ := fin_knot hk hi
  rw [e, ← Bool.not_eq_true, eq_fin]
  exact hne

/-- The span found by a spline clamped at the front only. -/
theorem span_front (h : BSpline.new knots ps = .ok b) (hk : FiniteKnots knots)
    (hf : NearFront D knots) (hb : ¬ NearBack D knots) {r : ℝ} (hr : r ∈ F.grid ∧ |r| ≤ F.max)
    {k : ℕ} (hDk : D ≤ k) (hkK : k + 1 < K) (ht1 : knotAt (fun i => (knots i).toReal) k ≤ r)
    (ht2 : r < knotAt (fun i => (knots i).toReal) (k + 1)) :
    b.eval (fin r hr) = b.deBoorIterative (fin r hr) ∧
      b.knotSpanStart (fin r hr) = some (some k) := by
  have hkind := (float_kind h).2.1 hf hb
  obtain ⟨v1, v2, v3, hbeq⟩ := (new_generic _ _ _).1 h
  have hm := (anyDecrease_finiteKnots hk).1 v3
  have hmk := knots_mono h hk
  have hkn : b.knots = knots := by rw [hbeq]
  obtain ⟨oD, eD⟩ := fin_knot hk (show D < K by omega)
  obtain ⟨oL, eL⟩ := fin_knot hk (show K - 1 < K by omega)
  have h1 := (hmk D k hDk (by omega)).trans ht1
  have h2 := ht2.trans_le (hmk (k + 1) (K - 1) (by omega) (by omega))
  have hd := domain_front h hf hb (show D < K by omega) (show K - 1 < K by omega)
  refine ⟨?_, ?_⟩
  · rw [eD, eL] at hd
    exact float_inside hr hd h1 h2.le
  have e : K - 1 - 1 + 1 = K - 1 := by omega
  obtain ⟨k', hk', h3, h4, h5, h6⟩ := spanLoop_spec hm r _ D (K - 1 - 1) le_rfl (by omega) h1
    (by rwa [e]) (by omega)
  rw [span_pinned hmk (by omega) (by omega) ht1 ht2 h5 h6] at hk'
  rw [BSpline.knotSpanStart, hkind]
  simp only [BSpline.spanClampedStart]
  rw [usub_le (by omega), usub_le (by omega)]
  simp only [Option.bind_eq_bind, Option.bind_some]
  rw [hkn, Arr.get?_lt _ (show K - 1 < K by omega), Arr.get?_lt _ (show D < K by omega),
    usub_le (show 1 ≤ K - 1 by omega)]
  simp only [Option.bind_some]
  rw [eL, eD]
  have hin : (Scalar.lt (fin r hr) (fin (knotAt (fun i => (knots i).toReal) D) oD) ||
      Scalar.lt (fin (knotAt (fun i => (knots i).toReal) (K - 1)) oL) (fin r hr)) = false := by
    rw [Bool.or_eq_false_iff, ← Bool.not_eq_true, ← Bool.not_eq_true, lt_fin, lt_fin]
    exact ⟨not_lt.2 h1, not_lt.2 h2.le⟩
  rw [hin, if_neg (by rw [eq_fin]; exact h2.ne)]
  simp only [Bool.false_eq_true, if_false]
  rw [spanClampedStartLoop_eq, spanLoop_finite hk hr _ _ _ le_rfl]
  exact hk'

/-- The span found by a spline clamped at the back only. -/
theorem span_back (h : BSpline.new knots ps = .ok b) (hk : FiniteKnots knots)
    (hf : ¬ NearFront D knots) (hb : NearBack D knots) {r : ℝ} (hr : r ∈ F.grid ∧ |r| ≤ F.max)
    {k : ℕ} (hkC : k < C) (ht1 : knotAt (fun i => (knots i).toReal) k ≤ r)
    (ht2 : r < knotAt (fun i => (knots i).toReal) (k + 1)) :
    b.eval (fin r hr) = b.deBoorIterative (fin r hr) ∧
      b.knotSpanStart (fin r hr) = some (some k) := by
  have hkind := (float_kind h).2.2.1 hf hb
  obtain ⟨v1, v2, v3, hbeq⟩ := (new_generic _ _ _).1 h
  have hm := (anyDecrease_finiteKnots hk).1 v3
  have hmk := knots_mono h hk
  have hkn : b.knots = knots := by rw [hbeq]
  obtain ⟨o0, e0⟩ := fin_knot hk (show 0 < K by omega)
  obtain ⟨oC, eC⟩ := fin_knot hk (show C < K by omega)
  have h1 := (hmk 0 k (by omega) (by omega)).trans ht1
  have h2 := ht2.trans_le (hmk (k + 1) C (by omega) (by omega))
  have hd := domain_back h hf hb (show 0 < K by omega) (show C < K by omega)
  have hne := ne_knot hk hr (show C < K by omega) h2.ne
  refine ⟨?_, ?_⟩
  · rw [e0, eC] at hd
    exact float_inside hr hd h1 h2.le
  have e : C - 1 + 1 = C := by omega
  obtain ⟨k', hk', h3, h4, h5, h6⟩ := spanLoop_spec hm r _ 0 (C - 1) le_rfl (by omega) h1
    (by rwa [e]) (by omega)
  rw [span_pinned hmk (by omega) (by omega) ht1 ht2 h5 h6] at hk'
  rw [BSpline.knotSpanStart, hkind]
  simp only [BSpline.spanClampedEnd]
  rw [usub_le (by omega)]
  simp only [Option.bind_eq_bind, Option.bind_some, show C - 1 + 1 = C by omega]
  rw [hkn, Arr.get?_lt _ (show C < K by omega), Arr.get?_lt _ (show 0 < K by omega)]
  simp only [Option.bind_some, hne, Bool.false_eq_true, if_false]
  rw [e0, eC]
  have hin : (Scalar.lt (fin r hr) (fin (knotAt (fun i => (knots i).toReal) 0) o0) ||
      Scalar.lt (fin (knotAt (fun i => (knots i).toReal) C) oC) (fin r hr)) = false := by
    rw [Bool.or_eq_false_iff, ← Bool.not_eq_true, ← Bool.not_eq_true, lt_fin, lt_fin]
    exact ⟨not_lt.2 h1, not_lt.2 h2.le⟩
  rw [hin]
  simp only [Bool.false_eq_true, if_false]
  rw [spanClampedEndLoop_eq, spanLoop_finite hk hr _ _ _ le_rfl]
  exact hk'

/-- The span found by a spline clamped at both ends. -/
theorem span_both (h : BSpline.new knots ps = .ok b) (hk : FiniteKnots knots)
    (hf : NearFront D knots) (hb : NearBack D knots) {r : ℝ} (hr : r ∈ F.grid ∧ |r| ≤ F.max)
    {k : ℕ} (hDk : D ≤ k) (hkC : k < C) (ht1 : knotAt (fun i => (knots i).toReal) k ≤ r)
    (ht2 : r < knotAt (fun i => (knots i).toReal) (k + 1)) :
    b.eval (fin r hr) = b.deBoorIterative (fin r hr) ∧
      b.knotSpanStart (fin r hr) = some (some k) := by
  have hkind := (float_kind h).1 hf hb
  obtain ⟨v1, v2, v3, hbeq⟩ := (new_generic _ _ _).1 h
  have hm := (anyDecrease_finiteKnots hk).1 v3
  have hmk := knots_mono h hk
  have hkn : b.knots = knots := by rw [hbeq]
  obtain ⟨oD, eD⟩ := fin_knot hk (show D < K by omega)
  obtain ⟨oC, eC⟩ := fin_knot hk (show C < K by omega)
  have h1 := (hmk D k hDk (by omega)).trans ht1
  have h2 := ht2.trans_le (hmk (k + 1) C (by omega) (by omega))
  have hd := domain_both h hf hb (show D < K by omega) (show C < K by omega)
  have hne := ne_knot hk hr (show C < K by omega) h2.ne
  refine ⟨?_, ?_⟩
  · rw [eD, eC] at hd
    exact float_inside hr hd h1 h2.le
  have e : C - 1 + 1 = C := by omega
  obtain ⟨k', hk', h3, h4, h5, h6⟩ := spanLoop_spec hm r _ D (C - 1) le_rfl (by omega) h1
    (by rwa [e]) (by omega)
  rw [span_pinned hmk (by omega) (by omega) ht1 ht2 h5 h6] at hk'
  rw [BSpline.knotSpanStart, hkind]
  simp only [BSpline.spanClamped]
  rw [usub_le (by omega)]
  simp only [Option.bind_eq_bind, Option.bind_some, e]
  rw [hkn, Arr.get?_lt _ (show C < K by omega)]
  simp only [Option.bind_some, hne, Bool.false_eq_true, if_false]
  rw [spanLoop_finite hk hr _ _ _ le_rfl]
  exact hk'

/-- The span found by a spline clamped at one end or both. -/
theorem span_near (h : BSpline.new knots ps = .ok b) (hk : FiniteKnots knots)
    (hn : NearFront D knots ∨ NearBack D knots) {r : ℝ} (hr : r ∈ F.grid ∧ |r| ≤ F.max)
    {k : ℕ} (hDk : D ≤ k) (hkC : k < C) (ht1 : knotAt (fun i => (knots i).toReal) k ≤ r)
    (ht2 : r < knotAt (fun i => (knots i).toReal) (k + 1)) (hCK : C < K) :
    b.eval (fin r hr) = b.deBoorIterative (fin r hr) ∧
      b.knotSpanStart (fin r hr) = some (some k) ∧
      Scalar.eq (fin r hr) (b.knots ⟨C, hCK⟩) = false := by
  obtain ⟨v1, v2, v3, hbeq⟩ := (new_generic _ _ _).1 h
  have hkn : b.knots = knots := by rw [hbeq]
  have hne : (Scalar.eq (fin r hr) (b.knots ⟨C, hCK⟩) : Bool) = false := by
    rw [hkn]
    exact ne_knot hk hr hCK (ht2.trans_le (knots_mono h hk _ _ (by omega) (by omega))).ne
  by_cases hf : NearFront D knots <;> by_cases hb : NearBack D knots
  · obtain ⟨e1, e2⟩ := span_both h hk hf hb hr hDk hkC ht1 ht2
    exact ⟨e1, e2, hne⟩
  · obtain ⟨e1, e2⟩ := span_front h hk hf hb hr hDk (by omega) ht1 ht2
    exact ⟨e1, e2, hne⟩
  · obtain ⟨e1, e2⟩ := span_back h hk hf hb hr hkC ht1 ht2
    exact ⟨e1, e2, hne⟩
  · exact absurd hn (by tauto)

end

/-- **C83** for splines clamped, up to the machine epsilon, at one end at least: the bound of
`C83_bspline_error`. -/
theorem C83_one_end {knots : Arr (Fl F) K} {ps : Arr (PointN (Fl F) n) C}
    {b : BSpline (Fl F) (PointN (Fl F) n) K C D}
    (h : BSpline.new knots ps = .ok b) (hk : FiniteKnots knots)
    (hn : NearFront D knots ∨ NearBack D knots)
    (hspan : ∀ i j : Fin K, (knots j).toReal - (knots i).toReal ≤ F.max)
    (hu : F.u ≤ 1 / 1024) (he : F.eta ≤ F.epsilon * F.u)
    {t M : ℝ} (ht : t ∈ F.grid ∧ |t| ≤ F.max) {k : ℕ} (hDk : D ≤ k) (hkC : k < C)
    (ht1 : knotAt (fun i => (knots i).toReal) k ≤ t)
    (ht2 : t < knotAt (fun i => (knots i).toReal) (k + 1))
    (hfin : ∀ i, FinitePoint (ps i)) (hM : ∀ i c, |((ps i).coords c).toReal| ≤ M)
    (hmax : ((1 + F.u) ^ 2 * (1 + F.u + F.eta)) ^ D * (M + D * (3 * (1 + F.u) * F.eta)) ≤ F.max) :
    ∃ q, b.eval (fin t ht) = .ok q ∧ ∀ c : Fin n, (q.coords c).IsFinite ∧
      |(q.coords c).toReal
          - (splineCoord D (fun i => (knots i).toReal) (fun i => realPoint (ps i)) t c
            - coxDeBoor (knotAt fun i => (knots i).toReal) D k t
              * ((ps ⟨k, hkC⟩).coords c).toReal)|
        ≤ ((1 + F.u) ^ 2 * (1 + F.u + F.eta)) ^ D * (M + D * (3 * (1 + F.u) * F.eta)) - M
          + D * ((2 * F.epsilon / (knotAt (fun i => (knots i).toReal) (k + 1)
              - knotAt (fun i => (knots i).toReal) k) + 7 * F.u) * (2 * M)) := by
  obtain ⟨v1, v2, -, -⟩ := (new_generic _ _ _).1 h
  obtain ⟨e1, e2, e3⟩ := span_near h hk hn ht hDk hkC ht1 ht2 (by omega)
  exact bspline_error_of_span h hk hspan hu he ht hDk hkC ht1 ht2 e1 e2 e3 hfin hM hmax

/-- **C115** in floating point for splines clamped, up to the machine epsilon, at one end at least:
for `t` between the knots `k` and `k + 1`, evaluation uses the control points `k - D, ..., k - 1`
only. -/
theorem C115_one_end {P : Type} [Point (Fl F) P] {knots : Arr (Fl F) K} {ps ps' : Arr P C}
    {b b' : BSpline (Fl F) P K C D} (h : BSpline.new knots ps = .ok b)
    (h' : BSpline.new knots ps' = .ok b') (hk : FiniteKnots knots)
    (hn : NearFront D knots ∨ NearBack D knots) {t : Fl F} (ht : t.IsFinite) {k : ℕ} (hDk : D ≤ k)
    (hkC : k < C) (ht1 : knotAt (fun i => (knots i).toReal) k ≤ t.toReal)
    (ht2 : t.toReal < knotAt (fun i => (knots i).toReal) (k + 1))
    (hps : ∀ i : Fin C, k - D ≤ i.val → i.val < k → ps i = ps' i) : b.eval t = b'.eval t := by
  obtain ⟨v1, v2, -, -⟩ := (new_generic _ _ _).1 h
  obtain ⟨x, hx, rfl⟩ := isFinite_iff.1 ht
  rw [toReal_fin] at ht1 ht2
  obtain ⟨e1, e2, e3⟩ := span_near h hk hn hx hDk hkC ht1 ht2 (by omega)
  obtain ⟨e1', e2', e3'⟩ := span_near h' hk hn hx hDk hkC ht1 ht2 (by omega)
  exact eval_eq_of_span h h' hps e1 e2 e3 e1' e2' e3'

/-- **C115** in floating point, unclamped splines: evaluation never uses the first `K/2 - D` control
points (about half of the control points for low degrees).  They may be anything, NaN included:
`eval` returns the same for every `t`. -/
theorem C115_unclamped {P : Type} [Point (Fl F) P] {knots : Arr (Fl F) K} {ps ps' : Arr P C}
    {b b' : BSpline (Fl F) P K C D} (h : BSpline.new knots ps = .ok b)
    (h' : BSpline.new knots ps' = .ok b') (hk : FiniteKnots knots)
    (hf : ¬ NearFront D knots) (hb : ¬ NearBack D knots)
    (hps : ∀ i : Fin C, K / 2 - D ≤ i.val → ps i = ps' i) (t : Fl F) : b.eval t = b'.eval t := by
  obtain ⟨v1, v2, v3, hbeq⟩ := (new_generic _ _ _).1 h
  have hD : 1 ≤ D := by
    by_contra h0
    exact hb (near_zero hk (by omega)).2
  have hkn : b.knots = knots := by rw [hbeq]
  have hkn' : b'.knots = knots := by rw [((new_generic _ _ _).1 h').2.2.2]
  have hd := domain_none h hf hb (show D < K by omega) (show C < K by omega)
  have hd' := domain_none h' hf hb (show D < K by omega) (show C < K by omega)
  obtain ⟨oD, eD⟩ := fin_knot hk (show D < K by omega)
  obtain ⟨oC, eC⟩ := fin_knot hk (show C < K by omega)
  obtain ⟨lo, hi, hdom, -, hout⟩ := C46_float h hk
  obtain ⟨lo', hi', hdom', -, hout'⟩ := C46_float h' hk
  rw [hd, Option.some.injEq, Prod.mk.injEq] at hdom
  rw [hd', Option.some.injEq, Prod.mk.injEq] at hdom'
  by_cases hin : (Scalar.le lo t && Scalar.le t hi) = true
  swap
  · rw [hout t (by simpa using hin), hout' t]
    rw [← hdom'.1, ← hdom'.2, hdom.1, hdom.2]
    simpa using hin
  rw [Bool.and_eq_true, ← hdom.1, ← hdom.2, eD, eC] at hin
  obtain ⟨r, hr, rfl⟩ : ∃ r hr, t = fin r hr := by
    cases t with
    | nan => exact absurd hin.1 Bool.false_ne_true
    | inf s =>
      cases s
      · exact absurd hin.2 Bool.false_ne_true
      · exact absurd hin.1 Bool.false_ne_true
    | fin r hr => exact ⟨r, hr, rfl⟩
  rw [le_fin, le_fin] at hin
  by_cases hC : r = knotAt (fun i => (knots i).toReal) C
  · have et : fin r hr = knots ⟨C, by omega⟩ := by rw [eC]; exact fin_congr hC
    rw [et, C49_float_end h hk (by omega) (by omega), C49_float_end h' hk (by omega) (by omega)]
    exact congrArg _ (hps _ (by simp only; omega))
  have hne := ne_knot hk hr (show C < K by omega) hC
  have hlt := lt_of_le_of_ne hin.2 hC
  obtain ⟨k, es, hp, hDk, hkt, hfst⟩ := span_none h hk hf hb hr hlt
  obtain ⟨k', es', hp', hDk', hkt', hfst'⟩ := span_none h' hk hf hb hr hlt
  obtain rfl : k = k' := by
    rcases lt_trichotomy k k' with hh | hh | hh
    · exact absurd (hfst' k hp hh) (not_le.2 hkt)
    · exact hh
    · exact absurd (hfst k' hp' hh) (not_le.2 hkt')
  have hge : K / 2 ≤ k := by
    clear es es' hkt hkt' hfst hfst' hp' hDk hDk'
    induction hp with
    | first => exact le_rfl
    | next _ _ => omega
  rw [eD, eC] at hd hd'
  exact eval_eq_of_span h h' (fun i h1 _ => hps i (by omega)) (float_inside hr hd hin.1 hin.2) es
    (hCK := by omega) (by rw [hkn]; exact hne) (float_inside hr hd' hin.1 hin.2) es'
    (by rw [hkn']; exact hne)

/-- **C111** for splines of every kind (whether or not they are clamped): `eval` keeps the order of
the control points, except possibly at the last knot of a spline that is clamped, up to the machine
epsilon, at the front only (see `C111_last_knot_false`). -/
theorem C111_every_spline {knots : Arr (Fl F) K} {ps ps' : Arr (PointN (Fl F) n) C}
    {b b' : BSpline (Fl F) (PointN (Fl F) n) K C D}
    (h : BSpline.new knots ps = .ok b) (h' : BSpline.new knots ps' = .ok b')
    (hk : FiniteKnots knots) (hspan : ∀ i j : Fin K, (knots j).toReal - (knots i).toReal ≤ F.max)
    (hd : ∀ k, Dominated (ps k) (ps' k)) {t : Fl F}
    (hn : NearFront D knots → ¬ NearBack D knots →
      ∀ j : Fin K, j.val + 1 = K → Scalar.eq t (knots j) = false)
    {p p' : PointN (Fl F) n}
    (e : b.eval t = .ok p) (e' : b'.eval t = .ok p') : Dominated p p' := by
  have hmk := knots_mono h hk
  obtain ⟨v1, v2, v3, hbeq⟩ := (new_generic _ _ _).1 h
  have hm := (anyDecrease_finiteKnots hk).1 v3
  have hkn : b.knots = knots := by rw [hbeq]
  obtain ⟨lo, hi, hdom, -, hout⟩ := C46_float h hk
  by_cases hin : (Scalar.le lo t && Scalar.le t hi) = true
  swap
  · rw [hout t (by simpa using hin)] at e
    cases e
  rw [Bool.and_eq_true] at hin
  -- the ends of the domain are knots, so they are finite
  obtain ⟨i, j, hi0, hj0, elo, ehi⟩ : ∃ i j : ℕ, ∃ (hi0 : i < K) (hj0 : j < K),
      lo = knots ⟨i, hi0⟩ ∧ hi = knots ⟨j, hj0⟩ := by
    by_cases hf : NearFront D knots <;> by_cases hb : NearBack D knots
    · have := domain_both h hf hb (show D < K by omega) (show C < K by omega)
      rw [hdom, Option.some.injEq, Prod.mk.injEq] at this
      exact ⟨_, _, _, _, this.1, this.2⟩
    · have := domain_front h hf hb (show D < K by omega) (show K - 1 < K by omega)
      rw [hdom, Option.some.injEq, Prod.mk.injEq] at this
      exact ⟨_, _, _, _, this.1, this.2⟩
    · have := domain_back h hf hb (show 0 < K by omega) (show C < K by omega)
      rw [hdom, Option.some.injEq, Prod.mk.injEq] at this
      exact ⟨_, _, _, _, this.1, this.2⟩
    · have := domain_none h hf hb (show D < K by omega) (show C < K by omega)
      rw [hdom, Option.some.injEq, Prod.mk.injEq] at this
      exact ⟨_, _, _, _, this.1, this.2⟩
  obtain ⟨r, hr, rfl⟩ : ∃ r hr, t = fin r hr := by
    obtain ⟨x, ex⟩ := fin_knot hk hi0
    obtain ⟨y, ey⟩ := fin_knot hk hj0
    rw [elo, ehi, ex, ey] at hin
    cases t with
    | nan => exact absurd hin.1 Bool.false_ne_true
    | inf s =>
      cases s
      · exact absurd hin.2 Bool.false_ne_true
      · exact absurd hin.1 Bool.false_ne_true
    | fin r hr => exact ⟨r, hr, rfl⟩
  obtain ⟨oC, eC⟩ := fin_knot hk (show C < K by omega)
  by_cases hC : r = knotAt (fun i => (knots i).toReal) C
  · have et : fin r hr = knots ⟨C, by omega⟩ := by rw [eC]; exact fin_congr hC
    rw [et, C49_float_end h hk (by omega) (by omega), Outcome.ok.injEq] at e
    rw [et, C49_float_end h' hk (by omega) (by omega), Outcome.ok.injEq] at e'
    rw [← e, ← e']
    exact hd _
  have hkn' : b'.knots = knots := by rw [((new_generic _ _ _).1 h').2.2.2]
  have hne := ne_knot hk hr (show C < K by omega) hC
  -- it remains to find the span
  suffices hs : ∃ k, D ≤ k ∧ k ≤ C ∧ knotAt (fun i => (knots i).toReal) 0 ≤ r ∧
      r < knotAt (fun i => (knots i).toReal) (k + 1) ∧
      (b.eval (fin r hr) = b.deBoorIterative (fin r hr) ∧
        b.knotSpanStart (fin r hr) = some (some k)) ∧
      (b'.eval (fin r hr) = b'.deBoorIterative (fin r hr) ∧
        b'.knotSpanStart (fin r hr) = some (some k)) by
    obtain ⟨k, hDk, hkC, ht1, ht2, ⟨e1, e2⟩, e1', e2'⟩ := hs
    exact dominated_of_span h h' hk hspan hd hr e e' hDk hkC ht1 ht2 e1 e2
      (hCK := by omega) (by rw [hkn]; exact hne) e1' e2' (by rw [hkn']; exact hne)
  by_cases hf : NearFront D knots <;> by_cases hb : NearBack D knots
  · have := domain_both h hf hb (show D < K by omega) (show C < K by omega)
    rw [hdom, Option.some.injEq, Prod.mk.injEq] at this
    obtain ⟨oD, eD⟩ := fin_knot hk (show D < K by omega)
    rw [this.1, this.2, eD, eC, le_fin, le_fin] at hin
    have e : C - 1 + 1 = C := by omega
    obtain ⟨k, -, h3, h4, h5, h6⟩ := spanLoop_spec hm r _ D (C - 1) le_rfl (by omega) hin.1
      (by rw [e]; exact lt_of_le_of_ne hin.2 hC) (by omega)
    exact ⟨k, h3, by omega, (hmk 0 k (by omega) (by omega)).trans h5, h6, span_both h hk hf hb hr h3 (by omega) h5 h6,
      span_both h' hk hf hb hr h3 (by omega) h5 h6⟩
  · have := domain_front h hf hb (show D < K by omega) (show K - 1 < K by omega)
    rw [hdom, Option.some.injEq, Prod.mk.injEq] at this
    obtain ⟨oD, eD⟩ := fin_knot hk (show D < K by omega)
    obtain ⟨oL, eL⟩ := fin_knot hk (show K - 1 < K by omega)
    rw [this.1, this.2, eD, eL, le_fin, le_fin] at hin
    have hl : r ≠ knotAt (fun i => (knots i).toReal) (K - 1) := by
      intro hl
      have h0 := hn hf hb ⟨K - 1, by omega⟩ (by simp only; omega)
      rw [eL, ← Bool.not_eq_true, eq_fin] at h0
      exact h0 hl
    have e0 : K - 1 - 1 + 1 = K - 1 := by omega
    obtain ⟨k, -, h3, h4, h5, h6⟩ := spanLoop_spec hm r _ D (K - 1 - 1) le_rfl (by omega) hin.1
      (by rw [e0]; exact lt_of_le_of_ne hin.2 hl) (by omega)
    have s1 := span_front h hk hf hb hr h3 (by omega) h5 h6
    refine ⟨k, h3, ?_, (hmk 0 k (by omega) (by omega)).trans h5, h6, s1, span_front h' hk hf hb hr h3 (by omega) h5 h6⟩
    -- beyond the span `C` evaluation panics
    by_contra hkC
    have hD : 1 ≤ D := by
      by_contra h0
      exact hb (near_zero hk (by omega)).2
    have := (float_outcome h hk hspan hD s1.1 (fun _ => hne) s1.2).2 (by omega)
    rw [this] at e
    cases e
  · have := domain_back h hf hb (show 0 < K by omega) (show C < K by omega)
    rw [hdom, Option.some.injEq, Prod.mk.injEq] at this
    obtain ⟨o0, e0⟩ := fin_knot hk (show 0 < K by omega)
    rw [this.1, this.2, e0, eC, le_fin, le_fin] at hin
    have ec : C - 1 + 1 = C := by omega
    obtain ⟨k, -, h3, h4, h5, h6⟩ := spanLoop_spec hm r _ 0 (C - 1) le_rfl (by omega) hin.1
      (by rw [ec]; exact lt_of_le_of_ne hin.2 hC) (by omega)
    have s1 := span_back h hk hf hb hr (show k < C by omega) h5 h6
    refine ⟨k, ?_, by omega, (hmk 0 k (by omega) (by omega)).trans h5, h6, s1, span_back h' hk hf hb hr (by omega) h5 h6⟩
    -- before the span `D` evaluation panics
    by_contra hkD
    have hD : 1 ≤ D := by omega
    have := (float_outcome h hk hspan hD s1.1 (fun _ => hne) s1.2).2 (by omega)
    rw [this] at e
    cases e
  · have := domain_none h hf hb (show D < K by omega) (show C < K by omega)
    rw [hdom, Option.some.injEq, Prod.mk.injEq] at this
    obtain ⟨oD, eD⟩ := fin_knot hk (show D < K by omega)
    rw [this.1, this.2, eD, eC, le_fin, le_fin] at hin
    have hlt := lt_of_le_of_ne hin.2 hC
    obtain ⟨k, es, hp, hDk, hkt, hfst⟩ := span_none h hk hf hb hr hlt
    obtain ⟨k', es', hp', hDk', hkt', hfst'⟩ := span_none h' hk hf hb hr hlt
    obtain rfl : k = k' := by
      rcases lt_trichotomy k k' with hh | hh | hh
      · exact absurd (hfst' k hp hh) (not_le.2 hkt)
      · exact hh
      · exact absurd (hfst k' hp' hh) (not_le.2 hkt')
    have hin' : ∀ {ps : Arr (PointN (Fl F) n) C} {b : BSpline (Fl F) (PointN (Fl F) n) K C D},
        BSpline.new knots ps = .ok b → b.eval (fin r hr) = b.deBoorIterative (fin r hr) := by
      intro ps b h
      have hd := domain_none h hf hb (show D < K by omega) (show C < K by omega)
      rw [eD, eC] at hd
      exact float_inside hr hd hin.1 hin.2
    refine ⟨k, hDk, ?_, (hmk 0 D (by omega) (by omega)).trans hin.1, hkt, ⟨hin' h, es⟩, hin' h', es'⟩
    -- beyond the span `C` evaluation panics
    by_contra hkC
    have hD : 1 ≤ D := by
      by_contra h0
      exact hb (near_zero hk (by omega)).2
    have := (float_outcome h hk hspan hD (hin' h) (fun _ => hne) es).2 (by omega)
    rw [this] at e
    cases e

/-! ### The last knot of a spline clamped at the front only -/

/-- Degree 1, knots 0 0 1 2, both control points equal to `v`: at the last knot, where the constant
curve has the value 0 or `v`, evaluation returns `-v`. -/
theorem last_knot_negated (v : ℕ) (hv : v ≤ 1024) :
    FiniteKnots (natKnots (F := F) ![0, 0, 1, 2]) ∧
    NearFront 1 (natKnots (F := F) ![0, 0, 1, 2]) ∧
    (∀ i j : Fin 4, (natKnots (F := F) ![0, 0, 1, 2] j).toReal
      - (natKnots (F := F) ![0, 0, 1, 2] i).toReal ≤ F.max) ∧
    ∃ (b : BSpline (Fl F) (PointN (Fl F) n) 4 2 1),
      BSpline.new (natKnots ![0, 0, 1, 2]) (fun _ => ⟨fun _ => lit (v : ℚ)⟩) = .ok b ∧
      ∃ q, b.eval (lit 2) = .ok q ∧ ∀ i, (q.coords i).IsFinite ∧ (q.coords i).toReal = -v := by
  set knots := natKnots (F := F) ![0, 0, 1, 2] with hkn0
  have mx := F.max_ge
  have ep := F.epsilon_pos
  have ep1 := F.epsilon_le
  have oz : ∀ z : ℤ, |z| ≤ 1024 → ((z : ℝ) ∈ F.grid ∧ |(z : ℝ)| ≤ F.max) := fun z hz => F.int_ok z hz
  have o0 : (0 : ℝ) ∈ F.grid ∧ |(0 : ℝ)| ≤ F.max := by simpa using oz 0 (by norm_num)
  have o1 : (1 : ℝ) ∈ F.grid ∧ |(1 : ℝ)| ≤ F.max := by simpa using oz 1 (by norm_num)
  have o2 : (2 : ℝ) ∈ F.grid ∧ |(2 : ℝ)| ≤ F.max := by simpa using oz 2 (by norm_num)
  have om : (-1 : ℝ) ∈ F.grid ∧ |(-1 : ℝ)| ≤ F.max := by simpa using oz (-1) (by norm_num)
  have ov : (v : ℝ) ∈ F.grid ∧ |(v : ℝ)| ≤ F.max := by
    simpa using oz v (by rw [abs_of_nonneg (by positivity)]; exact_mod_cast hv)
  have omv : (-v : ℝ) ∈ F.grid ∧ |(-v : ℝ)| ≤ F.max := by
    simpa using oz (-v) (by rw [abs_neg, abs_of_nonneg (by positivity)]; exact_mod_cast hv)
  have lv : (lit (v : ℚ) : Fl F) = fin v ov := by
    show F.round ((v : ℚ) : ℝ) = _
    rw [Rat.cast_natCast, F.round_of_mem ov]
  have l2 : (lit 2 : Fl F) = fin 2 o2 := by
    show F.round ((2 : ℚ) : ℝ) = _
    rw [show ((2 : ℚ) : ℝ) = 2 by norm_num, F.round_of_mem o2]
  have l1 : (lit 1 : Fl F) = fin 1 o1 := lit_one
  have l0 : (lit 0 : Fl F) = fin 0 o0 := lit_zero
  have k0 : knots 0 = fin 0 o0 := by
    show (lit ((0 : ℕ) : ℚ) : Fl F) = _
    rw [Nat.cast_zero]; exact l0
  have k1 : knots 1 = fin 0 o0 := by
    show (lit ((0 : ℕ) : ℚ) : Fl F) = _
    rw [Nat.cast_zero]; exact l0
  have k2 : knots 2 = fin 1 o1 := by
    show (lit ((1 : ℕ) : ℚ) : Fl F) = _
    rw [Nat.cast_one]; exact l1
  have k3 : knots 3 = fin 2 o2 := by
    show (lit ((2 : ℕ) : ℚ) : Fl F) = _
    rw [show ((2 : ℕ) : ℚ) = 2 by norm_num]; exact l2
  obtain ⟨hf, hr, b, hb⟩ := natKnots_ok (F := F) (D := 1) ![0, 0, 1, 2] (by decide)
    (by intro i j; revert i j; decide) (by norm_num) (by norm_num)
    (fun _ : Fin 2 => (⟨fun _ => lit (v : ℚ)⟩ : PointN (Fl F) n))
  have nf : NearFront 1 knots := by
    intro i j hi hj
    obtain rfl : j = 0 := Fin.ext hj
    have : knots i = fin 0 o0 := by
      match i, hi with
      | 0, _ => exact k0
      | 1, _ => exact k1
    rw [this, k0, fin_sub, sub_self, F.round_of_mem o0, epsilon_eq]
    show Scalar.lt (fin |0| _) _ = true
    rw [lt_fin, abs_zero]
    exact ep
  have nb : ¬ NearBack 1 knots := by
    intro hn
    have := hn 2 3 (by simp) (by simp)
    rw [k2, k3, fin_sub, show (1 - 2 : ℝ) = -1 by norm_num, F.round_of_mem om, epsilon_eq] at this
    have h' : Scalar.lt (fin |(-1 : ℝ)| (by simpa using o1)) (fin F.epsilon F.epsilon_ok) = true :=
      this
    rw [lt_fin, abs_neg, abs_one] at h'
    linarith
  refine ⟨hf, nf, ?_, b, hb, ?_⟩
  · intro i j
    rw [hr, hr]
    have a1 : ((![0, 0, 1, 2] : Fin 4 → ℕ) j : ℝ) ≤ 2 := by
      exact_mod_cast (show ∀ j, (![0, 0, 1, 2] : Fin 4 → ℕ) j ≤ 2 by decide) j
    have a2 : (0 : ℝ) ≤ ((![0, 0, 1, 2] : Fin 4 → ℕ) i : ℝ) := Nat.cast_nonneg _
    linarith
  have hkind := (float_kind hb).2.1 nf nb
  obtain ⟨v1, v2, v3, hbeq⟩ := (new_generic _ _ _).1 hb
  have hkn : b.knots = knots := by rw [hbeq]
  have hps : b.control_points = fun _ => ⟨fun _ => lit (v : ℚ)⟩ := by rw [hbeq]
  have hd := domain_front hb nf nb (show 1 < 4 by omega) (show 4 - 1 < 4 by omega)
  have e1 : b.eval (fin 2 o2) = b.deBoorIterative (fin 2 o2) := by
    refine float_inside (lo := 0) (hi := 2) (hlo := o0) (hhi := o2) o2 ?_ (by norm_num) le_rfl
    rw [hd]
    exact congrArg some (Prod.ext k1 k3)
  have e2 : b.knotSpanStart (fin 2 o2) = some (some 1) := by
    rw [BSpline.knotSpanStart, hkind]
    simp only [BSpline.spanClampedStart]
    rw [usub_le (by omega), usub_le (by omega)]
    simp only [Option.bind_eq_bind, Option.bind_some]
    rw [hkn, Arr.get?_lt _ (show 4 - 1 < 4 by omega), Arr.get?_lt _ (show 1 < 4 by omega),
      usub_le (show 1 ≤ 4 - 1 by omega)]
    simp only [Option.bind_some]
    have hL : knots ⟨4 - 1, by omega⟩ = fin 2 o2 := k3
    have hD : knots ⟨1, by omega⟩ = fin 0 o0 := k1
    rw [hL, hD]
    have hin : (Scalar.lt (fin 2 o2) (fin 0 o0) || Scalar.lt (fin 2 o2) (fin 2 o2)) = false := by
      rw [Bool.or_eq_false_iff, ← Bool.not_eq_true, ← Bool.not_eq_true, lt_fin, lt_fin]
      norm_num
    rw [hin, if_pos (by rw [eq_fin])]
    rfl
  have e3 : Scalar.eq (fin 2 o2) (b.knots ⟨2, by omega⟩) = false := by
    have h2 : b.knots ⟨2, by omega⟩ = fin 1 o1 := by rw [hkn]; exact k2
    rw [h2, ← Bool.not_eq_true, eq_fin]
    norm_num
  have ha : ∀ r j, 1 ≤ r → r ≤ j → j ≤ 1 →
      BSpline.alpha (D := 1) b.knots (fin 2 o2) 1 r j = .ok ((fun _ _ => fin 2 o2) r j) := by
    intro r j h1 h2 h3
    obtain rfl : r = 1 := by omega
    obtain rfl : j = 1 := by omega
    unfold BSpline.alpha
    rw [usub_le (by omega), usub_le (by omega)]
    simp only [Option.bind_eq_bind, Option.bind_some]
    rw [hkn, Arr.get?_lt _ (show 1 + 1 - 1 < 4 by omega), Arr.get?_lt _ (show 1 + 1 + 1 - 1 < 4 by omega)]
    have hL : knots ⟨1 + 1 - 1, by omega⟩ = fin 0 o0 := k1
    have hR : knots ⟨1 + 1 + 1 - 1, by omega⟩ = fin 1 o1 := k2
    rw [hL, hR]
    simp only [Outcome.ofOption_some, Outcome.ok_bind]
    rw [fin_sub, fin_sub, sub_zero, sub_zero, F.round_of_mem o2, F.round_of_mem o1, epsilon_eq]
    have hab : (Scalar.abs (fin 1 o1) : Fl F) = fin |(1 : ℝ)| (by simpa using o1) := rfl
    have c1 : Scalar.lt (fin 2 o2) (fin F.epsilon F.epsilon_ok) = false := by
      rw [← Bool.not_eq_true, lt_fin]; linarith
    have c2 : Scalar.lt (Scalar.abs (fin 1 o1)) (fin F.epsilon F.epsilon_ok) = false := by
      rw [hab, ← Bool.not_eq_true, lt_fin, abs_one]; linarith
    rw [c1, c2, fin_div (by norm_num), div_one, F.round_of_mem o2]
    rfl
  have hg := deBoorIterative_gen b v2 (fin 2 o2) 1 e3 e2 le_rfl (by omega)
    (a := fun _ _ => fin 2 o2) ha
  rw [l2]
  refine ⟨_, e1.trans hg, fun i => ?_⟩
  have hval : (dbg (fun _ _ => fin 2 o2)
      (fun j => if j < 1 then extend b.control_points (j + 1 - 1) else Point.default) 1 1).coords i
      = fin (-v) omv := by
    rw [dbg, if_pos le_rfl, dbg, dbg]
    simp only [Nat.sub_self, zero_lt_one, if_true, lt_irrefl, if_false]
    rw [extend_lt _ (show 0 + 1 - 1 < 2 by omega), hps]
    show (lit (v : ℚ) : Fl F) * (lit 1 - fin 2 o2) + (lit 0 : Fl F) * fin 2 o2 = _
    rw [lv, l1, l0, fin_sub, show (1 - 2 : ℝ) = -1 by norm_num, F.round_of_mem om, fin_mul, fin_mul,
      zero_mul, F.round_of_mem o0, show (v : ℝ) * -1 = -v by ring, F.round_of_mem omv, fin_add,
      add_zero, F.round_of_mem omv]
  rw [hval, toReal_fin]
  exact ⟨trivial, rfl⟩

/-- **C111** is false at the last knot of splines clamped at the front only: of two degree-1 splines
with the knots 0 0 1 2, one with all control coordinates equal to 1 and one with 2, the first has
the larger coordinates there (-1 and -2). -/
theorem C111_last_knot_false :
    ∃ (knots : Arr (Fl F) 4) (ps ps' : Arr (PointN (Fl F) 2) 2)
      (b b' : BSpline (Fl F) (PointN (Fl F) 2) 4 2 1) (t : Fl F) (p p' : PointN (Fl F) 2),
      BSpline.new knots ps = .ok b ∧ BSpline.new knots ps' = .ok b' ∧ FiniteKnots knots ∧
      NearFront 1 knots ∧ (∀ i j : Fin 4, (knots j).toReal - (knots i).toReal ≤ F.max) ∧
      (∀ k, Dominated (ps k) (ps' k)) ∧ b.eval t = .ok p ∧ b'.eval t = .ok p' ∧
      ¬ Dominated p p' := by
  obtain ⟨hf, nf, hs, b, hb, q, hq, hv⟩ := last_knot_negated (F := F) (n := 2) 1 (by norm_num)
  obtain ⟨-, -, -, b', hb', q', hq', hv'⟩ := last_knot_negated (F := F) (n := 2) 2 (by norm_num)
  refine ⟨_, _, _, b, b', lit 2, q, q', hb, hb', hf, nf, hs, fun k => ?_, hq, hq', fun hd => ?_⟩
  · obtain ⟨o1, e1, -⟩ := lit_nat (F := F) (k := 1) (by norm_num)
    obtain ⟨o2, e2, -⟩ := lit_nat (F := F) (k := 2) (by norm_num)
    rw [C111_dominated_finite]
    · intro i
      show (lit ((1 : ℕ) : ℚ) : Fl F).toReal ≤ (lit ((2 : ℕ) : ℚ) : Fl F).toReal
      rw [e1, e2, toReal_fin, toReal_fin]
      norm_num
    · intro i
      show (lit ((1 : ℕ) : ℚ) : Fl F).IsFinite
      rw [e1]; trivial
    · intro i
      show (lit ((2 : ℕ) : ℚ) : Fl F).IsFinite
      rw [e2]; trivial
  · have := (C111_dominated_finite (fun i => (hv i).1) (fun i => (hv' i).1)).1 hd 0
    rw [(hv 0).2, (hv' 0).2] at this
    norm_num at this

/-- The hypotheses of the theorems above are met by splines clamped at one end only: degree 2, knots
0 0 0 1 2 3 4 and 0 1 2 3 4 4 4. -/
example : ∃ (k₁ k₂ : Arr (Fl F) 7),
    (FiniteKnots k₁ ∧ FiniteKnots k₂) ∧
    (NearFront 2 k₁ ∧ ¬ NearBack 2 k₁) ∧ (¬ NearFront 2 k₂ ∧ NearBack 2 k₂) ∧
    ∀ k ∈ [k₁, k₂], (∃ b : BSpline (Fl F) (PointN (Fl F) 2) 7 4 2,
        BSpline.new k (fun _ => PointN.new fun _ => lit 3) = .ok b) ∧
      ∀ i j : Fin 7, (k j).toReal - (k i).toReal ≤ F.max := by
  obtain ⟨k₁, k₂, k₃, k₄, ⟨-, f2, f3, -⟩, -, h2, h3, -, h⟩ := float_kinds_witness (F := F)
  refine ⟨k₂, k₃, ⟨f2, f3⟩, h2, h3, fun k hk => h k ?_⟩
  simp only [List.mem_cons, List.not_mem_nil, or_false] at hk ⊢
  tauto

/-- And by unclamped splines; there the first control point (`K/2 - D = 1` of them) has no influence
anywhere, even if it is NaN. -/
example : ∃ (k : Arr (Fl F) 7) (b b' : BSpline (Fl F) (PointN (Fl F) 2) 7 4 2),
    FiniteKnots k ∧ ¬ NearFront 2 k ∧ ¬ NearBack 2 k ∧
    BSpline.new k ![⟨fun _ => nan⟩, ⟨fun _ => lit 3⟩, ⟨fun _ => lit 3⟩, ⟨fun _ => lit 3⟩] = .ok b ∧
    BSpline.new k (fun _ => PointN.new fun _ => lit 3) = .ok b' ∧ ∀ t, b.eval t = b'.eval t := by
  obtain ⟨k₁, k₂, k₃, k, ⟨-, -, -, hk⟩, -, -, -, ⟨hf, hb⟩, h⟩ := float_kinds_witness (F := F)
  obtain ⟨⟨b', h'⟩, -⟩ := h k (by simp)
  obtain ⟨b, h⟩ := (C115_outcome (D := 2) k
    (fun _ : Fin 4 => PointN.new fun _ => (lit 3 : Fl F))
    (![⟨fun _ => nan⟩, ⟨fun _ => lit 3⟩, ⟨fun _ => lit 3⟩, ⟨fun _ => lit 3⟩] :
      Arr (PointN (Fl F) 2) 4)).1.1.1 ⟨b', h'⟩
  refine ⟨k, b, b', hk, hf, hb, h, h', C115_unclamped h h' hk hf hb fun i hi => ?_⟩
  match i, hi with
  | 1, _ => rfl
  | 2, _ => rfl
  | 3, _ => rfl

end Stroke
