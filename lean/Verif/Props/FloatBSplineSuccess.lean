import Verif.Props.FloatBSplineEval
import Verif.Props.BSplineSuccess

/-!
# Where B-spline evaluation succeeds in floating point

The exact-arithmetic characterisation of `BSplineSuccess.lean` (C47) carries over to floating
point: the span searches only compare, and comparisons of finite floats are those of their values.
Being clamped, on the other hand, is decided by rounded differences, so it is stated with the
float operations here.
-/

namespace Stroke

open Fl

variable {F : FloatFormat} {P : Type} [Point (Fl F) P] {K C D : ℕ}

/-- The first `D + 1` knots are within the machine epsilon of the first one, as computed. -/
def NearFront (D : ℕ) (knots : Arr (Fl F) K) : Prop :=
  ∀ i j : Fin K, i.val ≤ D → j.val = 0 →
    Scalar.lt (Scalar.abs (knots i - knots j)) (Scalar.epsilon : Fl F) = true

/-- The last `D + 1` knots are within the machine epsilon of the last one, as computed. -/
def NearBack (D : ℕ) (knots : Arr (Fl F) K) : Prop :=
  ∀ i j : Fin K, K ≤ i.val + D + 1 → j.val + 1 = K →
    Scalar.lt (Scalar.abs (knots i - knots j)) (Scalar.epsilon : Fl F) = true

theorem frontB_iff {knots : Arr (Fl F) K} (h0 : 0 < K) :
    frontB D knots (knots ⟨0, h0⟩) = true ↔ NearFront D knots := by
  unfold frontB
  rw [List.all_eq_true]
  constructor
  · intro h i j hi hj
    obtain rfl : j = ⟨0, h0⟩ := Fin.ext hj
    refine h _ ?_
    rw [List.mem_take_iff_getElem]
    exact ⟨i, by simp only [Arr.toList, List.length_ofFn]; omega, by simp [Arr.toList]⟩
  · intro h x hx
    rw [List.mem_take_iff_getElem] at hx
    obtain ⟨i, hi, rfl⟩ := hx
    simp only [Arr.toList, List.getElem_ofFn, List.length_ofFn] at hi ⊢
    exact h ⟨i, by omega⟩ ⟨0, h0⟩ (by simp only; omega) rfl

theorem backB_iff {knots : Arr (Fl F) K} (hDK : D + 1 ≤ K) (h0 : K - 1 < K) :
    backB D knots (knots ⟨K - 1, h0⟩) = true ↔ NearBack D knots := by
  unfold backB
  rw [List.all_eq_true]
  constructor
  · intro h i j hi hj
    obtain rfl : j = ⟨K - 1, h0⟩ := Fin.ext (by simp only; omega)
    refine h _ ?_
    rw [List.mem_drop_iff_getElem]
    refine ⟨i - (K - D - 1), by simp only [Arr.toList, List.length_ofFn]; omega, ?_⟩
    simp only [Arr.toList, List.getElem_ofFn]
    congr 1
    exact Fin.ext (by simp only; omega)
  · intro h x hx
    rw [List.mem_drop_iff_getElem] at hx
    obtain ⟨i, hi, rfl⟩ := hx
    simp only [Arr.toList, List.getElem_ofFn, List.length_ofFn] at hi ⊢
    exact h ⟨K - D - 1 + i, by omega⟩ ⟨K - 1, h0⟩ (by simp only; omega) (by simp only; omega)

/-- On finite knots, the search used for unclamped splines behaves as with real numbers. -/
theorem spanUnclampedLoop_finite {knots : Arr (Fl F) K} (hk : FiniteKnots knots) {r : ℝ}
    (hr : r ∈ F.grid ∧ |r| ≤ F.max) (n : ℕ) : ∀ first count : ℕ, count ≤ n →
    BSpline.spanUnclampedLoop knots (fin r hr) first count
      = BSpline.spanUnclampedLoop (fun i => (knots i).toReal) r first count := by
  induction n with
  | zero =>
    intro first count h
    rw [BSpline.spanUnclampedLoop, BSpline.spanUnclampedLoop, if_neg (by omega), if_neg (by omega)]
  | succ n ih =>
    intro first count h
    rw [BSpline.spanUnclampedLoop, BSpline.spanUnclampedLoop]
    split_ifs with hc
    · simp only []
      by_cases hm : first + count / 2 + 1 < K
      · rw [Arr.get?_lt _ hm, Arr.get?_lt _ hm, Arr.get?_lt _ (show first + count / 2 < K by omega),
          Arr.get?_lt _ (show first + count / 2 < K by omega)]
        simp only [Option.bind_eq_bind, Option.bind_some]
        obtain ⟨x, hx, ex⟩ := isFinite_iff.1 (hk ⟨first + count / 2 + 1, hm⟩)
        obtain ⟨y, hy, ey⟩ := isFinite_iff.1 (hk ⟨first + count / 2, by omega⟩)
        rw [ex, ey]
        simp only [toReal_fin]
        have e1 : (Scalar.lt (fin r hr) (fin x hx) : Bool) = Scalar.lt r x := by
          rw [Bool.eq_iff_iff, lt_fin, lt_real]; simp
        have e2 : (Scalar.eq (fin r hr) (fin x hx) : Bool) = Scalar.eq r x := by
          rw [Bool.eq_iff_iff, eq_fin, eq_real]; simp
        have e3 : (Scalar.le (fin y hy) (fin r hr) : Bool) = Scalar.le y r := by
          rw [Bool.eq_iff_iff, le_fin, le_real]; simp
        rw [e1, e2, e3, ih _ _ (by omega), ih _ _ (by omega)]
        rfl
      · rw [Arr.get?_ge knots (by omega), Arr.get?_ge (fun i => (knots i).toReal) (by omega)]
        rfl
    · rfl

/-- Given the span, evaluation returns a point or panics according to whether the span is
between `D` and `C`. -/
theorem float_outcome {knots : Arr (Fl F) K} {ps : Arr P C} {b : BSpline (Fl F) P K C D}
    (h : BSpline.new knots ps = .ok b) (hk : FiniteKnots knots)
    (hspan : ∀ i j : Fin K, (knots j).toReal - (knots i).toReal ≤ F.max) (hD : 1 ≤ D)
    {t : Fl F} (heval : b.eval t = b.deBoorIterative t)
    (ht : ∀ hC : C < K, (Scalar.eq t (knots ⟨C, hC⟩) : Bool) = false) {k : ℕ}
    (hs : b.knotSpanStart t = some (some k)) :
    ((D ≤ k ∧ k ≤ C) → ∃ q, b.eval t = .ok q) ∧ (¬ (D ≤ k ∧ k ≤ C) → b.eval t = .panic) := by
  obtain ⟨h1, h2, h3, hbeq⟩ := (new_generic _ _ _).1 h
  have hkn : b.knots = knots := by rw [hbeq]
  constructor
  · rintro ⟨hDk, hkC⟩
    have hnp := deBoorIterative_ne_panic b h2 (by omega) t hs hDk hkC
    have hne := fun e he => deBoorIterative_err b t hs (e := e) he
    have hn := C54_partial h hk hspan t
    rw [heval] at hn ⊢
    cases hev : b.deBoorIterative t with
    | ok q => exact ⟨q, rfl⟩
    | err e =>
      exfalso
      by_cases he : e = .EvaluationAlphaIsNaN
      · subst he; exact hn hev
      · exact hne e he hev
    | panic => exact absurd hev hnp
  · intro hout
    rw [heval]
    unfold BSpline.deBoorIterative
    rw [hkn, Arr.get?_lt _ (show C < K by omega), hs]
    simp only [Outcome.ofOption_some, Outcome.ok_bind, ht, Bool.false_eq_true, if_false]
    rw [copyPoints_panic _ hD (by omega)]
    rfl

/-- The kinds of a knot vector, as computed. -/
theorem float_kind {knots : Arr (Fl F) K} {ps : Arr P C} {b : BSpline (Fl F) P K C D}
    (h : BSpline.new knots ps = .ok b) :
    (NearFront D knots → NearBack D knots → b.knot_kind = .Clamped) ∧
    (NearFront D knots → ¬ NearBack D knots → b.knot_kind = .ClampedStart) ∧
    (¬ NearFront D knots → NearBack D knots → b.knot_kind = .ClampedEnd) ∧
    (¬ NearFront D knots → ¬ NearBack D knots → b.knot_kind = .Unclamped) := by
  obtain ⟨h1, h2, h3, hbeq⟩ := (new_generic _ _ _).1 h
  have hf := frontB_iff (D := D) (knots := knots) (show 0 < K by omega)
  have hb := backB_iff (D := D) (knots := knots) (by omega) (show K - 1 < K by omega)
  rw [hbeq]
  simp only
  rw [← hf, ← hb]
  cases frontB D knots (knots ⟨0, by omega⟩) <;> cases backB D knots (knots ⟨K - 1, by omega⟩) <;>
    simp [kindB]

/-- A degree-0 spline is clamped at both ends. -/
theorem near_zero {knots : Arr (Fl F) K} (hk : FiniteKnots knots) (hD : D = 0) :
    NearFront D knots ∧ NearBack D knots := by
  have key : ∀ i : Fin K, Scalar.lt (Scalar.abs (knots i - knots i)) (Scalar.epsilon : Fl F) = true := by
    intro i
    obtain ⟨r, hr, e⟩ := isFinite_iff.1 (hk i)
    rw [e, fin_sub, sub_self, F.round_of_mem F.zero_ok, epsilon_eq]
    show Scalar.lt (fin |0| _) _ = true
    rw [lt_fin, abs_zero]
    exact F.epsilon_pos
  subst hD
  constructor
  · intro i j hi hj
    obtain rfl : i = j := Fin.ext (by omega)
    exact key i
  · intro i j hi hj
    obtain rfl : i = j := Fin.ext (by omega)
    exact key i

section

variable {knots : Arr (Fl F) K} {ps : Arr P C} {b : BSpline (Fl F) P K C D}

theorem fin_knot (hk : FiniteKnots knots) {i : ℕ} (hi : i < K) :
    ∃ hok, knots ⟨i, hi⟩ = fin (knotAt (fun i => (knots i).toReal) i) hok := by
  obtain ⟨x, hx, ex⟩ := isFinite_iff.1 (hk ⟨i, hi⟩)
  have e : knotAt (fun i => (knots i).toReal) i = x := by
    rw [knotAt_lt _ hi, ex, toReal_fin]
  rw [e]
  exact ⟨hx, ex⟩

theorem float_inside {lo hi r : ℝ} {hlo hhi} (hr : r ∈ F.grid ∧ |r| ≤ F.max)
    (hd : b.knotDomain = some (fin lo hlo, fin hi hhi)) (h1 : lo ≤ r) (h2 : r ≤ hi) :
    b.eval (fin r hr) = b.deBoorIterative (fin r hr) := by
  unfold BSpline.eval
  rw [hd]
  have hin : (Scalar.lt (fin r hr) (fin lo hlo) || Scalar.lt (fin hi hhi) (fin r hr)) = false := by
    rw [Bool.or_eq_false_iff, ← Bool.not_eq_true, ← Bool.not_eq_true, lt_fin, lt_fin]
    exact ⟨not_lt.2 h1, not_lt.2 h2⟩
  simp only [Outcome.ofOption_some, Outcome.ok_bind, hin, Bool.false_eq_true, if_false]

/-- **C47** (floats), clamped only at the front: on the whole knot domain
`[knots[D], knots[K-1]]` the evaluation of a spline with finite knots succeeds exactly for
`t < knots[C+1]`, at `knots[C]` and at the last knot; everywhere else in the domain it panics. -/
theorem C47_float_front (h : BSpline.new knots ps = .ok b) (hk : FiniteKnots knots)
    (hspan : ∀ i j : Fin K, (knots j).toReal - (knots i).toReal ≤ F.max)
    (hf : NearFront D knots) (hb : ¬ NearBack D knots) {r : ℝ} (hr : r ∈ F.grid ∧ |r| ≤ F.max)
    (h1 : knotAt (fun i => (knots i).toReal) D ≤ r)
    (h2 : r ≤ knotAt (fun i => (knots i).toReal) (K - 1)) :
    ((∃ q, b.eval (fin r hr) = .ok q) ↔ r < knotAt (fun i => (knots i).toReal) (C + 1) ∨
      r = knotAt (fun i => (knots i).toReal) C ∨ r = knotAt (fun i => (knots i).toReal) (K - 1)) ∧
    ((∃ q, b.eval (fin r hr) = .ok q) ∨ b.eval (fin r hr) = .panic) := by
  have hD : 1 ≤ D := by
    by_contra h0
    exact hb (near_zero hk (by omega)).2
  have hkind := (float_kind h).2.1 hf hb
  obtain ⟨v1, v2, v3, hbeq⟩ := (new_generic _ _ _).1 h
  have hm := (anyDecrease_finiteKnots hk).1 v3
  have hkn : b.knots = knots := by rw [hbeq]
  obtain ⟨oD, eD⟩ := fin_knot hk (show D < K by omega)
  obtain ⟨oL, eL⟩ := fin_knot hk (show K - 1 < K by omega)
  obtain ⟨oC, eC⟩ := fin_knot hk (show C < K by omega)
  have hd : b.knotDomain = some (knots ⟨D, by omega⟩, knots ⟨K - 1, by omega⟩) := by
    rw [BSpline.knotDomain, hkind]
    simp only [BSpline.knotDomainClampedStart]
    rw [usub_le (by omega), hkn, Arr.get?_lt _ (show D < K by omega)]
    simp only [Option.bind_eq_bind, Option.bind_some]
    rw [Arr.get?_lt _ (show K - 1 < K by omega)]
    rfl
  have heval : b.eval (fin r hr) = b.deBoorIterative (fin r hr) := by
    rw [eD, eL] at hd
    exact float_inside hr hd h1 h2
  by_cases hC : r = knotAt (fun i => (knots i).toReal) C
  · have hok := C49_float_end h hk (show C < K by omega) (show C - 1 < C by omega)
    rw [eC] at hok
    have e : (fin r hr : Fl F) = fin (knotAt (fun i => (knots i).toReal) C) oC := by
      simp only [hC]
    rw [e]
    exact ⟨⟨fun _ => Or.inr (Or.inl hC), fun _ => ⟨_, hok⟩⟩, Or.inl ⟨_, hok⟩⟩
  have hne : ∀ hC : C < K, (Scalar.eq (fin r hr) (knots ⟨C, hC⟩) : Bool) = false := by
    intro _
    rw [eC, ← Bool.not_eq_true, eq_fin]
    exact hC
  have e0 : b.knotSpanStart (fin r hr) = if r = knotAt (fun i => (knots i).toReal) (K - 1)
      then some (some (C - 1))
      else BSpline.spanClampedLoop (fun i => (knots i).toReal) r D (K - 1 - 1) := by
    rw [BSpline.knotSpanStart, hkind]
    simp only [BSpline.spanClampedStart]
    rw [usub_le (by omega), usub_le (by omega)]
    simp only [Option.bind_eq_bind, Option.bind_some]
    rw [hkn, Arr.get?_lt _ (show K - 1 < K by omega), Arr.get?_lt _ (show D < K by omega),
      usub_le (show 1 ≤ K - 1 by omega)]
    simp only [Option.bind_some]
    rw [eL, eD]
    have hin : (Scalar.lt (fin r hr) (fin (knotAt (fun i => (knots i).toReal) D) oD) ||
        Scalar.lt (fin (knotAt (fun i => (knots i).toReal) (K - 1)) oL) (fin r hr)) = false := by
      rw [Bool.or_eq_false_iff, ← Bool.not_eq_true, ← Bool.not_eq_true, lt_fin, lt_fin]
      exact ⟨not_lt.2 h1, not_lt.2 h2⟩
    rw [hin]
    by_cases hl : r = knotAt (fun i => (knots i).toReal) (K - 1)
    · rw [if_pos hl, if_pos (by rw [eq_fin]; exact hl)]
      rfl
    · rw [if_neg hl, if_neg (by rw [eq_fin]; exact hl)]
      simp only [Bool.false_eq_true, if_false]
      rw [spanClampedStartLoop_eq, spanLoop_finite hk hr _ _ _ le_rfl]
  rcases eq_or_lt_of_le h2 with hl | hl
  · rw [if_pos hl] at e0
    have hok := (float_outcome h hk hspan hD heval hne e0).1 ⟨by omega, by omega⟩
    exact ⟨⟨fun _ => Or.inr (Or.inr hl), fun _ => hok⟩, Or.inl hok⟩
  · rw [if_neg hl.ne] at e0
    have e : K - 1 - 1 + 1 = K - 1 := by omega
    obtain ⟨k, hk', h3, h4, h5, h6⟩ := spanLoop_spec hm r _ D (K - 1 - 1) le_rfl (by omega) h1
      (by rwa [e]) (by omega)
    rw [hk'] at e0
    obtain ⟨ho1, ho2⟩ := float_outcome h hk hspan hD heval hne e0
    by_cases hkC : k ≤ C
    · have hok := ho1 ⟨h3, hkC⟩
      refine ⟨⟨fun _ => Or.inl ?_, fun _ => hok⟩, Or.inl hok⟩
      exact h6.trans_le (mono_knotAt hm (by omega) (by omega))
    · have hp := ho2 (by omega)
      refine ⟨⟨fun ⟨q, hq⟩ => absurd hq (by rw [hp]; simp), fun hh => ?_⟩, Or.inr hp⟩
      exfalso
      rcases hh with hh | hh | hh
      · have := mono_knotAt hm (show C + 1 ≤ k by omega) (by omega)
        linarith
      · exact hC hh
      · exact hl.ne hh

/-- **C47** (floats), clamped only at the back: on the whole knot domain `[knots[0], knots[C]]`
the evaluation of a spline with finite knots succeeds exactly for `t ≥ knots[D]`; everywhere
else in the domain it panics. -/
theorem C47_float_back (h : BSpline.new knots ps = .ok b) (hk : FiniteKnots knots)
    (hspan : ∀ i j : Fin K, (knots j).toReal - (knots i).toReal ≤ F.max)
    (hf : ¬ NearFront D knots) (hb : NearBack D knots) {r : ℝ} (hr : r ∈ F.grid ∧ |r| ≤ F.max)
    (h1 : knotAt (fun i => (knots i).toReal) 0 ≤ r)
    (h2 : r ≤ knotAt (fun i => (knots i).toReal) C) :
    ((∃ q, b.eval (fin r hr) = .ok q) ↔ knotAt (fun i => (knots i).toReal) D ≤ r) ∧
    ((∃ q, b.eval (fin r hr) = .ok q) ∨ b.eval (fin r hr) = .panic) := by
  have hD : 1 ≤ D := by
    by_contra h0
    exact hf (near_zero hk (by omega)).1
  have hkind := (float_kind h).2.2.1 hf hb
  obtain ⟨v1, v2, v3, hbeq⟩ := (new_generic _ _ _).1 h
  have hm := (anyDecrease_finiteKnots hk).1 v3
  have hkn : b.knots = knots := by rw [hbeq]
  obtain ⟨o0, e0⟩ := fin_knot hk (show 0 < K by omega)
  obtain ⟨oC, eC⟩ := fin_knot hk (show C < K by omega)
  have hd : b.knotDomain = some (knots ⟨0, by omega⟩, knots ⟨C, by omega⟩) := by
    rw [BSpline.knotDomain, hkind]
    simp only [BSpline.knotDomainClampedEnd]
    rw [usub_le (by omega)]
    simp only [Option.bind_eq_bind, Option.bind_some]
    rw [usub_le (by omega), hkn, Arr.get?_lt _ (show 0 < K by omega)]
    simp only [Option.bind_some]
    rw [Arr.get?_lt _ (show K - 1 - D < K by omega)]
    simp only [Option.bind_some, show K - 1 - D = C by omega]
    rfl
  have heval : b.eval (fin r hr) = b.deBoorIterative (fin r hr) := by
    rw [e0, eC] at hd
    exact float_inside hr hd h1 h2
  rcases eq_or_lt_of_le h2 with hC | hlt
  · have hok := C49_float_end h hk (show C < K by omega) (show C - 1 < C by omega)
    rw [eC] at hok
    have e : (fin r hr : Fl F) = fin (knotAt (fun i => (knots i).toReal) C) oC := by
      simp only [hC]
    rw [e]
    refine ⟨⟨fun _ => ?_, fun _ => ⟨_, hok⟩⟩, Or.inl ⟨_, hok⟩⟩
    rw [hC]
    exact mono_knotAt hm (by omega) (by omega)
  have hne : ∀ hC : C < K, (Scalar.eq (fin r hr) (knots ⟨C, hC⟩) : Bool) = false := by
    intro _
    rw [eC, ← Bool.not_eq_true, eq_fin]
    exact hlt.ne
  have es : b.knotSpanStart (fin r hr)
      = BSpline.spanClampedLoop (fun i => (knots i).toReal) r 0 (C - 1) := by
    rw [BSpline.knotSpanStart, hkind]
    simp only [BSpline.spanClampedEnd]
    rw [usub_le (by omega)]
    simp only [Option.bind_eq_bind, Option.bind_some, show C - 1 + 1 = C by omega]
    rw [hkn, Arr.get?_lt _ (show C < K by omega), Arr.get?_lt _ (show 0 < K by omega)]
    simp only [Option.bind_some, hne, Bool.false_eq_true, if_false]
    rw [e0, eC]
    have hin : (Scalar.lt (fin r hr) (fin (knotAt (fun i => (knots i).toReal) 0) o0) ||
        Scalar.lt (fin (knotAt (fun i => (knots i).toReal) C) oC) (fin r hr)) = false := by
      rw [Bool.or_eq_false_iff, ← Bool.not_eq_true, ← Bool.not_eq_true, lt_fin, lt_fin]
      exact ⟨not_lt.2 h1, not_lt.2 h2⟩
    rw [hin]
    simp only [Bool.false_eq_true, if_false]
    rw [spanClampedEndLoop_eq, spanLoop_finite hk hr _ _ _ le_rfl]
  have e : C - 1 + 1 = C := by omega
  obtain ⟨k, hk', h3, h4, h5, h6⟩ := spanLoop_spec hm r _ 0 (C - 1) le_rfl (by omega) h1
    (by rwa [e]) (by omega)
  rw [hk'] at es
  obtain ⟨ho1, ho2⟩ := float_outcome h hk hspan hD heval hne es
  by_cases hkD : D ≤ k
  · have hok := ho1 ⟨hkD, by omega⟩
    exact ⟨⟨fun _ => (mono_knotAt hm hkD (by omega)).trans h5, fun _ => hok⟩, Or.inl hok⟩
  · have hp := ho2 (by omega)
    refine ⟨⟨fun ⟨q, hq⟩ => absurd hq (by rw [hp]; simp), fun hh => ?_⟩, Or.inr hp⟩
    have := mono_knotAt hm (show k + 1 ≤ D by omega) (by omega)
    linarith

/-- The knot domain of an unclamped spline. -/
theorem domain_none (h : BSpline.new knots ps = .ok b) (hf : ¬ NearFront D knots)
    (hb : ¬ NearBack D knots) (hD : D < K) (hC : C < K) :
    b.knotDomain = some (knots ⟨D, hD⟩, knots ⟨C, hC⟩) := by
  have hkind := (float_kind h).2.2.2 hf hb
  obtain ⟨v1, v2, v3, hbeq⟩ := (new_generic _ _ _).1 h
  have hkn : b.knots = knots := by rw [hbeq]
  rw [BSpline.knotDomain, hkind]
  simp only [BSpline.knotDomainUnclamped]
  rw [hkn, Arr.get?_lt _ hD, Arr.get?_lt _ hC]
  rfl

/-- The span that an unclamped spline uses: the first probe `k` of the search with
`t < knots[k+1]`. -/
theorem span_none (h : BSpline.new knots ps = .ok b) (hk : FiniteKnots knots)
    (hf : ¬ NearFront D knots) (hb : ¬ NearBack D knots) {r : ℝ} (hr : r ∈ F.grid ∧ |r| ≤ F.max)
    (h2 : r < knotAt (fun i => (knots i).toReal) C) :
    ∃ k, b.knotSpanStart (fin r hr) = some (some k) ∧ Probe K k ∧ D ≤ k ∧
      r < knotAt (fun i => (knots i).toReal) (k + 1) ∧
      ∀ p, Probe K p → p < k → knotAt (fun i => (knots i).toReal) (p + 1) ≤ r := by
  have hD : 1 ≤ D := by
    by_contra h0
    exact hf (near_zero hk (by omega)).1
  have hkind := (float_kind h).2.2.2 hf hb
  obtain ⟨v1, v2, v3, hbeq⟩ := (new_generic _ _ _).1 h
  have hm := (anyDecrease_finiteKnots hk).1 v3
  have hkn : b.knots = knots := by rw [hbeq]
  have hge : ∀ p, Probe K p → K / 2 ≤ p := by
    intro p hp
    induction hp with
    | first => exact le_rfl
    | next _ _ => omega
  obtain ⟨k, hk', hpk, hkt, hfirst⟩ := spanUnclamped_probe hm v2 hD h2 K 0 K le_rfl (by omega)
    (by omega) (by rw [Nat.zero_add]; exact Probe.first) (by
      intro p hp hlt'
      have := hge p hp
      omega)
  have := hge k hpk
  refine ⟨k, ?_, hpk, by omega, hkt, hfirst⟩
  rw [BSpline.knotSpanStart, hkind]
  simp only [BSpline.spanUnclamped]
  rw [hkn, spanUnclampedLoop_finite hk hr K _ _ le_rfl]
  exact hk'

/-- **C47** (floats), unclamped: on the whole knot domain `[knots[D], knots[C]]` the evaluation
of a spline with finite knots succeeds exactly at `knots[C]` and to the left of `knots[p+1]` for
some probe `p ≤ C` of the search; everywhere else in the domain it panics. -/
theorem C47_float_unclamped (h : BSpline.new knots ps = .ok b) (hk : FiniteKnots knots)
    (hspan : ∀ i j : Fin K, (knots j).toReal - (knots i).toReal ≤ F.max)
    (hf : ¬ NearFront D knots) (hb : ¬ NearBack D knots) {r : ℝ} (hr : r ∈ F.grid ∧ |r| ≤ F.max)
    (h1 : knotAt (fun i => (knots i).toReal) D ≤ r)
    (h2 : r ≤ knotAt (fun i => (knots i).toReal) C) :
    ((∃ q, b.eval (fin r hr) = .ok q) ↔ r = knotAt (fun i => (knots i).toReal) C ∨
      ∃ p, Probe K p ∧ p ≤ C ∧ r < knotAt (fun i => (knots i).toReal) (p + 1)) ∧
    ((∃ q, b.eval (fin r hr) = .ok q) ∨ b.eval (fin r hr) = .panic) := by
  have hD : 1 ≤ D := by
    by_contra h0
    exact hf (near_zero hk (by omega)).1
  obtain ⟨v1, v2, v3, hbeq⟩ := (new_generic _ _ _).1 h
  have hm := (anyDecrease_finiteKnots hk).1 v3
  have hkn : b.knots = knots := by rw [hbeq]
  obtain ⟨oD, eD⟩ := fin_knot hk (show D < K by omega)
  obtain ⟨oC, eC⟩ := fin_knot hk (show C < K by omega)
  have hd := domain_none h hf hb (show D < K by omega) (show C < K by omega)
  have heval : b.eval (fin r hr) = b.deBoorIterative (fin r hr) := by
    rw [eD, eC] at hd
    exact float_inside hr hd h1 h2
  rcases eq_or_lt_of_le h2 with hC | hlt
  · have hok := C49_float_end h hk (show C < K by omega) (show C - 1 < C by omega)
    rw [eC] at hok
    have e : (fin r hr : Fl F) = fin (knotAt (fun i => (knots i).toReal) C) oC := by
      simp only [hC]
    rw [e]
    exact ⟨⟨fun _ => Or.inl hC, fun _ => ⟨_, hok⟩⟩, Or.inl ⟨_, hok⟩⟩
  have hne : ∀ hC : C < K, (Scalar.eq (fin r hr) (knots ⟨C, hC⟩) : Bool) = false := by
    intro _
    rw [eC, ← Bool.not_eq_true, eq_fin]
    exact hlt.ne
  obtain ⟨k, es, hpk, hDk, hkt, hfirst⟩ := span_none h hk hf hb hr hlt
  obtain ⟨ho1, ho2⟩ := float_outcome h hk hspan hD heval hne es
  by_cases hkC : k ≤ C
  · have hok := ho1 ⟨by omega, hkC⟩
    exact ⟨⟨fun _ => Or.inr ⟨k, hpk, hkC, hkt⟩, fun _ => hok⟩, Or.inl hok⟩
  · have hp := ho2 (by omega)
    refine ⟨⟨fun ⟨q, hq⟩ => absurd hq (by rw [hp]; simp), fun hh => ?_⟩, Or.inr hp⟩
    exfalso
    rcases hh with hh | ⟨p, hp1, hp2, hp3⟩
    · exact hlt.ne hh
    · have := hfirst p hp1 (by omega)
      linarith

/-- **C47** (floats), clamped at both ends up to the machine epsilon: evaluation succeeds on the
whole knot domain `[knots[D], knots[C]]`.  (`C47_float_clamped` is the special case of equal end
knots.) -/
theorem C47_float_both (h : BSpline.new knots ps = .ok b) (hk : FiniteKnots knots)
    (hspan : ∀ i j : Fin K, (knots j).toReal - (knots i).toReal ≤ F.max)
    (hf : NearFront D knots) (hb : NearBack D knots) {r : ℝ} (hr : r ∈ F.grid ∧ |r| ≤ F.max)
    (h1 : knotAt (fun i => (knots i).toReal) D ≤ r)
    (h2 : r ≤ knotAt (fun i => (knots i).toReal) C) : ∃ q, b.eval (fin r hr) = .ok q := by
  have hkind := (float_kind h).1 hf hb
  obtain ⟨v1, v2, v3, hbeq⟩ := (new_generic _ _ _).1 h
  have hm := (anyDecrease_finiteKnots hk).1 v3
  have hkn : b.knots = knots := by rw [hbeq]
  obtain ⟨oD, eD⟩ := fin_knot hk (show D < K by omega)
  obtain ⟨oC, eC⟩ := fin_knot hk (show C < K by omega)
  have hd : b.knotDomain = some (knots ⟨D, by omega⟩, knots ⟨C, by omega⟩) := by
    rw [BSpline.knotDomain, hkind]
    simp only [BSpline.knotDomainClamped]
    rw [usub_le (by omega)]
    simp only [Option.bind_eq_bind, Option.bind_some]
    rw [usub_le (by omega), hkn, Arr.get?_lt _ (show D < K by omega)]
    simp only [Option.bind_some]
    rw [Arr.get?_lt _ (show K - 1 - D < K by omega)]
    simp only [Option.bind_some, show K - 1 - D = C by omega]
    rfl
  have heval : b.eval (fin r hr) = b.deBoorIterative (fin r hr) := by
    rw [eD, eC] at hd
    exact float_inside hr hd h1 h2
  rcases eq_or_lt_of_le h2 with hC | hlt
  · have hok := C49_float_end h hk (show C < K by omega) (show C - 1 < C by omega)
    rw [eC] at hok
    have e : (fin r hr : Fl F) = fin (knotAt (fun i => (knots i).toReal) C) oC := by
      simp only [hC]
    rw [e]
    exact ⟨_, hok⟩
  have hne : ∀ hC : C < K, (Scalar.eq (fin r hr) (knots ⟨C, hC⟩) : Bool) = false := by
    intro _
    rw [eC, ← Bool.not_eq_true, eq_fin]
    exact hlt.ne
  have e : C - 1 + 1 = C := by omega
  obtain ⟨k, hk', h3, h4, h5, h6⟩ := spanLoop_spec hm r _ D (C - 1) le_rfl (by omega) h1
    (by rwa [e]) (by omega)
  have es : b.knotSpanStart (fin r hr) = some (some k) := by
    rw [BSpline.knotSpanStart, hkind]
    simp only [BSpline.spanClamped]
    rw [usub_le (by omega)]
    simp only [Option.bind_eq_bind, Option.bind_some, e]
    rw [hkn, Arr.get?_lt _ (show C < K by omega)]
    simp only [Option.bind_some, hne, Bool.false_eq_true, if_false]
    rw [spanLoop_finite hk hr _ _ _ le_rfl]
    exact hk'
  have hnp := deBoorIterative_ne_panic b v2 (by omega) (fin r hr) es h3 (by omega)
  have herr := fun e he => deBoorIterative_err b (fin r hr) es (e := e) he
  have hn := C54_partial h hk hspan (fin r hr)
  rw [heval] at hn ⊢
  cases hev : b.deBoorIterative (fin r hr) with
  | ok q => exact ⟨q, rfl⟩
  | err e =>
    exfalso
    by_cases he : e = .EvaluationAlphaIsNaN
    · subst he; exact hn hev
    · exact herr e he hev
  | panic => exact absurd hev hnp

end

/-- The hypotheses of the four theorems hold: integer knots, of each of the four kinds. -/
theorem float_kinds_values :
    ∃ (k₁ k₂ k₃ k₄ : Arr (Fl F) 7), (FiniteKnots k₁ ∧ FiniteKnots k₂ ∧ FiniteKnots k₃ ∧
      FiniteKnots k₄) ∧
    (NearFront 2 k₁ ∧ NearBack 2 k₁) ∧ (NearFront 2 k₂ ∧ ¬ NearBack 2 k₂) ∧
    (¬ NearFront 2 k₃ ∧ NearBack 2 k₃) ∧ (¬ NearFront 2 k₄ ∧ ¬ NearBack 2 k₄) ∧
    ((∀ i, (k₁ i).toReal = (![0, 0, 0, 1, 2, 2, 2] i : ℕ)) ∧
      (∀ i, (k₂ i).toReal = (![0, 0, 0, 1, 2, 3, 4] i : ℕ)) ∧
      (∀ i, (k₃ i).toReal = (![0, 1, 2, 3, 4, 4, 4] i : ℕ)) ∧
      ∀ i, (k₄ i).toReal = (![0, 1, 2, 3, 4, 5, 6] i : ℕ)) ∧
    ∀ k ∈ [k₁, k₂, k₃, k₄],
      (∃ b : BSpline (Fl F) (PointN (Fl F) 2) 7 4 2,
        BSpline.new k (fun _ => PointN.new fun _ => lit 3) = .ok b) ∧
      ∀ i j : Fin 7, (k j).toReal - (k i).toReal ≤ F.max := by
  -- integer knots between 0 and 6
  let kn : (Fin 7 → ℕ) → Arr (Fl F) 7 := fun z i => lit (((z i : ℕ) : ℤ) : ℚ)
  have hl : ∀ z : Fin 7 → ℕ, (∀ i, z i ≤ 6) → ∀ i, ∃ ok, kn z i = fin (z i) ok := by
    intro z hz i
    have hle : |((z i : ℕ) : ℤ)| ≤ 6 := by
      rw [abs_of_nonneg (Int.natCast_nonneg _)]
      exact_mod_cast hz i
    show ∃ ok, (lit (((z i : ℕ) : ℤ) : ℚ) : Fl F) = _
    rw [lit_int _ (hle.trans (by norm_num))]
    simp only [Int.cast_natCast, exists_prop, and_true]
    have := F.int_ok (z i : ℤ) (hle.trans (by norm_num))
    simpa using this
  have hfin : ∀ z : Fin 7 → ℕ, (∀ i, z i ≤ 6) → FiniteKnots (kn z) := by
    intro z hz i
    obtain ⟨ok, e⟩ := hl z hz i
    rw [e]
    trivial
  have hlt : ∀ z : Fin 7 → ℕ, (∀ i, z i ≤ 6) → ∀ i j,
      (Scalar.lt (Scalar.abs (kn z i - kn z j)) (Scalar.epsilon : Fl F) = true ↔ z i = z j) := by
    intro z hz i j
    obtain ⟨o1, e1⟩ := hl z hz i
    obtain ⟨o2, e2⟩ := hl z hz j
    have ok : ((z i : ℝ) - z j) ∈ F.grid ∧ |(z i : ℝ) - z j| ≤ F.max := by
      have := F.int_ok ((z i : ℤ) - z j) (by
        rw [abs_le]
        have := hz i
        have := hz j
        constructor <;> omega)
      push_cast at this
      exact this
    rw [e1, e2, fin_sub, F.round_of_mem ok, epsilon_eq]
    show Scalar.lt (fin |(z i : ℝ) - z j| _) _ = true ↔ _
    rw [lt_fin]
    constructor
    · intro hlt
      by_contra hne
      have h1 : (1 : ℝ) ≤ |(z i : ℝ) - z j| := by
        have : (1 : ℤ) ≤ |(z i : ℤ) - z j| := Int.one_le_abs (by omega)
        exact_mod_cast this
      linarith [F.epsilon_le]
    · intro he
      rw [he, sub_self, abs_zero]
      exact F.epsilon_pos
  have hfront : ∀ z : Fin 7 → ℕ, (∀ i, z i ≤ 6) →
      (NearFront 2 (kn z) ↔ z 1 = z 0 ∧ z 2 = z 0) := by
    intro z hz
    constructor
    · intro h
      exact ⟨(hlt z hz _ _).1 (h 1 0 (by simp) rfl), (hlt z hz _ _).1 (h 2 0 (by simp) rfl)⟩
    · rintro ⟨h1, h2⟩ i j hi hj
      obtain rfl : j = 0 := Fin.ext hj
      rw [hlt z hz]
      fin_cases i <;> simp_all
  have hback : ∀ z : Fin 7 → ℕ, (∀ i, z i ≤ 6) →
      (NearBack 2 (kn z) ↔ z 4 = z 6 ∧ z 5 = z 6) := by
    intro z hz
    constructor
    · intro h
      exact ⟨(hlt z hz _ _).1 (h 4 6 (by simp) rfl), (hlt z hz _ _).1 (h 5 6 (by simp) rfl)⟩
    · rintro ⟨h1, h2⟩ i j hi hj
      obtain rfl : j = 6 := Fin.ext (by simp; omega)
      rw [hlt z hz]
      fin_cases i <;> simp_all
  have hnew : ∀ z : Fin 7 → ℕ, (∀ i, z i ≤ 6) → Monotone z →
      (∃ b : BSpline (Fl F) (PointN (Fl F) 2) 7 4 2,
        BSpline.new (kn z) (fun _ => PointN.new fun _ => lit 3) = .ok b) ∧
      ∀ i j : Fin 7, (kn z j).toReal - (kn z i).toReal ≤ F.max := by
    intro z hz hmono
    constructor
    · refine (C43_float (D := 2) (hfin z hz) _).2 ⟨by norm_num, by norm_num, fun i j hij => ?_⟩
      obtain ⟨o1, e1⟩ := hl z hz i
      obtain ⟨o2, e2⟩ := hl z hz j
      show (kn z i).toReal ≤ (kn z j).toReal
      rw [e1, e2, toReal_fin, toReal_fin]
      exact_mod_cast hmono hij
    · intro i j
      obtain ⟨o1, e1⟩ := hl z hz i
      obtain ⟨o2, e2⟩ := hl z hz j
      rw [e1, e2, toReal_fin, toReal_fin]
      have a1 : (z j : ℝ) ≤ 6 := by exact_mod_cast hz j
      have a2 : (0 : ℝ) ≤ z i := Nat.cast_nonneg _
      linarith [F.max_ge]
  have hval : ∀ z : Fin 7 → ℕ, (∀ i, z i ≤ 6) → ∀ i, (kn z i).toReal = (z i : ℕ) := by
    intro z hz i
    obtain ⟨o1, e1⟩ := hl z hz i
    rw [e1, toReal_fin]
  have b1 : ∀ i, (![0, 0, 0, 1, 2, 2, 2] : Fin 7 → ℕ) i ≤ 6 := by decide
  have b2 : ∀ i, (![0, 0, 0, 1, 2, 3, 4] : Fin 7 → ℕ) i ≤ 6 := by decide
  have b3 : ∀ i, (![0, 1, 2, 3, 4, 4, 4] : Fin 7 → ℕ) i ≤ 6 := by decide
  have b4 : ∀ i, (![0, 1, 2, 3, 4, 5, 6] : Fin 7 → ℕ) i ≤ 6 := by decide
  refine ⟨kn ![0, 0, 0, 1, 2, 2, 2], kn ![0, 0, 0, 1, 2, 3, 4], kn ![0, 1, 2, 3, 4, 4, 4],
    kn ![0, 1, 2, 3, 4, 5, 6], ⟨hfin _ b1, hfin _ b2, hfin _ b3, hfin _ b4⟩, ?_, ?_, ?_, ?_,
    ⟨hval _ b1, hval _ b2, hval _ b3, hval _ b4⟩, ?_⟩
  · rw [hfront _ b1, hback _ b1]; decide
  · rw [hfront _ b2, hback _ b2]; decide
  · rw [hfront _ b3, hback _ b3]; decide
  · rw [hfront _ b4, hback _ b4]; decide
  · intro k hk
    simp only [List.mem_cons, List.not_mem_nil, or_false] at hk
    rcases hk with rfl | rfl | rfl | rfl
    · exact hnew _ b1 (by intro i j; revert i j; decide)
    · exact hnew _ b2 (by intro i j; revert i j; decide)
    · exact hnew _ b3 (by intro i j; revert i j; decide)
    · exact hnew _ b4 (by intro i j; revert i j; decide)

theorem float_kinds_witness :
    ∃ (k₁ k₂ k₃ k₄ : Arr (Fl F) 7), (FiniteKnots k₁ ∧ FiniteKnots k₂ ∧ FiniteKnots k₃ ∧
      FiniteKnots k₄) ∧
    (NearFront 2 k₁ ∧ NearBack 2 k₁) ∧ (NearFront 2 k₂ ∧ ¬ NearBack 2 k₂) ∧
    (¬ NearFront 2 k₃ ∧ NearBack 2 k₃) ∧ (¬ NearFront 2 k₄ ∧ ¬ NearBack 2 k₄) ∧
    ∀ k ∈ [k₁, k₂, k₃, k₄],
      (∃ b : BSpline (Fl F) (PointN (Fl F) 2) 7 4 2,
        BSpline.new k (fun _ => PointN.new fun _ => lit 3) = .ok b) ∧
      ∀ i j : Fin 7, (k j).toReal - (k i).toReal ≤ F.max := by
  obtain ⟨k₁, k₂, k₃, k₄, h0, h1, h2, h3, h4, -, h5⟩ := float_kinds_values (F := F)
  exact ⟨k₁, k₂, k₃, k₄, h0, h1, h2, h3, h4, h5⟩

/-- `C47_float_both`, `C47_float_front`, `C47_float_back` and `C47_float_unclamped` for splines of
degree 2 with four control points: where they evaluate and where they panic. -/
example : ∃ (b₁ b₂ b₃ b₄ : BSpline (Fl F) (PointN (Fl F) 2) 7 4 2),
    (∃ q, b₁.eval (lit 1) = .ok q) ∧
    (∃ q, b₂.eval (lit 1) = .ok q) ∧ b₂.eval (lit 3) = .panic ∧ (∃ q, b₂.eval (lit 4) = .ok q) ∧
    (∃ q, b₃.eval (lit 3) = .ok q) ∧ b₃.eval (lit 1) = .panic ∧
    (∃ q, b₄.eval (lit 2) = .ok q) ∧ (∃ q, b₄.eval (lit 4) = .ok q) := by
  obtain ⟨k₁, k₂, k₃, k₄, ⟨f1, f2, f3, f4⟩, ⟨nf1, nb1⟩, ⟨nf2, nb2⟩, ⟨nf3, nb3⟩, ⟨nf4, nb4⟩,
    ⟨v1, v2, v3, v4⟩, hnew⟩ := float_kinds_values (F := F)
  obtain ⟨⟨b₁, h1⟩, s1⟩ := hnew k₁ (by simp)
  obtain ⟨⟨b₂, h2⟩, s2⟩ := hnew k₂ (by simp)
  obtain ⟨⟨b₃, h3⟩, s3⟩ := hnew k₃ (by simp)
  obtain ⟨⟨b₄, h4⟩, s4⟩ := hnew k₄ (by simp)
  have e : ∀ z : ℕ, z ≤ 6 → ∃ ok, (lit ((z : ℤ) : ℚ) : Fl F) = fin z ok := by
    intro z hz
    have hle : |(z : ℤ)| ≤ 1024 := by
      rw [abs_of_nonneg (Int.natCast_nonneg _)]
      omega
    have := F.int_ok (z : ℤ) hle
    rw [lit_int _ hle]
    simp only [Int.cast_natCast] at this ⊢
    exact ⟨this, trivial⟩
  have kv : ∀ {k : Arr (Fl F) 7} {z : Fin 7 → ℕ}, (∀ i, (k i).toReal = (z i : ℕ)) →
      ∀ i (h : i < 7), knotAt (fun i => (k i).toReal) i = (z ⟨i, h⟩ : ℕ) := by
    intro k z hv i h
    unfold knotAt
    rw [dif_pos h]
    exact hv _
  obtain ⟨o1, e1⟩ := e 1 (by norm_num)
  obtain ⟨o2, e2⟩ := e 2 (by norm_num)
  obtain ⟨o3, e3⟩ := e 3 (by norm_num)
  obtain ⟨o4, e4⟩ := e 4 (by norm_num)
  norm_num at e1 e2 e3 e4
  refine ⟨b₁, b₂, b₃, b₄, ?_, ?_, ?_, ?_, ?_, ?_, ?_, ?_⟩
  · rw [e1]
    exact C47_float_both h1 f1 s1 nf1 nb1 _ (by rw [kv v1 2 (by norm_num)]; norm_num)
      (by rw [kv v1 4 (by norm_num)]; norm_num)
  · rw [e1]
    refine (C47_float_front h2 f2 s2 nf2 nb2 _ ?_ ?_).1.2 (Or.inl ?_)
    · rw [kv v2 2 (by norm_num)]; norm_num
    · rw [kv v2 6 (by norm_num)]; norm_num
    · rw [kv v2 5 (by norm_num)]; norm_num
  · rw [e3]
    obtain ⟨w, z⟩ := C47_float_front h2 f2 s2 nf2 nb2 o3
      (by rw [kv v2 2 (by norm_num)]; norm_num) (by rw [kv v2 6 (by norm_num)]; norm_num)
    refine z.resolve_left fun hq => ?_
    have := w.1 hq
    rw [kv v2 5 (by norm_num), kv v2 4 (by norm_num), kv v2 6 (by norm_num)] at this
    norm_num at this
  · rw [e4]
    refine (C47_float_front h2 f2 s2 nf2 nb2 _ ?_ ?_).1.2 (Or.inr (Or.inr ?_))
    · rw [kv v2 2 (by norm_num)]; norm_num
    · rw [kv v2 6 (by norm_num)]; norm_num
    · rw [kv v2 6 (by norm_num)]; norm_num
  · rw [e3]
    refine (C47_float_back h3 f3 s3 nf3 nb3 _ ?_ ?_).1.2 ?_
    · rw [kv v3 0 (by norm_num)]; norm_num
    · rw [kv v3 4 (by norm_num)]; norm_num
    · rw [kv v3 2 (by norm_num)]; norm_num
  · rw [e1]
    obtain ⟨w, z⟩ := C47_float_back h3 f3 s3 nf3 nb3 (r := 1) (by simpa using o1)
      (by rw [kv v3 0 (by norm_num)]; norm_num) (by rw [kv v3 4 (by norm_num)]; norm_num)
    refine z.resolve_left fun hq => ?_
    have := w.1 hq
    rw [kv v3 2 (by norm_num)] at this
    norm_num at this
  · rw [e2]
    refine (C47_float_unclamped h4 f4 s4 nf4 nb4 _ ?_ ?_).1.2 (Or.inr ⟨3, Probe.first, ?_, ?_⟩)
    · rw [kv v4 2 (by norm_num)]; norm_num
    · rw [kv v4 4 (by norm_num)]; norm_num
    · norm_num
    · rw [kv v4 4 (by norm_num)]; norm_num
  · rw [e4]
    refine (C47_float_unclamped h4 f4 s4 nf4 nb4 _ ?_ ?_).1.2 (Or.inl ?_)
    · rw [kv v4 2 (by norm_num)]; norm_num
    · rw [kv v4 4 (by norm_num)]; norm_num
    · rw [kv v4 4 (by norm_num)]; norm_num

end Stroke
