import Verif.Model.Derived
import Verif.Props.Elevation
import Verif.Props.FloatEndpoints
import Mathlib.LinearAlgebra.Lagrange

/-!
# A curve determines its control points; equality of curves (C93)
-/

set_option linter.unusedSectionVars false

namespace Stroke

variable {P : Type} [Point ℝ P] [LawfulPoint P] {N : ℕ}

/-! ### Bernstein sums -/

open Polynomial in
theorem bsum_polynomial (m : ℕ) (x : ℕ → ℝ) :
    ∃ p : ℝ[X], p.degree < (m + 1 : ℕ) ∧ ∀ t, p.eval t = bsum m x t := by
  refine ⟨∑ k ∈ Finset.range (m + 1), C (x k * (m.choose k : ℝ)) * (X ^ k * (1 - X) ^ (m - k)), ?_, ?_⟩
  · refine lt_of_le_of_lt (Polynomial.degree_sum_le _ _) ?_
    rw [Finset.sup_lt_iff (by exact_mod_cast WithBot.bot_lt_coe _)]
    intro k hk
    have hk' : k ≤ m := by simpa [Nat.lt_succ_iff] using hk
    have h1 : (1 - X : ℝ[X]).natDegree ≤ 1 := by
      refine (Polynomial.natDegree_sub_le _ _).trans ?_
      simp
    have h2 : (C (x k * (m.choose k : ℝ)) * (X ^ k * (1 - X) ^ (m - k)) : ℝ[X]).natDegree ≤ m := by
      refine (Polynomial.natDegree_C_mul_le _ _).trans (Polynomial.natDegree_mul_le.trans ?_)
      have h3 : ((1 - X : ℝ[X]) ^ (m - k)).natDegree ≤ m - k := by
        refine (Polynomial.natDegree_pow_le).trans ?_
        have := Nat.mul_le_mul_left (m - k) h1
        omega
      have h4 : (X ^ k : ℝ[X]).natDegree ≤ k := by simp
      omega
    refine lt_of_le_of_lt Polynomial.degree_le_natDegree ?_
    exact_mod_cast Nat.lt_succ_of_le h2
  · intro t
    rw [Polynomial.eval_finsetSum]
    unfold bsum bernstein
    refine Finset.sum_congr rfl fun k _ => ?_
    simp only [eval_mul, eval_C, eval_pow, eval_X, eval_sub, eval_one]
    ring

theorem bsum_zero_coeff (m : ℕ) (x : ℕ → ℝ) (h : ∀ t, bsum m x t = 0) : ∀ k ≤ m, x k = 0 := by
  induction m generalizing x with
  | zero =>
    intro k hk
    have := h 0
    rw [bsum_zero] at this
    rw [show k = 0 by omega]
    exact this
  | succ m ih =>
    have h0 : x 0 = 0 := by
      have := h 0
      unfold bsum bernstein at this
      rw [Finset.sum_range_succ', Finset.sum_eq_zero] at this
      · simpa using this
      · intro k _
        simp
    have hd : ∀ k ≤ m, x (k + 1) - x k = 0 := by
      apply ih
      intro t
      have h1 := (hasDerivAt_bsum m x t).deriv
      have h2 : bsum (m + 1) x = fun _ => 0 := funext h
      rw [h2, deriv_const] at h1
      have h3 : ((m : ℝ) + 1) ≠ 0 := by positivity
      exact (mul_eq_zero.1 h1.symm).resolve_left h3
    intro k hk
    induction k with
    | zero => exact h0
    | succ k ihk => linarith [hd k (by omega), ihk (by omega)]

/-- Two Bernstein sums that agree at more than `m` parameters have the same coefficients. -/
theorem bsum_unique {m : ℕ} {x y : ℕ → ℝ} {T : Finset ℝ} (hT : m + 1 ≤ T.card)
    (h : ∀ t ∈ T, bsum m x t = bsum m y t) : ∀ k ≤ m, x k = y k := by
  obtain ⟨p, dp, hp⟩ := bsum_polynomial m (fun k => x k - y k)
  have p0 : p = 0 := by
    refine Polynomial.eq_zero_of_degree_lt_of_eval_finset_eq_zero T ?_ ?_
    · exact lt_of_lt_of_le dp (by exact_mod_cast hT)
    · intro t ht
      rw [hp, bsum_sub, h t ht, sub_self]
  have h2 := bsum_zero_coeff m (fun k => x k - y k) (fun t => by rw [← hp, p0]; simp)
  intro k hk
  linarith [h2 k hk]

/-! ### The claims -/

/-- **C93**: two curves with `N` control points that agree at `N` different parameters have the same
control points. -/
theorem C93_bezier (b b' : Bezier P N) (T : Finset ℝ) (hT : N ≤ T.card)
    (h : ∀ t ∈ T, b.eval t = b'.eval t) : b.control_points = b'.control_points := by
  rcases Nat.eq_zero_or_pos N with rfl | hN
  · funext k; exact k.elim0
  funext k
  apply point_ext
  intro i
  have h1 : ∀ t ∈ T, bsum (N - 1) (fun k => coord (extend b.control_points k) i) t
      = bsum (N - 1) (fun k => coord (extend b'.control_points k) i) t := by
    intro t ht
    have h2 := h t ht
    obtain ⟨q, hq, hc⟩ := C30_eval b hN t
    obtain ⟨q', hq', hc'⟩ := C30_eval b' hN t
    rw [hq, hq'] at h2
    have h3 := hc i
    rw [Option.some.inj h2, hc' i, bezierCoord_eq_bsum hN, bezierCoord_eq_bsum hN] at h3
    exact h3.symm
  have := bsum_unique (by omega) h1 k.val (by omega)
  simpa only [extend_lt _ k.isLt] using this

/-- The number of parameters in `C93_bezier` is the least possible: the curve with all control
points zero and a curve of degree `n` with non-zero control points agree at `n` parameters. -/
theorem C93_sharp : ∃ (b b' : Bezier (PointN ℝ 1) 3) (T : Finset ℝ), T.card = 2 ∧
    (∀ t ∈ T, b.eval t = b'.eval t) ∧ b.control_points ≠ b'.control_points := by
  refine ⟨⟨fun k => ⟨fun _ => if k.val = 1 then 1 else 0⟩⟩, ⟨fun _ => ⟨fun _ => 0⟩⟩, {0, 1}, by simp,
    ?_, ?_⟩
  · intro t ht
    have h := C31_endpoints (P := PointN ℝ 1) (N := 3)
    rcases (by simpa using ht : t = 0 ∨ t = 1) with rfl | rfl
    · rw [(h _ (by norm_num)).1, (h _ (by norm_num)).1]
      rfl
    · rw [(h _ (by norm_num)).2, (h _ (by norm_num)).2]
      rfl
  · intro h
    have := congrArg PointN.coords (congrFun h 1)
    have := congrFun this 0
    simp at this

/-- **C93**: the same for the specialised curves, and `==` on them is equality of the curves. -/
theorem C93_specialised (l l' : LineSegment P) (q q' : QuadraticBezier P) (c c' : CubicBezier P)
    (T : Finset ℝ) :
    (2 ≤ T.card → (l.eq l' = true ↔ ∀ t ∈ T, l.eval t = l'.eval t)) ∧
    (3 ≤ T.card → (q.eq q' = true ↔ ∀ t ∈ T, q.eval t = q'.eval t)) ∧
    (4 ≤ T.card → (c.eq c' = true ↔ ∀ t ∈ T, c.eval t = c'.eval t)) := by
  have pe : ∀ a b : P, Point.eq a b = true ↔ a = b := fun a b => by
    rw [LawfulPoint.eq_iff]
    exact ⟨point_ext, fun h i => by rw [h]⟩
  refine ⟨fun hT => ⟨fun h t _ => ?_, fun h => ?_⟩, fun hT => ⟨fun h t _ => ?_, fun h => ?_⟩,
    fun hT => ⟨fun h t _ => ?_, fun h => ?_⟩⟩
  · unfold LineSegment.eq at h
    simp only [Bool.and_eq_true, pe] at h
    unfold LineSegment.eval
    rw [h.1, h.2]
  · have h1 := C93_bezier (Bezier.new ![l.start, l.end_]) (Bezier.new ![l'.start, l'.end_]) T hT
      (fun t ht => by
        have e := (C32_line l.start l.end_ t)
        have e' := (C32_line l'.start l'.end_ t)
        rw [e, e']
        exact congrArg some (h t ht))
    unfold LineSegment.eq
    simp only [Bool.and_eq_true, pe]
    exact ⟨congrFun h1 0, congrFun h1 1⟩
  · unfold QuadraticBezier.eq at h
    simp only [Bool.and_eq_true, pe] at h
    unfold QuadraticBezier.eval
    rw [h.1.1, h.1.2, h.2]
  · have h1 := C93_bezier (Bezier.new ![q.start, q.ctrl, q.end_])
      (Bezier.new ![q'.start, q'.ctrl, q'.end_]) T hT
      (fun t ht => by
        have e := (C32_quadratic_eval q.start q.ctrl q.end_ t)
        have e' := (C32_quadratic_eval q'.start q'.ctrl q'.end_ t)
        rw [e, e']
        exact congrArg some (h t ht))
    unfold QuadraticBezier.eq
    simp only [Bool.and_eq_true, pe]
    exact ⟨⟨congrFun h1 0, congrFun h1 1⟩, congrFun h1 2⟩
  · unfold CubicBezier.eq at h
    simp only [Bool.and_eq_true, pe] at h
    unfold CubicBezier.eval
    rw [h.1.1.1, h.1.1.2, h.1.2, h.2]
  · have h1 := C93_bezier (Bezier.new ![c.start, c.ctrl1, c.ctrl2, c.end_])
      (Bezier.new ![c'.start, c'.ctrl1, c'.ctrl2, c'.end_]) T hT
      (fun t ht => by
        have e := (C32_cubic_eval c.start c.ctrl1 c.ctrl2 c.end_ t)
        have e' := (C32_cubic_eval c'.start c'.ctrl1 c'.ctrl2 c'.end_ t)
        rw [e, e']
        exact congrArg some (h t ht))
    unfold CubicBezier.eq
    simp only [Bool.and_eq_true, pe]
    exact ⟨⟨⟨congrFun h1 0, congrFun h1 1⟩, congrFun h1 2⟩, congrFun h1 3⟩

/-- The degree of the curve in a `BezierSegment`. -/
def segmentDegree : BezierSegment P → ℕ
  | .linear _ => 1
  | .quadratic _ => 2
  | .cubic _ => 3

/-- **C93**: `==` on `BezierSegment` is equality of the curves for segments of the same degree, and
never holds between segments of different degrees. -/
theorem C93_segment (a b : BezierSegment P) :
    a.eq b = true ↔ segmentDegree a = segmentDegree b ∧ ∀ t : ℝ, 0 ≤ t → t ≤ 1 → a.eval t = b.eval t := by
  have T4 : ∃ T : Finset ℝ, 4 ≤ T.card ∧ ∀ t ∈ T, 0 ≤ t ∧ t ≤ 1 := by
    refine ⟨{0, 1 / 3, 2 / 3, 1}, ?_, ?_⟩
    · rw [Finset.card_insert_of_notMem (by norm_num), Finset.card_insert_of_notMem (by norm_num),
        Finset.card_insert_of_notMem (by norm_num), Finset.card_singleton]
    · intro t ht
      rcases (by simpa using ht : t = 0 ∨ t = 3⁻¹ ∨ t = 2 / 3 ∨ t = 1) with rfl | rfl | rfl | rfl <;>
        norm_num
  obtain ⟨T, hT, hT1⟩ := T4
  -- `==` implies agreement at every parameter
  have fwd : ∀ t : ℝ, a.eq b = true → a.eval t = b.eval t := by
    intro t h
    obtain ⟨T', h4, ht⟩ : ∃ T' : Finset ℝ, 4 ≤ T'.card ∧ t ∈ T' :=
      ⟨insert t T, hT.trans (Finset.card_le_card (Finset.subset_insert _ _)),
        Finset.mem_insert_self _ _⟩
    cases a with
    | linear a =>
      cases b with
      | linear b => exact ((C93_specialised a b ⟨a.start, a.start, a.start⟩ ⟨a.start, a.start, a.start⟩
          ⟨a.start, a.start, a.start, a.start⟩ ⟨a.start, a.start, a.start, a.start⟩ T').1
          (by omega)).1 h t ht
      | quadratic b => cases h
      | cubic b => cases h
    | quadratic a =>
      cases b with
      | linear b => cases h
      | quadratic b => exact ((C93_specialised ⟨a.start, a.start⟩ ⟨a.start, a.start⟩ a b
          ⟨a.start, a.start, a.start, a.start⟩ ⟨a.start, a.start, a.start, a.start⟩ T').2.1
          (by omega)).1 h t ht
      | cubic b => cases h
    | cubic a =>
      cases b with
      | linear b => cases h
      | quadratic b => cases h
      | cubic b => exact ((C93_specialised ⟨a.start, a.start⟩ ⟨a.start, a.start⟩
          ⟨a.start, a.start, a.start⟩ ⟨a.start, a.start, a.start⟩ a b T').2.2 h4).1 h t ht
  refine ⟨fun h => ⟨?_, fun t _ _ => fwd t h⟩, fun ⟨hd, h⟩ => ?_⟩
  · cases a <;> cases b <;> first | rfl | cases h
  · have h' : ∀ t ∈ T, a.eval t = b.eval t := fun t ht => h t (hT1 t ht).1 (hT1 t ht).2
    cases a with
    | linear a =>
      cases b with
      | linear b => exact ((C93_specialised a b ⟨a.start, a.start, a.start⟩ ⟨a.start, a.start, a.start⟩
          ⟨a.start, a.start, a.start, a.start⟩ ⟨a.start, a.start, a.start, a.start⟩ T).1
          (by omega)).2 h'
      | quadratic b => cases hd
      | cubic b => cases hd
    | quadratic a =>
      cases b with
      | linear b => cases hd
      | quadratic b => exact ((C93_specialised ⟨a.start, a.start⟩ ⟨a.start, a.start⟩ a b
          ⟨a.start, a.start, a.start, a.start⟩ ⟨a.start, a.start, a.start, a.start⟩ T).2.1
          (by omega)).2 h'
      | cubic b => cases hd
    | cubic a =>
      cases b with
      | linear b => cases hd
      | quadratic b => cases hd
      | cubic b => exact ((C93_specialised ⟨a.start, a.start⟩ ⟨a.start, a.start⟩
          ⟨a.start, a.start, a.start⟩ ⟨a.start, a.start, a.start⟩ a b T).2.2 hT).2 h'

/-- **C93**: the same curve stored with another degree compares as different. -/
theorem C93_degree_matters (l : LineSegment P) : ∃ q : QuadraticBezier P,
    (∀ t : ℝ, (BezierSegment.linear l).eval t = (BezierSegment.quadratic q).eval t) ∧
    (BezierSegment.linear l).eq (BezierSegment.quadratic q) = false := by
  refine ⟨⟨l.start, (l.start + l.end_) * (1 / 2 : ℝ), l.end_⟩, fun t => ?_, rfl⟩
  apply point_ext
  intro i
  show coord (l.eval t) i = coord (QuadraticBezier.eval _ t) i
  rw [C05_eval, C10_eval]
  simp
  ring

/-! ### Floating point -/

section
variable {F : FloatFormat} {n : ℕ}

open Fl

/-- A point without NaN coordinates. -/
def NaNFree (p : PointN (Fl F) n) : Prop := ∀ i, p.coords i ≠ nan

theorem pointN_eq_iff (p q : PointN (Fl F) n) : Point.eq p q = true ↔ p = q ∧ NaNFree p := by
  show PointN.eq p q = true ↔ _
  unfold PointN.eq
  rw [List.all_eq_true]
  constructor
  · intro h
    have h' : ∀ i, p.coords i = q.coords i ∧ p.coords i ≠ nan := fun i =>
      (eq_iff _ _).1 (h i (List.mem_finRange i))
    exact ⟨pointN_ext fun i => (h' i).1, fun i => (h' i).2⟩
  · rintro ⟨rfl, h⟩ i _
    exact (eq_iff _ _).2 ⟨rfl, h i⟩

/-- **C93**, floating point: `==` holds exactly between curves with the same coordinates none of
which is NaN.  So it is symmetric and transitive, and a curve equals itself exactly if it has no
NaN coordinate.  (The model does not distinguish 0.0 from -0.0, which `==` does not either.) -/
theorem C93_float (l l' : LineSegment (PointN (Fl F) n)) (q q' : QuadraticBezier (PointN (Fl F) n))
    (c c' : CubicBezier (PointN (Fl F) n)) :
    (l.eq l' = true ↔ l = l' ∧ NaNFree l.start ∧ NaNFree l.end_) ∧
    (q.eq q' = true ↔ q = q' ∧ NaNFree q.start ∧ NaNFree q.ctrl ∧ NaNFree q.end_) ∧
    (c.eq c' = true ↔
      c = c' ∧ NaNFree c.start ∧ NaNFree c.ctrl1 ∧ NaNFree c.ctrl2 ∧ NaNFree c.end_) := by
  refine ⟨?_, ?_, ?_⟩
  · unfold LineSegment.eq
    simp only [Bool.and_eq_true, pointN_eq_iff]
    cases l; cases l'
    simp only [LineSegment.mk.injEq]
    tauto
  · unfold QuadraticBezier.eq
    simp only [Bool.and_eq_true, pointN_eq_iff]
    cases q; cases q'
    simp only [QuadraticBezier.mk.injEq]
    tauto
  · unfold CubicBezier.eq
    simp only [Bool.and_eq_true, pointN_eq_iff]
    cases c; cases c'
    simp only [CubicBezier.mk.injEq]
    tauto

/-- A curve with a NaN coordinate differs from itself. -/
example : ∃ l : LineSegment (PointN (Fl F) 1), l.eq l = false :=
  ⟨⟨⟨fun _ => nan⟩, ⟨fun _ => nan⟩⟩, rfl⟩

end

/-! ### Mutable iteration over a point -/

/-- **C93**: iterating mutably over a point visits the coordinates in order of the axes: after
`for (i, x) in (&mut p).into_iter().enumerate() { *x = f(i, *x) }`, `axis(i)` is `f(i, axis(i))` for
every existing axis, in any arithmetic; writing one coordinate leaves the others unchanged. -/
theorem C93_iter_mut {S : Type} [Scalar S] {n : ℕ} (p : PointN S n) (f : ℕ → S → S) (i : ℕ) :
    Point.axis (p.iterMut f) i = (Point.axis p i).map (f i) := by
  show PointN.axis (p.iterMut f) i = (PointN.axis p i).map (f i)
  unfold PointN.axis
  split_ifs with h
  · unfold Arr.get?
    by_cases hi : i < n
    · simp [hi, PointN.iterMut]
    · simp [hi]
  · rfl

/-- The hypotheses of `C93_bezier` are met: two different cubics, which therefore differ at one of
any four parameters. -/
example : ∃ (b b' : Bezier (PointN ℝ 2) 4) (T : Finset ℝ), 4 ≤ T.card ∧
    b.control_points ≠ b'.control_points ∧ ∃ t ∈ T, b.eval t ≠ b'.eval t := by
  refine ⟨Bezier.new fun k => pt2 k.val (k.val ^ 2), Bezier.new fun k => pt2 k.val 0,
    {0, 1, 2, 3}, ?_, ?_, ?_⟩
  · rw [Finset.card_insert_of_notMem (by norm_num), Finset.card_insert_of_notMem (by norm_num),
      Finset.card_insert_of_notMem (by norm_num), Finset.card_singleton]
  all_goals
    have hne : (Bezier.new fun k : Fin 4 => pt2 (k.val : ℝ) ((k.val : ℝ) ^ 2)).control_points
        ≠ (Bezier.new fun k : Fin 4 => pt2 (k.val : ℝ) 0).control_points := by
      intro h
      have := congrArg (fun p => coord p 1) (congrFun h 1)
      simp [Bezier.new] at this
  · exact hne
  · by_contra hcon
    push Not at hcon
    refine hne (C93_bezier _ _ _ ?_ hcon)
    rw [Finset.card_insert_of_notMem (by norm_num), Finset.card_insert_of_notMem (by norm_num),
      Finset.card_insert_of_notMem (by norm_num), Finset.card_singleton]

/-! ### Through the `Spline` trait -/

/-- **C30** for code that is generic over `Spline`: the method of the trait gives the Bernstein sum,
too. -/
theorem C30_spline_trait (b : Bezier P N) (hN : 1 ≤ N) (t : ℝ) :
    ∃ q, Spline.eval b t = some q ∧ ∀ i, coord q i = bezierCoord b.controlPoints t i :=
  C30_eval b hN t

end Stroke
