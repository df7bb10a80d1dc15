import Mathlib.Analysis.Calculus.IteratedDeriv.Defs
import Mathlib.MeasureTheory.Integral.IntervalIntegral.FundThmCalculus
import Verif.Props.Bezier

/-!
# Tangents, higher derivatives and integrals (C91)
-/

namespace Stroke

open intervalIntegral

variable {P : Type} [Point ℝ P] [LawfulPoint P] {N : ℕ}

/-- The curve behind `derivative()`, as one function: the derivative of the curve everywhere. -/
theorem bezier_derivative_curve (b : Bezier P N) (hN : 2 ≤ N) :
    ∃ (d : Bezier P (N - 1)) (f g : ℝ → P), Bezier.derivative (S := ℝ) b = some d ∧
      (∀ t, b.eval t = some (f t)) ∧ (∀ t, d.eval t = some (g t)) ∧
      (∀ t, HasPointDerivAt f (coord (g t)) t) := by
  obtain ⟨d, hd, f, v, hf, -, -⟩ := C34_derivative b hN 0
  have hg : ∀ t, ∃ q, d.eval t = some q := fun t =>
    (C30_eval d (by omega) t).imp fun q h => h.1
  choose g hg using hg
  refine ⟨d, f, g, hd, hf, hg, fun t => ?_⟩
  obtain ⟨d', hd', f', v', hf', hv', h⟩ := C34_derivative b hN t
  rw [hd] at hd'
  cases hd'
  have e1 : f' = f := funext fun u => Option.some.inj ((hf' u).symm.trans (hf u))
  rw [hg t] at hv'
  cases hv'
  rwa [e1] at h

/-! ### Tangents at the ends -/

/-- **C91**: at its ends a curve of degree `N - 1` moves along the first and the last leg of the
control polygon, `N - 1` times as fast as the leg is long. -/
theorem C91_end_tangents (b : Bezier P N) (hN : 2 ≤ N) :
    ∃ (d : Bezier P (N - 1)) (v w : P), Bezier.derivative (S := ℝ) b = some d ∧
      d.eval (0 : ℝ) = some v ∧ d.eval (1 : ℝ) = some w ∧ ∀ i,
      coord v i = (N - 1 : ℝ)
        * (coord (b.control_points ⟨1, by omega⟩) i - coord (b.control_points ⟨0, by omega⟩) i) ∧
      coord w i = (N - 1 : ℝ) * (coord (b.control_points ⟨N - 1, by omega⟩) i
        - coord (b.control_points ⟨N - 2, by omega⟩) i) := by
  obtain ⟨d, hd, hc⟩ := C35_partial (S := ℝ) b hN
  obtain ⟨h0, h1⟩ := C31_endpoints d (by omega)
  refine ⟨d, _, _, hd, h0, h1, fun i => ?_⟩
  rw [hc, hc, coord_mul, coord_sub, coord_mul, coord_sub]
  have e : (N - 2 : ℕ) + 1 = N - 1 := by omega
  have e2 : N - 1 - 1 = N - 2 := by omega
  have e3 : ((N - 1 : ℕ) : ℝ) = N - 1 := by rw [Nat.cast_sub (by omega)]; simp
  simp only [e2, e, Nat.zero_add]
  constructor <;> simp [e3] <;> ring

/-- **C91** for the specialised curves. -/
theorem C91_end_tangents_specialised (q : QuadraticBezier P) (c : CubicBezier P) (i : ℕ) :
    coord (q.derivative.eval (0 : ℝ)) i = 2 * (coord q.ctrl i - coord q.start i) ∧
    coord (q.derivative.eval (1 : ℝ)) i = 2 * (coord q.end_ i - coord q.ctrl i) ∧
    coord (c.derivative.eval (0 : ℝ)) i = 3 * (coord c.ctrl1 i - coord c.start i) ∧
    coord (c.derivative.eval (1 : ℝ)) i = 3 * (coord c.end_ i - coord c.ctrl2 i) := by
  refine ⟨?_, ?_, ?_, ?_⟩
  · rw [C05_eval]; simp [QuadraticBezier.derivative]; ring
  · rw [C05_eval]; simp [QuadraticBezier.derivative]; ring
  · rw [C10_eval]; simp [CubicBezier.derivative]; ring
  · rw [C10_eval]; simp [CubicBezier.derivative]; ring

/-! ### Tangents of the pieces of a split -/

/-- **C91**: the derivatives of the two pieces of `split(t)` are those of the whole curve, scaled
by the lengths `t` and `1 - t` of the pieces; so the pieces join without a kink. -/
theorem C91_split (b : Bezier P N) (hN : 2 ≤ N) (t s : ℝ) :
    ∃ (l r : Bezier P N) (d dl dr : Bezier P (N - 1)) (v w : P), b.split t = some (l, r) ∧
      Bezier.derivative (S := ℝ) b = some d ∧ Bezier.derivative (S := ℝ) l = some dl ∧
      Bezier.derivative (S := ℝ) r = some dr ∧
      d.eval (t * s) = some v ∧ dl.eval s = some (v * t) ∧
      d.eval (t + (1 - t) * s) = some w ∧ dr.eval s = some (w * (1 - t)) := by
  obtain ⟨l, r, hlr, h⟩ := C33_split b t
  have h := h (by omega)
  obtain ⟨d, f, g, hd, hf, hg, hfg⟩ := bezier_derivative_curve b hN
  obtain ⟨dl, fl, gl, hdl, hfl, hgl, hfgl⟩ := bezier_derivative_curve l hN
  obtain ⟨dr, fr, gr, hdr, hfr, hgr, hfgr⟩ := bezier_derivative_curve r hN
  refine ⟨l, r, d, dl, dr, g (t * s), g (t + (1 - t) * s), hlr, hd, hdl, hdr, hg _, ?_, hg _, ?_⟩
  · rw [hgl]
    congr 1
    apply point_ext
    intro i
    by_cases hi : i < Point.dim P
    · have h1 := hfgl s i hi
      have e : (fun u => coord (fl u) i) = fun u => coord (f (t * u)) i := by
        funext u
        rw [Option.some.inj ((hfl u).symm.trans ((h u).1.trans (hf _)))]
      rw [e] at h1
      have h2 := (hfg (t * s) i hi).comp s (((hasDerivAt_id s).const_mul t))
      have := h1.unique h2
      rw [this, coord_mul]
      ring
    · rw [coord_out _ hi, coord_out _ hi]
  · rw [hgr]
    congr 1
    apply point_ext
    intro i
    by_cases hi : i < Point.dim P
    · have h1 := hfgr s i hi
      have e : (fun u => coord (fr u) i) = fun u => coord (f (t + (1 - t) * u)) i := by
        funext u
        rw [Option.some.inj ((hfr u).symm.trans ((h u).2.trans (hf _)))]
      rw [e] at h1
      have h2 := (hfg (t + (1 - t) * s) i hi).comp s
        (((hasDerivAt_id s).const_mul (1 - t)).const_add t)
      have := h1.unique h2
      rw [this, coord_mul]
      ring
    · rw [coord_out _ hi, coord_out _ hi]

/-- **C91** for the specialised curves. -/
theorem C91_split_specialised (q : QuadraticBezier P) (c : CubicBezier P) (t s : ℝ) :
    (q.split t).1.derivative.eval s = q.derivative.eval (t * s) * t ∧
    (q.split t).2.derivative.eval s = q.derivative.eval (t + (1 - t) * s) * (1 - t) ∧
    (c.split t).1.derivative.eval s = c.derivative.eval (t * s) * t ∧
    (c.split t).2.derivative.eval s = c.derivative.eval (t + (1 - t) * s) * (1 - t) := by
  refine ⟨?_, ?_, ?_, ?_⟩ <;> apply point_ext <;> intro i
  · rw [coord_mul, C05_eval, C05_eval]
    simp [QuadraticBezier.derivative, QuadraticBezier.split]; ring
  · rw [coord_mul, C05_eval, C05_eval]
    simp [QuadraticBezier.derivative, QuadraticBezier.split]; ring
  · rw [coord_mul, C10_eval, C10_eval]
    simp [CubicBezier.derivative, CubicBezier.split]; ring
  · rw [coord_mul, C10_eval, C10_eval]
    simp [CubicBezier.derivative, CubicBezier.split]; ring

/-- **C91** stops at line segments: `LineSegment::split` goes from the start away from the end,
so its pieces have the derivatives `-t` and `1 + t` times that of the segment, and for `t ≠ 0` they
do not have the derivatives `t` and `1 - t` times it unless the segment is a single point. -/
theorem C91_line_split (l : LineSegment P) (t : ℝ) :
    (l.split t).1.derivative = l.derivative * (-t) ∧
    (l.split t).2.derivative = l.derivative * (1 + t) ∧
    (t ≠ 0 → l.start ≠ l.end_ → (l.split t).1.derivative ≠ l.derivative * t ∧
      (l.split t).2.derivative ≠ l.derivative * (1 - t)) := by
  have e1 : ∀ i, coord (l.split t).1.derivative i = (coord l.end_ i - coord l.start i) * (-t) := by
    intro i
    simp [LineSegment.derivative, LineSegment.split]; ring
  have e2 : ∀ i, coord (l.split t).2.derivative i
      = (coord l.end_ i - coord l.start i) * (1 + t) := by
    intro i
    simp [LineSegment.derivative, LineSegment.split]; ring
  have e0 : ∀ i, coord l.derivative i = coord l.end_ i - coord l.start i := by
    intro i
    simp [LineSegment.derivative]
  refine ⟨point_ext fun i => ?_, point_ext fun i => ?_, fun ht hne => ⟨fun h => hne ?_,
    fun h => hne ?_⟩⟩
  · rw [e1, coord_mul, e0]
  · rw [e2, coord_mul, e0]
  · refine point_ext fun i => ?_
    have h' := congrArg (fun p => coord p i) h
    simp only [e1, coord_mul, e0] at h'
    have : (coord l.end_ i - coord l.start i) * t = 0 := by linarith
    rcases mul_eq_zero.1 this with h' | h'
    · linarith
    · exact absurd h' ht
  · refine point_ext fun i => ?_
    have h' := congrArg (fun p => coord p i) h
    simp only [e2, coord_mul, e0] at h'
    have : (coord l.end_ i - coord l.start i) * t = 0 := by linarith
    rcases mul_eq_zero.1 this with h' | h'
    · linarith
    · exact absurd h' ht

example : ((⟨pt2 0 0, pt2 2 0⟩ : LineSegment (PointN ℝ 2)).split (1 : ℝ)).1.derivative
    ≠ (⟨pt2 0 0, pt2 2 0⟩ : LineSegment (PointN ℝ 2)).derivative * (1 : ℝ) :=
  ((C91_line_split _ 1).2.2 one_ne_zero (by
    intro h
    have := congrFun (congrArg PointN.coords h) 0
    norm_num [pt2, PointN.new] at this)).1

/-! ### Integrals -/

theorem continuous_bezierCoord {N : ℕ} (ps : Fin N → P) (i : ℕ) :
    Continuous fun t => bezierCoord ps t i := by
  unfold bezierCoord bernstein
  fun_prop

/-- **C91**: integrating `derivative()` between two parameters gives the difference of the points
of the curve. -/
theorem C91_integral (b : Bezier P N) (hN : 2 ≤ N) :
    ∃ (d : Bezier P (N - 1)) (f g : ℝ → P), Bezier.derivative (S := ℝ) b = some d ∧
      (∀ t, b.eval t = some (f t)) ∧ (∀ t, d.eval t = some (g t)) ∧
      ∀ x y : ℝ, ∀ i < Point.dim P,
        ∫ t in x..y, coord (g t) i = coord (f y) i - coord (f x) i := by
  obtain ⟨d, f, g, hd, hf, hg, hfg⟩ := bezier_derivative_curve b hN
  refine ⟨d, f, g, hd, hf, hg, fun x y i hi => ?_⟩
  have hc : Continuous fun t => coord (g t) i := by
    have : (fun t => coord (g t) i) = fun t => bezierCoord d.controlPoints t i := by
      funext t
      obtain ⟨q, hq, hqc⟩ := C30_eval d (by omega) t
      rw [hg t] at hq
      cases hq
      exact hqc i
    rw [this]
    exact continuous_bezierCoord _ _
  exact integral_eq_sub_of_hasDerivAt (fun t _ => hfg t i hi) (hc.intervalIntegrable _ _)

/-- **C91** for the specialised curves. -/
theorem C91_integral_specialised (l : LineSegment P) (q : QuadraticBezier P) (c : CubicBezier P)
    (x y : ℝ) {i : ℕ} (hi : i < Point.dim P) :
    ∫ _ in x..y, coord l.derivative i = coord (l.eval y) i - coord (l.eval x) i ∧
    ∫ t in x..y, coord (q.derivative.eval t) i = coord (q.eval y) i - coord (q.eval x) i ∧
    ∫ t in x..y, coord (c.derivative.eval t) i = coord (c.eval y) i - coord (c.eval x) i := by
  refine ⟨integral_eq_sub_of_hasDerivAt (fun t _ => C08_derivative l t i hi)
      (continuous_const.intervalIntegrable _ _),
    integral_eq_sub_of_hasDerivAt (fun t _ => C12_derivative q t i hi) ?_,
    integral_eq_sub_of_hasDerivAt (fun t _ => C22_derivative c t i hi) ?_⟩
  · apply Continuous.intervalIntegrable
    simp only [C05_eval]
    fun_prop
  · apply Continuous.intervalIntegrable
    simp only [C10_eval]
    fun_prop

/-! ### Higher derivatives -/

/-- `derivative()` called `k` times in a row; the number of control points goes along. -/
def derivatives {S Q : Type} [Scalar S] [Point S Q] : ℕ → (Σ M, Bezier Q M) → Option (Σ M, Bezier Q M)
  | 0, b => some b
  | k + 1, b => (derivatives k b).bind fun c => c.2.derivative.map fun d => ⟨c.1 - 1, d⟩

/-- **C91**: a curve with `N` control points can be differentiated `k < N` times; the result has
`N - k` control points and evaluates to the `k`-th derivative of every coordinate. -/
theorem C91_higher (b : Bezier P N) {k : ℕ} (hk : k < N) :
    ∃ (d : Bezier P (N - k)) (f g : ℝ → P), derivatives k ⟨N, b⟩ = some ⟨N - k, d⟩ ∧
      (∀ t, b.eval t = some (f t)) ∧ (∀ t, d.eval t = some (g t)) ∧
      ∀ t, ∀ i < Point.dim P, coord (g t) i = iteratedDeriv k (fun u => coord (f u) i) t := by
  induction k with
  | zero =>
    have hf : ∀ t, ∃ q, b.eval t = some q := fun t =>
      (C30_eval b (by omega) t).imp fun q h => h.1
    choose f hf using hf
    exact ⟨b, f, f, rfl, hf, hf, fun t i _ => by rw [iteratedDeriv_zero]⟩
  | succ k ih =>
    obtain ⟨d, f, g, hd, hf, hg, hfg⟩ := ih (by omega)
    obtain ⟨e, g', h, he, hg', hh, hder⟩ := bezier_derivative_curve d (by omega)
    have eg : g' = g := funext fun t => Option.some.inj ((hg' t).symm.trans (hg t))
    subst eg
    refine ⟨e, f, h, ?_, hf, hh, fun t i hi => ?_⟩
    · show (derivatives k ⟨N, b⟩).bind _ = _
      rw [hd]
      show (Bezier.derivative (S := ℝ) d).map _ = _
      rw [he]
      rfl
    · rw [iteratedDeriv_succ]
      have : iteratedDeriv k (fun u => coord (f u) i) = fun t => coord (g' t) i :=
        funext fun t => (hfg t i hi).symm
      rw [this]
      exact (hder t i hi).deriv.symm

/-- **C91**: differentiating once more panics, whatever the arithmetic. -/
theorem C91_higher_end {S Q : Type} [Scalar S] [Point S Q] (b : Bezier Q N) (hN : 1 ≤ N) :
    derivatives (S := S) N ⟨N, b⟩ = none := by
  have key : ∀ k (hk : k < N), ∃ d : Bezier Q (N - k), derivatives (S := S) k ⟨N, b⟩ = some ⟨N - k, d⟩ := by
    intro k
    induction k with
    | zero => exact fun _ => ⟨b, rfl⟩
    | succ k ih =>
      intro hk
      obtain ⟨d, hd⟩ := ih (by omega)
      obtain ⟨e, he, -⟩ := C35_partial (S := S) d (by omega)
      refine ⟨e, ?_⟩
      show (derivatives (S := S) k ⟨N, b⟩).bind _ = _
      rw [hd]
      show (Bezier.derivative (S := S) d).map _ = _
      rw [he]
      rfl
  obtain ⟨n, rfl⟩ : ∃ n, N = n + 1 := ⟨N - 1, by omega⟩
  obtain ⟨d, hd⟩ := key n (by omega)
  show (derivatives (S := S) n ⟨n + 1, b⟩).bind _ = _
  rw [hd]
  show (Bezier.derivative (S := S) d).map _ = _
  have : ∀ (M : ℕ) (d : Bezier Q M), M = 1 → Bezier.derivative (S := S) d = none := by
    rintro M d rfl
    exact C35_false d
  rw [this _ d (by omega)]
  rfl

/-- **C91** for the specialised curves: second and third derivatives. -/
theorem C91_higher_specialised (q : QuadraticBezier P) (c : CubicBezier P) (t : ℝ) :
    HasPointDerivAt (fun u : ℝ => q.derivative.eval u) (coord q.derivative.derivative) t ∧
    HasPointDerivAt (fun u : ℝ => c.derivative.eval u) (coord (c.derivative.derivative.eval t)) t ∧
    HasPointDerivAt (fun u : ℝ => c.derivative.derivative.eval u)
      (coord c.derivative.derivative.derivative) t :=
  ⟨C08_derivative _ t, C12_derivative _ t, C08_derivative _ t⟩

/-- A curve that meets the hypotheses, with a tangent that does not vanish. -/
example : ∃ d v, Bezier.derivative (S := ℝ) (⟨![pt2 0 0, pt2 1 1, pt2 3 0]⟩ : Bezier (PointN ℝ 2) 3)
    = some d ∧ d.eval (0 : ℝ) = some v ∧ coord v 0 = 2 := by
  obtain ⟨d, v, w, hd, h0, -, h⟩ :=
    C91_end_tangents (⟨![pt2 0 0, pt2 1 1, pt2 3 0]⟩ : Bezier (PointN ℝ 2) 3) (by norm_num)
  refine ⟨d, v, hd, h0, ?_⟩
  rw [(h 0).1]
  simp
  norm_num

end Stroke
