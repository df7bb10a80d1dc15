import Verif.Props.FloatSplit
import Verif.Props.FloatLine

/-!
# Subdivision at dyadic parameters is exact (C100)

For control points on a dyadic grid (for instance integers) and a parameter `j / 2^m`, floating
point evaluation by de Casteljau and `split` make no rounding error at all, as long as the exact
results fit into the significand.
-/

set_option linter.unusedSectionVars false

namespace Stroke

open Fl

variable {F : FloatFormat} {n : ℕ}

/-- The format contains the fixed-point numbers `k / 2^a` with `p` bits and `a ≤ q`. -/
def HasDyadics (F : FloatFormat) (p q : ℕ) : Prop :=
  ∀ (k : ℤ) (a : ℕ), |k| ≤ 2 ^ p → a ≤ q → (k : ℝ) / 2 ^ a ∈ F.grid ∧ |(k : ℝ) / 2 ^ a| ≤ F.max

/-- A finite multiple of `2^-a`, of size at most `M`. -/
def DyadicFl (a : ℕ) (M : ℝ) (x : Fl F) : Prop :=
  x.IsFinite ∧ |x.toReal| ≤ M ∧ ∃ k : ℤ, x.toReal = k / 2 ^ a

/-- All coordinates are multiples of `2^-a`, of size at most `M`. -/
def DyadicPoint (a : ℕ) (M : ℝ) (p : PointN (Fl F) n) : Prop := ∀ i, DyadicFl a M (p.coords i)

theorem dyadic_fits {p q a : ℕ} (hF : HasDyadics F p q) {r M : ℝ} (hr : |r| ≤ M)
    (hk : ∃ k : ℤ, r = k / 2 ^ a) (hM : M * 2 ^ a ≤ 2 ^ p) (ha : a ≤ q) :
    r ∈ F.grid ∧ |r| ≤ F.max := by
  obtain ⟨k, rfl⟩ := hk
  refine hF k a ?_ ha
  have h2 : (0 : ℝ) < 2 ^ a := by positivity
  rw [abs_div, abs_of_pos h2, div_le_iff₀ h2] at hr
  have : |(k : ℝ)| ≤ 2 ^ p := hr.trans hM
  exact_mod_cast this

theorem dyadic_round {p q a : ℕ} (hF : HasDyadics F p q) {r M : ℝ} (hr : |r| ≤ M)
    (hk : ∃ k : ℤ, r = k / 2 ^ a) (hM : M * 2 ^ a ≤ 2 ^ p) (ha : a ≤ q) :
    DyadicFl a M (F.round r) ∧ (F.round r).toReal = r := by
  rw [F.round_of_mem (dyadic_fits hF hr hk hM ha)]
  exact ⟨⟨trivial, hr, hk⟩, rfl⟩

/-- Sums. -/
theorem DyadicFl.add {p q a : ℕ} (hF : HasDyadics F p q) {x y : Fl F} {M B : ℝ}
    (hx : DyadicFl a M x) (hy : DyadicFl a M y) (hB : |x.toReal + y.toReal| ≤ B)
    (h : B * 2 ^ a ≤ 2 ^ p) (ha : a ≤ q) :
    DyadicFl a B (x + y) ∧ (x + y).toReal = x.toReal + y.toReal := by
  obtain ⟨fx, _, k, ek⟩ := hx
  obtain ⟨fy, _, l, el⟩ := hy
  obtain ⟨r, hr, rfl⟩ := isFinite_iff.1 fx
  obtain ⟨s, hs, rfl⟩ := isFinite_iff.1 fy
  rw [fin_add]
  exact dyadic_round hF hB ⟨k + l, by
    rw [toReal_fin] at ek el
    rw [ek, el]; push_cast; ring⟩ h ha

/-- Differences. -/
theorem DyadicFl.sub {p q a : ℕ} (hF : HasDyadics F p q) {x y : Fl F} {M B : ℝ}
    (hx : DyadicFl a M x) (hy : DyadicFl a M y) (hB : |x.toReal - y.toReal| ≤ B)
    (h : B * 2 ^ a ≤ 2 ^ p) (ha : a ≤ q) :
    DyadicFl a B (x - y) ∧ (x - y).toReal = x.toReal - y.toReal := by
  obtain ⟨fx, _, k, ek⟩ := hx
  obtain ⟨fy, _, l, el⟩ := hy
  obtain ⟨r, hr, rfl⟩ := isFinite_iff.1 fx
  obtain ⟨s, hs, rfl⟩ := isFinite_iff.1 fy
  rw [fin_sub]
  exact dyadic_round hF hB ⟨k - l, by
    rw [toReal_fin] at ek el
    rw [ek, el]; push_cast; ring⟩ h ha

/-- Products. -/
theorem DyadicFl.mul {p q a m : ℕ} (hF : HasDyadics F p q) {x y : Fl F} {M L B : ℝ}
    (hx : DyadicFl a M x) (hy : DyadicFl m L y) (hB : |x.toReal * y.toReal| ≤ B)
    (h : B * 2 ^ (a + m) ≤ 2 ^ p) (ha : a + m ≤ q) :
    DyadicFl (a + m) B (x * y) ∧ (x * y).toReal = x.toReal * y.toReal := by
  obtain ⟨fx, _, k, ek⟩ := hx
  obtain ⟨fy, _, l, el⟩ := hy
  obtain ⟨r, hr, rfl⟩ := isFinite_iff.1 fx
  obtain ⟨s, hs, rfl⟩ := isFinite_iff.1 fy
  rw [fin_mul]
  exact dyadic_round hF hB ⟨k * l, by
    rw [toReal_fin] at ek el
    rw [ek, el, pow_add]; push_cast; field_simp⟩ h ha

/-- A finer grid contains the coarser one. -/
theorem DyadicFl.mono {a b : ℕ} {M L : ℝ} {x : Fl F} (hx : DyadicFl a M x) (hab : a ≤ b)
    (hM : M ≤ L) : DyadicFl b L x := by
  obtain ⟨f, h, k, e⟩ := hx
  refine ⟨f, h.trans hM, k * 2 ^ (b - a), ?_⟩
  rw [e]
  have : (2 : ℝ) ^ b = 2 ^ a * 2 ^ (b - a) := by rw [← pow_add]; congr 1; omega
  rw [this]; push_cast; field_simp

theorem DyadicPoint.mono {a b : ℕ} {M L : ℝ} {p : PointN (Fl F) n} (hp : DyadicPoint a M p)
    (hab : a ≤ b) (hM : M ≤ L) : DyadicPoint b L p := fun i => (hp i).mono hab hM

section Lerp
variable {p q a m : ℕ} {M : ℝ}

/-- The parameter: a dyadic number in [0, 1]. -/
def DyadicParam (m : ℕ) (t : Fl F) : Prop := DyadicFl m 1 t ∧ 0 ≤ t.toReal

theorem pow_fits {b c : ℕ} {B L : ℝ} (hb : b ≤ c) (hB0 : 0 ≤ B) (hBL : B ≤ L)
    (h : L * 2 ^ c ≤ (2 : ℝ) ^ p) : B * 2 ^ b ≤ (2 : ℝ) ^ p :=
  (mul_le_mul hBL (pow_le_pow_right₀ (by norm_num) hb) (by positivity) (hB0.trans hBL)).trans h

/-- `x + (y - x) * t` is exact. -/
theorem lerp_exact (hF : HasDyadics F p q) {x y t : Fl F} (hx : DyadicFl a M x)
    (hy : DyadicFl a M y) (ht : DyadicParam m t) (h : 2 * M * 2 ^ (a + m) ≤ 2 ^ p)
    (hq : a + m ≤ q) : DyadicFl (a + m) M (x + (y - x) * t) ∧
      (x + (y - x) * t).toReal = x.toReal + (y.toReal - x.toReal) * t.toReal := by
  have M0 : 0 ≤ M := (abs_nonneg _).trans hx.2.1
  have t0 := ht.2
  have t1 : t.toReal ≤ 1 := (le_abs_self _).trans ht.1.2.1
  have hx' := abs_le.1 hx.2.1
  have hy' := abs_le.1 hy.2.1
  have hd : |y.toReal - x.toReal| ≤ 2 * M := by rw [abs_le]; constructor <;> linarith
  obtain ⟨d1, e1⟩ := hy.sub hF hx (B := 2 * M) hd
    (pow_fits (by omega) (by linarith) le_rfl h) (by omega)
  obtain ⟨d2, e2⟩ := d1.mul hF ht.1 (B := 2 * M) (by
    rw [e1, abs_mul, abs_of_nonneg t0]
    nlinarith [abs_nonneg (y.toReal - x.toReal)]) h hq
  have d3 := hx.mono (show a ≤ a + m by omega) (show M ≤ 2 * M by linarith)
  have hB : |x.toReal + ((y - x) * t).toReal| ≤ M := by
    rw [e2, e1]
    have := abs_lerp_le t0 t1 hx.2.1 hy.2.1
    rwa [show x.toReal + (y.toReal - x.toReal) * t.toReal
      = (1 - t.toReal) * x.toReal + t.toReal * y.toReal by ring]
  obtain ⟨d4, e4⟩ := d3.add hF d2 hB (pow_fits le_rfl M0 (by linarith) h) hq
  exact ⟨d4, by rw [e4, e2, e1]⟩

/-- `x * (-t + 1) + y * t` is exact. -/
theorem lerp_exact' (hF : HasDyadics F p q) {x y t : Fl F} (hx : DyadicFl a M x)
    (hy : DyadicFl a M y) (ht : DyadicParam m t) (hM : 1 ≤ M) (h : M * 2 ^ (a + m) ≤ 2 ^ p)
    (hq : a + m ≤ q) : DyadicFl (a + m) M (x * (-t + lit 1) + y * t) ∧
      (x * (-t + lit 1) + y * t).toReal
        = x.toReal * (-t.toReal + 1) + y.toReal * t.toReal := by
  have M0 : 0 ≤ M := (abs_nonneg _).trans hx.2.1
  have t0 := ht.2
  have t1 : t.toReal ≤ 1 := (le_abs_self _).trans ht.1.2.1
  have hn : DyadicFl m 1 (-t) ∧ (-t).toReal = -t.toReal := by
    obtain ⟨⟨f, b, k, e⟩, _⟩ := ht
    obtain ⟨r, hr, rfl⟩ := isFinite_iff.1 f
    rw [fin_neg]
    refine ⟨⟨trivial, by simpa using b, -k, ?_⟩, rfl⟩
    rw [toReal_fin] at e ⊢
    rw [e]; push_cast; ring
  have h1 : DyadicFl m 1 (lit 1 : Fl F) := by
    rw [lit_one]
    exact ⟨trivial, by simp, 2 ^ m, by rw [toReal_fin]; push_cast; field_simp⟩
  have e0 : (lit 1 : Fl F).toReal = 1 := by rw [lit_one]; rfl
  obtain ⟨d1, e1⟩ := hn.1.add hF h1 (B := 1) (by
    rw [hn.2, e0, abs_le]; constructor <;> linarith)
    (pow_fits (by omega) (by norm_num) hM h) (by omega)
  rw [hn.2, e0] at e1
  have s0 : 0 ≤ -t.toReal + 1 := by linarith
  obtain ⟨d2, e2⟩ := hx.mul hF d1 (B := M) (by
    rw [e1, abs_mul, abs_of_nonneg s0]
    nlinarith [abs_nonneg x.toReal, hx.2.1]) h hq
  obtain ⟨d3, e3⟩ := hy.mul hF ht.1 (B := M) (by
    rw [abs_mul, abs_of_nonneg t0]
    nlinarith [abs_nonneg y.toReal, hy.2.1]) h hq
  have hB : |(x * (-t + lit 1)).toReal + (y * t).toReal| ≤ M := by
    rw [e2, e3, e1]
    have := abs_lerp_le t0 t1 hx.2.1 hy.2.1
    rwa [show x.toReal * (-t.toReal + 1) + y.toReal * t.toReal
      = (1 - t.toReal) * x.toReal + t.toReal * y.toReal by ring]
  obtain ⟨d4, e4⟩ := d2.add hF d3 hB h hq
  exact ⟨d4, by rw [e4, e3, e2, e1]⟩

/-- The same for points. -/
theorem lerp_point (hF : HasDyadics F p q) {x y : PointN (Fl F) n} {t : Fl F}
    (hx : DyadicPoint a M x) (hy : DyadicPoint a M y) (ht : DyadicParam m t)
    (h : 2 * M * 2 ^ (a + m) ≤ 2 ^ p) (hq : a + m ≤ q) :
    DyadicPoint (a + m) M (x + (y - x) * t) ∧
      (x + (y - x) * t).real = x.real + (y.real - x.real) * t.toReal := by
  refine ⟨fun i => (lerp_exact hF (hx i) (hy i) ht h hq).1, ?_⟩
  unfold PointN.real
  congr 1
  funext i
  exact (lerp_exact hF (hx i) (hy i) ht h hq).2

theorem lerp_point' (hF : HasDyadics F p q) {x y : PointN (Fl F) n} {t : Fl F}
    (hx : DyadicPoint a M x) (hy : DyadicPoint a M y) (ht : DyadicParam m t) (hM : 1 ≤ M)
    (h : M * 2 ^ (a + m) ≤ 2 ^ p) (hq : a + m ≤ q) :
    DyadicPoint (a + m) M (x * (-t + lit 1) + y * t) ∧
      (x * (-t + lit 1) + y * t).real = x.real * (-t.toReal + lit 1) + y.real * t.toReal := by
  refine ⟨fun i => (lerp_exact' hF (hx i) (hy i) ht hM h hq).1, ?_⟩
  unfold PointN.real
  have l1 : (lit 1 : ℝ) = 1 := by simp [lit_real]
  rw [l1]
  congr 1
  funext i
  exact (lerp_exact' hF (hx i) (hy i) ht hM h hq).2

end Lerp

/-! ### Evaluation and splitting -/

section Curves
variable {p q a m : ℕ} {M : ℝ}

/-- **C100**, `LineSegment::eval`: with control points on the grid of multiples of `2^-a` and a
parameter on the grid of multiples of `2^-m`, the computed point is the exact point. -/
theorem C100_line (hF : HasDyadics F p q) (l : LineSegment (PointN (Fl F) n)) {t : Fl F}
    (hs : DyadicPoint a M l.start) (hd : DyadicPoint a M l.end_) (ht : DyadicParam m t)
    (h : 2 * M * 2 ^ (a + m) ≤ 2 ^ p) (hq : a + m ≤ q) :
    DyadicPoint (a + m) M (l.eval t) ∧ (l.eval t).real = l.real.eval t.toReal :=
  lerp_point hF hs hd ht h hq

/-- **C100**, quadratic curves: the computed point and both computed parts are exact. -/
theorem C100_quadratic (hF : HasDyadics F p q) (c : QuadraticBezier (PointN (Fl F) n)) {t : Fl F}
    (hs : DyadicPoint a M c.start) (hc : DyadicPoint a M c.ctrl) (hd : DyadicPoint a M c.end_)
    (ht : DyadicParam m t) (M0 : 0 ≤ M) (h : 2 * M * 2 ^ (a + 2 * m) ≤ 2 ^ p) (hq : a + 2 * m ≤ q) :
    (c.evalCasteljau t).real = c.real.eval t.toReal ∧
    (c.split t).1.real = (c.real.split t.toReal).1 ∧
    (c.split t).2.real = (c.real.split t.toReal).2 ∧
    ∀ x ∈ (c.split t).1.controlPoints ++ (c.split t).2.controlPoints ++ [c.evalCasteljau t],
      DyadicPoint (a + 2 * m) M x := by
  have fit : ∀ b, b ≤ a + 2 * m → 2 * M * 2 ^ b ≤ (2 : ℝ) ^ p := fun b hb =>
    pow_fits hb (by linarith) le_rfl h
  obtain ⟨d1, e1⟩ := lerp_point hF hs hc ht (fit _ (by omega)) (by omega)
  obtain ⟨d2, e2⟩ := lerp_point hF hc hd ht (fit _ (by omega)) (by omega)
  obtain ⟨d3, e3⟩ := lerp_point hF d1 d2 ht (fit _ (by omega)) (by omega)
  rw [show a + m + m = a + 2 * m by ring] at d3
  have e4 : (c.evalCasteljau t).real = c.real.evalCasteljau t.toReal := by
    show PointN.real (_ + _) = _
    rw [e3, e1, e2]
    rfl
  refine ⟨?_, ?_, ?_, ?_⟩
  · rw [e4, ← C10_methods_agree]
  · simp only [QuadraticBezier.split, QuadraticBezier.real, e1, e2, e3]
  · simp only [QuadraticBezier.split, QuadraticBezier.real, e1, e2, e3]
  · intro x hx
    simp only [QuadraticBezier.split, QuadraticBezier.controlPoints, List.mem_append,
      List.mem_cons, List.not_mem_nil, or_false] at hx
    have d1' := d1.mono (show a + m ≤ a + 2 * m by omega) le_rfl
    have d2' := d2.mono (show a + m ≤ a + 2 * m by omega) le_rfl
    have ds := hs.mono (show a ≤ a + 2 * m by omega) le_rfl
    have dd := hd.mono (show a ≤ a + 2 * m by omega) le_rfl
    rcases hx with ((rfl | rfl | rfl) | rfl | rfl | rfl) | rfl <;> assumption

/-- **C100**, cubic curves: the computed point and both computed parts are exact. -/
theorem C100_cubic (hF : HasDyadics F p q) (c : CubicBezier (PointN (Fl F) n)) {t : Fl F}
    (hs : DyadicPoint a M c.start) (hc : DyadicPoint a M c.ctrl1) (hc' : DyadicPoint a M c.ctrl2)
    (hd : DyadicPoint a M c.end_)
    (ht : DyadicParam m t) (M0 : 0 ≤ M) (h : 2 * M * 2 ^ (a + 3 * m) ≤ 2 ^ p) (hq : a + 3 * m ≤ q) :
    (c.evalCasteljau t).real = c.real.eval t.toReal ∧
    (c.split t).1.real = (c.real.split t.toReal).1 ∧
    (c.split t).2.real = (c.real.split t.toReal).2 ∧
    ∀ x ∈ (c.split t).1.controlPoints ++ (c.split t).2.controlPoints ++ [c.evalCasteljau t],
      DyadicPoint (a + 3 * m) M x := by
  have fit : ∀ b, b ≤ a + 3 * m → 2 * M * 2 ^ b ≤ (2 : ℝ) ^ p := fun b hb =>
    pow_fits hb (by linarith) le_rfl h
  obtain ⟨d1, e1⟩ := lerp_point hF hs hc ht (fit _ (by omega)) (by omega)
  obtain ⟨d2, e2⟩ := lerp_point hF hc hc' ht (fit _ (by omega)) (by omega)
  obtain ⟨d3, e3⟩ := lerp_point hF hc' hd ht (fit _ (by omega)) (by omega)
  obtain ⟨d4, e4⟩ := lerp_point hF d1 d2 ht (fit _ (by omega)) (by omega)
  obtain ⟨d5, e5⟩ := lerp_point hF d2 d3 ht (fit _ (by omega)) (by omega)
  obtain ⟨d6, e6⟩ := lerp_point hF d4 d5 ht (fit _ (by omega)) (by omega)
  rw [show a + m + m + m = a + 3 * m by ring] at d6
  have e7 : (c.evalCasteljau t).real = c.real.evalCasteljau t.toReal := by
    show PointN.real (_ + _) = _
    rw [e6, e4, e5, e1, e2, e3]
    rfl
  refine ⟨?_, ?_, ?_, ?_⟩
  · rw [e7, ← C20_methods_agree]
  · simp only [CubicBezier.split, CubicBezier.real, e1, e2, e3, e4, e5, e6]
  · simp only [CubicBezier.split, CubicBezier.real, e1, e2, e3, e4, e5, e6]
  · intro x hx
    simp only [CubicBezier.split, CubicBezier.controlPoints, List.mem_append,
      List.mem_cons, List.not_mem_nil, or_false] at hx
    have d1' := d1.mono (show a + m ≤ a + 3 * m by omega) le_rfl
    have d3' := d3.mono (show a + m ≤ a + 3 * m by omega) le_rfl
    have d4' := d4.mono (show a + m + m ≤ a + 3 * m by omega) le_rfl
    have d5' := d5.mono (show a + m + m ≤ a + 3 * m by omega) le_rfl
    have ds := hs.mono (show a ≤ a + 3 * m by omega) le_rfl
    have dd := hd.mono (show a ≤ a + 3 * m by omega) le_rfl
    rcases hx with ((rfl | rfl | rfl | rfl) | rfl | rfl | rfl | rfl) | rfl <;> assumption

/-- The de Casteljau triangle is exact. -/
theorem cas_exact (hF : HasDyadics F p q) {x : ℕ → PointN (Fl F) n} {t : Fl F} {d : ℕ}
    (hx : ∀ k, DyadicPoint a M (x k)) (ht : DyadicParam m t) (hM : 1 ≤ M)
    (h : M * 2 ^ (a + d * m) ≤ 2 ^ p) (hq : a + d * m ≤ q) (r : ℕ) (hr : r ≤ d) (j : ℕ) :
    DyadicPoint (a + r * m) M (cas x t r j) ∧
      (cas x t r j).real = cas (fun k => (x k).real) t.toReal r j := by
  induction r generalizing j with
  | zero => exact ⟨by simpa [cas] using hx j, rfl⟩
  | succ r ih =>
    obtain ⟨d1, e1⟩ := ih (by omega) j
    obtain ⟨d2, e2⟩ := ih (by omega) (j + 1)
    have hle : (r + 1) * m ≤ d * m := Nat.mul_le_mul_right m hr
    have hadd : (r + 1) * m = r * m + m := by ring
    obtain ⟨d3, e3⟩ := lerp_point' hF d1 d2 ht hM
      (pow_fits (c := a + d * m) (by omega) (by linarith) le_rfl h) (by omega)
    refine ⟨?_, ?_⟩
    · rw [hadd, ← Nat.add_assoc]; exact d3
    · show PointN.real (_ * _ + _ * _) = _
      rw [e3, e1, e2]
      rfl

theorem zero_dyadic (hM : 0 ≤ M) : DyadicPoint a M (Point.default : PointN (Fl F) n) := by
  intro i
  show DyadicFl a M (lit 0 : Fl F)
  rw [lit_zero]
  exact ⟨trivial, by simpa using hM, 0, by simp⟩

theorem real_extend {N : ℕ} (b : Bezier (PointN (Fl F) n) N) :
    (fun k => (extend b.control_points k).real) = extend b.real.control_points := by
  funext k
  unfold extend
  split_ifs with hk
  · rfl
  · unfold PointN.real
    show (⟨fun _ => (lit 0 : Fl F).toReal⟩ : PointN ℝ n) = ⟨fun _ => (lit 0 : ℝ)⟩
    rw [lit_zero, toReal_fin, lit_real]
    simp

/-- **C100**, curves of any degree: the computed point and both computed parts are exact. -/
theorem C100_bezier {N : ℕ} (hN : 1 ≤ N) (hF : HasDyadics F p q)
    (b : Bezier (PointN (Fl F) n) N) {t : Fl F} (hb : ∀ k, DyadicPoint a M (b.control_points k))
    (ht : DyadicParam m t) (hM : 1 ≤ M) (h : M * 2 ^ (a + (N - 1) * m) ≤ 2 ^ p)
    (hq : a + (N - 1) * m ≤ q) :
    (∃ x, b.eval t = some x ∧ b.real.eval t.toReal = some x.real) ∧
    ∃ l r, b.split t = some (l, r) ∧ b.real.split t.toReal = some (l.real, r.real) ∧
      ∀ k, DyadicPoint (a + (N - 1) * m) M (l.control_points k) ∧
        DyadicPoint (a + (N - 1) * m) M (r.control_points k) := by
  have hx : ∀ k, DyadicPoint a M (extend b.control_points k) := by
    intro k
    unfold extend
    split_ifs with hk
    · exact hb _
    · exact zero_dyadic (by linarith)
  have key := cas_exact hF hx ht hM h hq
  rw [real_extend] at key
  constructor
  · refine ⟨_, bezier_eval_cas b hN t, ?_⟩
    rw [bezier_eval_cas _ hN, (key (N - 1) le_rfl 0).2]
  · refine ⟨_, _, bezier_split_cas b t, ?_, fun k => ⟨?_, ?_⟩⟩
    · rw [bezier_split_cas]
      congr 2
      · unfold Bezier.real
        congr 1
        funext k
        exact ((key k.val (by omega) 0).2).symm
      · unfold Bezier.real
        congr 1
        funext k
        exact ((key (N - 1 - k.val) (by omega) k.val).2).symm
    · exact ((key k.val (by omega) 0).1).mono
        (Nat.add_le_add_left (Nat.mul_le_mul_right m (by omega)) a) le_rfl
    · exact ((key (N - 1 - k.val) (by omega) k.val).1).mono
        (Nat.add_le_add_left (Nat.mul_le_mul_right m (by omega)) a) le_rfl

/-! ### Repeated subdivision -/

/-- The same path of splits for the exact curve. -/
noncomputable def CubicBezier.descendReal (c : CubicBezier (PointN ℝ n)) :
    List (Fl F × Bool) → CubicBezier (PointN ℝ n)
  | [] => c
  | (t, right) :: path =>
    (if right then (c.split t.toReal).2 else (c.split t.toReal).1).descendReal path

/-- **C100**, repeated subdivision of a cubic at parameters with `m` bits (for `m = 1`: at one half)
is exact as long as the results fit: every piece has exactly the control points of the piece of the
exact curve. -/
theorem C100_subdivision (hF : HasDyadics F p q) (path : List (Fl F × Bool))
    (hp : ∀ x ∈ path, DyadicParam m x.1) : ∀ (a : ℕ) (c : CubicBezier (PointN (Fl F) n)),
    DyadicPoint a M c.start → DyadicPoint a M c.ctrl1 → DyadicPoint a M c.ctrl2 →
    DyadicPoint a M c.end_ → 0 ≤ M → 2 * M * 2 ^ (a + 3 * m * path.length) ≤ (2 : ℝ) ^ p →
    a + 3 * m * path.length ≤ q → (c.descend path).real = c.real.descendReal path := by
  induction path with
  | nil => intro a c _ _ _ _ _ _ _; rfl
  | cons y path ih =>
    intro a c h1 h2 h3 h4 M0 h hq
    obtain ⟨t, right⟩ := y
    rw [List.length_cons] at h hq
    have e : a + 3 * m * (path.length + 1) = a + 3 * m + 3 * m * path.length := by ring
    rw [e] at h hq
    obtain ⟨_, el, er, hall⟩ := C100_cubic hF c h1 h2 h3 h4 (hp _ List.mem_cons_self) M0
      (pow_fits (c := a + 3 * m + 3 * m * path.length) (by omega) (by linarith) le_rfl h)
      (by omega)
    have ih' := ih (fun x hx => hp x (List.mem_cons_of_mem _ hx)) (a + 3 * m)
    cases right
    · show ((c.split t).1.descend path).real = (c.real.split t.toReal).1.descendReal path
      rw [← el]
      exact ih' _ (hall _ (by simp [CubicBezier.controlPoints]))
        (hall _ (by simp [CubicBezier.controlPoints])) (hall _ (by simp [CubicBezier.controlPoints]))
        (hall _ (by simp [CubicBezier.controlPoints])) M0 h hq
    · show ((c.split t).2.descend path).real = (c.real.split t.toReal).2.descendReal path
      rw [← er]
      exact ih' _ (hall _ (by simp [CubicBezier.controlPoints]))
        (hall _ (by simp [CubicBezier.controlPoints])) (hall _ (by simp [CubicBezier.controlPoints]))
        (hall _ (by simp [CubicBezier.controlPoints])) M0 h hq

end Curves

/-! ### The IEEE formats -/

theorem ieee_dyadics (p : ℕ) (emin : ℤ) (emax : ℕ) (hp : 11 ≤ p) (he : emin ≤ 1 - p)
    (h1 : 1 ≤ emax) (cosI acosI : ℝ → ℝ) (powI : ℝ → ℝ → ℝ) :
    HasDyadics (ieee p emin emax hp he cosI acosI powI) p (-emin).toNat := by
  intro k a hk ha
  refine ⟨⟨k, -a, hk, by omega, ?_⟩, ?_⟩
  · rw [zpow_neg, zpow_natCast]
    rfl
  · show |(k : ℝ) / 2 ^ a| ≤ (2 ^ p - 1) * 2 ^ emax
    have hk' : |(k : ℝ)| ≤ 2 ^ p := by exact_mod_cast hk
    have h2 : (1 : ℝ) ≤ 2 ^ a := one_le_pow₀ (by norm_num)
    rw [abs_div, abs_of_pos (by positivity : (0 : ℝ) < 2 ^ a)]
    calc |(k : ℝ)| / 2 ^ a ≤ |(k : ℝ)| := div_le_self (abs_nonneg _) h2
      _ ≤ 2 ^ p := hk'
      _ ≤ (2 ^ p - 1) * 2 := by
        have : (2 : ℝ) ^ 1 ≤ 2 ^ p := pow_le_pow_right₀ (by norm_num) (by omega)
        linarith
      _ ≤ (2 ^ p - 1) * 2 ^ emax := by
        apply mul_le_mul_of_nonneg_left
        · calc (2 : ℝ) = 2 ^ 1 := by norm_num
            _ ≤ 2 ^ emax := pow_le_pow_right₀ (by norm_num) h1
        · have : (1 : ℝ) ≤ 2 ^ p := one_le_pow₀ (by norm_num)
          linarith

section Binary64
variable (cosI acosI : ℝ → ℝ) (powI : ℝ → ℝ → ℝ)

theorem binary64_dyadics : HasDyadics (binary64 cosI acosI powI) 53 1074 :=
  ieee_dyadics 53 (-1074) 971 _ _ (by norm_num) cosI acosI powI

theorem binary32_dyadics : HasDyadics (binary32 cosI acosI powI) 24 149 :=
  ieee_dyadics 24 (-149) 104 _ _ (by norm_num) cosI acosI powI

/-- **C100** in double precision: a cubic whose control points are integers below 2^22 can be halved
ten times without any rounding error. -/
theorem C100_binary64 (c : CubicBezier (PointN (Fl (binary64 cosI acosI powI)) n))
    (hs : DyadicPoint 0 (2 ^ 22) c.start) (hc : DyadicPoint 0 (2 ^ 22) c.ctrl1)
    (hc' : DyadicPoint 0 (2 ^ 22) c.ctrl2) (hd : DyadicPoint 0 (2 ^ 22) c.end_)
    (turns : List Bool) (h10 : turns.length ≤ 10) :
    ∃ half : Fl (binary64 cosI acosI powI), half.toReal = 1 / 2 ∧ half.IsFinite ∧
      (c.descend (turns.map fun b => (half, b))).real
        = c.real.descendReal (turns.map fun b => (half, b)) := by
  have ok := binary64_dyadics cosI acosI powI 1 1 (by norm_num) (by norm_num)
  refine ⟨fin _ ok, by simp, trivial, ?_⟩
  refine C100_subdivision (m := 1) (M := 2 ^ 22) (binary64_dyadics cosI acosI powI) _ ?_ 0 c hs hc
    hc' hd (by norm_num) ?_ ?_
  · intro x hx
    obtain ⟨b, _, rfl⟩ := List.mem_map.1 hx
    refine ⟨⟨trivial, ?_, 1, rfl⟩, ?_⟩ <;> norm_num
  · rw [List.length_map]
    calc (2 : ℝ) * 2 ^ 22 * 2 ^ (0 + 3 * 1 * turns.length) ≤ 2 * 2 ^ 22 * 2 ^ 30 := by
          apply mul_le_mul_of_nonneg_left _ (by norm_num)
          exact pow_le_pow_right₀ (by norm_num) (by omega)
      _ = 2 ^ 53 := by norm_num
  · rw [List.length_map]; omega

/-- The hypotheses hold for the points with small integer coordinates. -/
theorem smallPoint_dyadic (a b : Fin 11) {M : ℝ} (hM : 10 ≤ M) :
    DyadicPoint 0 M (smallPoint cosI acosI powI a b) := by
  intro i
  obtain ⟨f, h⟩ := smallPoint_bounded cosI acosI powI a b i
  refine ⟨f, h.trans hM, ?_⟩
  fin_cases i
  · exact ⟨(a : ℕ), by simpa using smallPoint_zero cosI acosI powI a b⟩
  · exact ⟨(b : ℕ), by simpa using smallPoint_one cosI acosI powI a b⟩

/-- A curve to which `C100_binary64` applies, and `C100_quadratic`, `C100_line` and `C100_bezier` for
the parameter 3/8. -/
example : ∃ half t : Fl (binary64 cosI acosI powI), half.toReal = 1 / 2 ∧ t.toReal = 3 / 8 ∧
    ((⟨smallPoint cosI acosI powI 0 0, smallPoint cosI acosI powI 0 9, smallPoint cosI acosI powI 7 9,
      smallPoint cosI acosI powI 7 1⟩ : CubicBezier _).descend [(half, true), (half, false)]).real
    = (⟨smallPoint cosI acosI powI 0 0, smallPoint cosI acosI powI 0 9,
        smallPoint cosI acosI powI 7 9, smallPoint cosI acosI powI 7 1⟩ :
        CubicBezier _).real.descendReal [(half, true), (half, false)] ∧
    ((⟨smallPoint cosI acosI powI 0 0, smallPoint cosI acosI powI 0 9,
      smallPoint cosI acosI powI 7 9⟩ : QuadraticBezier _).evalCasteljau t).real
    = (⟨smallPoint cosI acosI powI 0 0, smallPoint cosI acosI powI 0 9,
        smallPoint cosI acosI powI 7 9⟩ : QuadraticBezier _).real.eval (3 / 8 : ℝ) ∧
    (∃ x, (⟨![smallPoint cosI acosI powI 0 0, smallPoint cosI acosI powI 3 9]⟩ :
        Bezier _ 2).eval t = some x) := by
  have dy : ∀ a b, DyadicPoint 0 (2 ^ 22) (smallPoint cosI acosI powI a b) := fun a b =>
    smallPoint_dyadic cosI acosI powI a b (by norm_num)
  have ok := binary64_dyadics cosI acosI powI 3 3 (by norm_num) (by norm_num)
  have e : (fin _ ok : Fl (binary64 cosI acosI powI)).toReal = 3 / 8 := by norm_num
  have hp : DyadicParam 3 (fin _ ok : Fl (binary64 cosI acosI powI)) :=
    ⟨⟨trivial, by rw [e]; norm_num, 3, rfl⟩, by rw [e]; norm_num⟩
  obtain ⟨half, h1, _, h2⟩ := C100_binary64 cosI acosI powI
    (⟨smallPoint cosI acosI powI 0 0, smallPoint cosI acosI powI 0 9, smallPoint cosI acosI powI 7 9,
      smallPoint cosI acosI powI 7 1⟩ : CubicBezier _) (dy _ _) (dy _ _) (dy _ _) (dy _ _)
    [true, false] (by norm_num)
  refine ⟨half, fin _ ok, h1, e, h2, ?_, ?_⟩
  · rw [← e]
    exact (C100_quadratic (M := 2 ^ 22) (binary64_dyadics cosI acosI powI)
      (⟨smallPoint cosI acosI powI 0 0, smallPoint cosI acosI powI 0 9,
        smallPoint cosI acosI powI 7 9⟩ : QuadraticBezier _) (dy _ _) (dy _ _) (dy _ _) hp
      (by norm_num) (by norm_num) (by norm_num)).1
  · obtain ⟨x, hx, _⟩ := (C100_bezier (by norm_num) (M := 2 ^ 22)
      (binary64_dyadics cosI acosI powI)
      (⟨![smallPoint cosI acosI powI 0 0, smallPoint cosI acosI powI 3 9]⟩ : Bezier _ 2)
      (fun k => by fin_cases k <;> exact dy _ _) hp (by norm_num) (by norm_num) (by norm_num)).1
    exact ⟨x, hx⟩

end Binary64

end Stroke
