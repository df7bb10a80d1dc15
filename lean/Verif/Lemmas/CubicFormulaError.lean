import Verif.Props.FloatRoots
import Verif.Spec.Library
import Mathlib.Analysis.SpecialFunctions.Exponential
import Mathlib.Analysis.Complex.Exponential
import Mathlib.Analysis.SpecialFunctions.Trigonometric.Bounds
import Mathlib.Analysis.Real.Pi.Bounds

/-!
# Rounding errors of the cubic formula

The steps of `roots_cubic` with errors measured in units of `τ Bʲ`, where `B` bounds the
coefficients of the normalised equation.
-/

set_option linter.unusedSectionVars false

namespace Stroke

open Fl

variable {F : FloatFormat}

/-! ### Real arithmetic -/

theorem cube_sub_le (x y : ℝ) : |x - y| ^ 3 ≤ 4 * |x ^ 3 - y ^ 3| := by
  have h : x ^ 3 - y ^ 3 = (x - y) * (x ^ 2 + x * y + y ^ 2) := by ring
  have h0 : 0 ≤ x ^ 2 + x * y + y ^ 2 := by nlinarith [sq_nonneg (x + y), sq_nonneg x, sq_nonneg y]
  have h1 : |x - y| ^ 2 ≤ 4 * (x ^ 2 + x * y + y ^ 2) := by
    rw [sq_abs]
    nlinarith [sq_nonneg (x + y)]
  rw [h, abs_mul, abs_of_nonneg h0]
  have := mul_le_mul_of_nonneg_left h1 (abs_nonneg (x - y))
  calc |x - y| ^ 3 = |x - y| * |x - y| ^ 2 := by ring
    _ ≤ _ := this
    _ = _ := by ring

theorem cube_close {x y R e : ℝ} (hx : |x| ≤ R) (hy : |y| ≤ R) (h : |x - y| ≤ e) :
    |x ^ 3 - y ^ 3| ≤ 3 * R ^ 2 * e := by
  have R0 : 0 ≤ R := (abs_nonneg x).trans hx
  have h1 : x ^ 3 - y ^ 3 = (x ^ 2 + x * y + y ^ 2) * (x - y) := by ring
  have x2 : |x ^ 2| ≤ R ^ 2 := by rw [abs_pow]; exact pow_le_pow_left₀ (abs_nonneg _) hx 2
  have y2 : |y ^ 2| ≤ R ^ 2 := by rw [abs_pow]; exact pow_le_pow_left₀ (abs_nonneg _) hy 2
  have xy : |x * y| ≤ R ^ 2 := by
    rw [abs_mul, sq]; exact mul_le_mul hx hy (abs_nonneg _) R0
  have h2 : |x ^ 2 + x * y + y ^ 2| ≤ 3 * R ^ 2 := by
    have := abs_add_le (x ^ 2 + x * y) (y ^ 2)
    have := abs_add_le (x ^ 2) (x * y)
    linarith
  rw [h1, abs_mul]
  exact mul_le_mul h2 h (abs_nonneg _) (by positivity)

theorem prod_le {x y a b U V W : ℝ} (hx : |x| ≤ a * U) (hy : |y| ≤ b * V) (hW : U * V = W) :
    |x * y| ≤ a * b * W := by
  rw [abs_mul, ← hW]
  calc |x| * |y| ≤ (a * U) * (b * V) := mul_le_mul hx hy (abs_nonneg _) ((abs_nonneg _).trans hx)
    _ = _ := by ring

/-! ### One rounded operation -/

/-- The setting: `τ` bounds the rounding errors, `B` the coefficients, and nothing overflows. -/
structure CubicSetting (F : FloatFormat) (τ B : ℝ) : Prop where
  hu : F.u ≤ τ
  hη : F.eta ≤ τ
  τ1 : τ ≤ 1 / 1024
  B1 : 1 ≤ B
  hmax : 100 * B ^ 6 ≤ F.max

namespace CubicSetting

variable {τ B : ℝ} (H : CubicSetting F τ B)

include H

theorem τ0 : 0 ≤ τ := F.u_nonneg.trans H.hu
theorem B0 : 0 ≤ B := zero_le_one.trans H.B1

theorem pow_range (j : ℕ) (hj : j ≤ 6) : 1 ≤ B ^ j ∧ B ^ j ≤ B ^ 6 :=
  ⟨one_le_pow₀ H.B1, pow_le_pow_right₀ H.B1 hj⟩

theorem step {W k e x X : ℝ} (W1 : 1 ≤ W) (WB : W ≤ B ^ 6) (hk : k ≤ 90) (hx : |x| ≤ k * W)
    (hX : |x - X| ≤ e * (τ * W)) :
    ∃ z hz, F.round x = fin z hz ∧ |z - X| ≤ (e + k + 1) * (τ * W) ∧
      |z| ≤ (k + (k + 1) / 1024) * W ∧ z = F.rnd x := by
  have W0 : 0 < W := by linarith
  have k0 : 0 ≤ k := by
    by_contra hk
    have := mul_neg_of_neg_of_pos (not_le.1 hk) W0
    linarith [abs_nonneg x]
  have τ0 := H.τ0
  have herr := F.rnd_err x
  have h1 : F.u * |x| ≤ τ * (k * W) := mul_le_mul H.hu hx (abs_nonneg _) τ0
  have h2 : F.eta ≤ τ * W := H.hη.trans (le_mul_of_one_le_right τ0 W1)
  have h3 : |F.rnd x - x| ≤ (k + 1) * (τ * W) := by
    have : (k + 1) * (τ * W) = τ * (k * W) + τ * W := by ring
    linarith
  have h4 : (k + 1) * (τ * W) ≤ (k + 1) / 1024 * W := by
    have := mul_le_mul_of_nonneg_left H.τ1 (by positivity : 0 ≤ (k + 1) * W)
    linarith
  have h5 : |F.rnd x| ≤ (k + (k + 1) / 1024) * W := by
    have := abs_add_le x (F.rnd x - x)
    rw [add_sub_cancel] at this
    rw [add_mul]
    linarith
  have h6 : |F.rnd x| ≤ F.max := by
    refine h5.trans (le_trans ?_ H.hmax)
    exact mul_le_mul (by linarith) WB W0.le (by norm_num)
  refine ⟨F.rnd x, ⟨F.rnd_mem x, h6⟩, F.round_of_rnd_le h6, ?_, h5, rfl⟩
  have h7 := abs_add_le (F.rnd x - x) (x - X)
  rw [sub_add_sub_cancel] at h7
  have : (e + k + 1) * (τ * W) = (k + 1) * (τ * W) + e * (τ * W) := by ring
  linarith

/-- An operation on floats. -/
theorem op {W k x : ℝ} (j : ℕ) (hj : j ≤ 6) (hW : W = B ^ j) (hk : k ≤ 90) (hx : |x| ≤ k * W) :
    ∃ z hz, F.round x = fin z hz ∧ |z - x| ≤ (k + 1) * (τ * W) ∧
      |z| ≤ (k + (k + 1) / 1024) * W ∧ z = F.rnd x := by
  subst hW
  obtain ⟨z, hz, h1, h2, h3, h4⟩ := H.step (X := x) (e := 0) (H.pow_range j hj).1
    (H.pow_range j hj).2 hk hx (by simp)
  exact ⟨z, hz, h1, by linarith, h3, h4⟩

theorem lits : (lit 3 : Fl F) = fin 3 (by exact_mod_cast F.int_ok 3 (by norm_num)) ∧
    (lit 9 : Fl F) = fin 9 (by exact_mod_cast F.int_ok 9 (by norm_num)) ∧
    (lit 27 : Fl F) = fin 27 (by exact_mod_cast F.int_ok 27 (by norm_num)) ∧
    (lit 2 : Fl F) = fin 2 (by exact_mod_cast F.int_ok 2 (by norm_num)) ∧
    (lit 4 : Fl F) = fin 4 (by exact_mod_cast F.int_ok 4 (by norm_num)) ∧
    (lit 54 : Fl F) = fin 54 (by exact_mod_cast F.int_ok 54 (by norm_num)) := by
  refine ⟨?_, ?_, ?_, ?_, ?_, ?_⟩
  · simpa using lit_int (F := F) 3 (by norm_num)
  · simpa using lit_int (F := F) 9 (by norm_num)
  · simpa using lit_int (F := F) 27 (by norm_num)
  · simpa using lit_int (F := F) 2 (by norm_num)
  · simpa using lit_int (F := F) 4 (by norm_num)
  · simpa using lit_int (F := F) 54 (by norm_num)

/-! ### The coefficients of the depressed equation -/

theorem delta0 {b c : ℝ} {hb : b ∈ F.grid ∧ |b| ≤ F.max} {hc : c ∈ F.grid ∧ |c| ≤ F.max}
    (bb : |b| ≤ B) (bc : |c| ≤ B ^ 2) :
    ∃ δ hδ, ((fin c hc * lit 3 - fin b hb * fin b hb) / lit 9 : Fl F) = fin δ hδ ∧
      |δ - (3 * c - b ^ 2) / 9| ≤ 3 * (τ * B ^ 2) ∧ |δ| ≤ 1 / 2 * B ^ 2 := by
  have τ0 := H.τ0
  have B0 := H.B0
  have B2 : 0 ≤ B ^ 2 := by positivity
  have hT : 0 ≤ τ * B ^ 2 := by positivity
  have hT' : τ * B ^ 2 ≤ 1 / 1024 * B ^ 2 := mul_le_mul_of_nonneg_right H.τ1 B2
  obtain ⟨l3, l9, -, -, -, -⟩ := H.lits
  obtain ⟨x1, w1, e1, d1, -, -⟩ := H.op (x := c * 3) (k := 3) 2 (by norm_num) rfl (by norm_num)
    (by rw [abs_mul, abs_of_pos (by norm_num : (0 : ℝ) < 3)]; linarith)
  obtain ⟨x2, w2, e2, d2, -, -⟩ := H.op (x := b * b) (k := 1) 2 (by norm_num) rfl (by norm_num)
    (by
      have := prod_le (a := 1) (b := 1) (U := B) (V := B) (by linarith) (by linarith) (sq B).symm (x := b) (y := b)
      linarith)
  have hb2 : |b * b| ≤ B ^ 2 := by
    rw [abs_mul, sq]; exact mul_le_mul bb bb (abs_nonneg _) B0
  have d1' := abs_le.1 d1
  have d2' := abs_le.1 d2
  have bc' := abs_le.1 bc
  have hb2' := abs_le.1 hb2
  obtain ⟨x3, w3, e3, d3, -, -⟩ := H.op (x := x1 - x2) (k := 401 / 100) 2 (by norm_num) rfl
    (by norm_num) (by rw [abs_le]; constructor <;> linarith)
  have d3' := abs_le.1 d3
  obtain ⟨x4, w4, e4, d4, -, -⟩ := H.op (x := x3 / 9) (k := 9 / 20) 2 (by norm_num) rfl
    (by norm_num) (by rw [abs_le]; constructor <;> linarith)
  have d4' := abs_le.1 d4
  refine ⟨x4, w4, ?_, ?_, ?_⟩
  · rw [l3, fin_mul, e1, fin_mul, e2, fin_sub, e3, l9, fin_div (by norm_num), e4]
  · rw [sq b, abs_le]
    constructor <;> linarith
  · rw [abs_le]
    constructor <;> linarith

theorem delta1 {b c d : ℝ} {hb : b ∈ F.grid ∧ |b| ≤ F.max} {hc : c ∈ F.grid ∧ |c| ≤ F.max}
    {hd : d ∈ F.grid ∧ |d| ≤ F.max} (bb : |b| ≤ B) (bc : |c| ≤ B ^ 2) (bd : |d| ≤ B ^ 3) :
    ∃ δ hδ, ((fin b hb * fin c hc * lit 9 - fin d hd * lit 27
        - fin b hb * fin b hb * fin b hb * lit 2) / lit 54 : Fl F) = fin δ hδ ∧
      |δ - (9 * b * c - 27 * d - 2 * b ^ 3) / 54| ≤ 5 * (τ * B ^ 3) ∧ |δ| ≤ 3 / 4 * B ^ 3 := by
  have τ0 := H.τ0
  have B0 := H.B0
  have B3 : 0 ≤ B ^ 3 := by positivity
  have hT : 0 ≤ τ * B ^ 3 := by positivity
  have hT' : τ * B ^ 3 ≤ 1 / 1024 * B ^ 3 := mul_le_mul_of_nonneg_right H.τ1 B3
  obtain ⟨-, l9, l27, l2, -, l54⟩ := H.lits
  have bb1 : |b| ≤ 1 * B := by linarith
  have hbc : |b * c| ≤ 1 * 1 * B ^ 3 := prod_le bb1 (by linarith : |c| ≤ 1 * B ^ 2) (by ring)
  have hbb : |b * b| ≤ 1 * 1 * B ^ 2 := prod_le bb1 bb1 (by ring)
  have hbb' := abs_le.1 hbb
  have hbc' := abs_le.1 hbc
  have bd' := abs_le.1 bd
  obtain ⟨x1, w1, e1, d1, -, -⟩ := H.op (x := b * c) (k := 1) 3 (by norm_num) rfl (by norm_num)
    (by linarith)
  have d1' := abs_le.1 d1
  obtain ⟨x2, w2, e2, d2, -, -⟩ := H.op (x := x1 * 9) (k := 91 / 10) 3 (by norm_num) rfl (by norm_num)
    (by rw [abs_le]; constructor <;> linarith)
  have d2' := abs_le.1 d2
  obtain ⟨x3, w3, e3, d3, -, -⟩ := H.op (x := d * 27) (k := 27) 3 (by norm_num) rfl (by norm_num)
    (by rw [abs_le]; constructor <;> linarith)
  have d3' := abs_le.1 d3
  obtain ⟨x4, w4, e4, d4, -, -⟩ := H.op (x := x2 - x3) (k := 362 / 10) 3 (by norm_num) rfl
    (by norm_num) (by rw [abs_le]; constructor <;> linarith)
  have d4' := abs_le.1 d4
  obtain ⟨x5, w5, e5, d5, m5, -⟩ := H.op (x := b * b) (k := 1) 2 (by norm_num) rfl (by norm_num)
    (by linarith)
  have h6 : |x5 * b| ≤ (1 + (1 + 1) / 1024) * 1 * B ^ 3 := prod_le m5 bb1 (by ring)
  obtain ⟨x6, w6, e6, d6, -, -⟩ := H.op (x := x5 * b) (k := 101 / 100) 3 (by norm_num) rfl
    (by norm_num) (by linarith)
  have h7 : |(x5 - b * b) * b| ≤ (1 + 1) * τ * 1 * B ^ 3 :=
    prod_le (by linarith : |x5 - b * b| ≤ (1 + 1) * τ * B ^ 2) bb1 (by ring)
  have d6' := abs_le.1 d6
  have h7' := abs_le.1 h7
  have hb3 : |b * b * b| ≤ 1 * 1 * 1 * B ^ 3 := prod_le hbb bb1 (by ring)
  have hb3' := abs_le.1 hb3
  have d6a : x6 - b * b * b ≤ 402 / 100 * (τ * B ^ 3) := by linarith
  have d6b : -(402 / 100 * (τ * B ^ 3)) ≤ x6 - b * b * b := by linarith
  obtain ⟨x7, w7, e7, d7, -, -⟩ := H.op (x := x6 * 2) (k := 202 / 100) 3 (by norm_num) rfl
    (by norm_num) (by rw [abs_le]; constructor <;> linarith)
  have d7' := abs_le.1 d7
  obtain ⟨x8, w8, e8, d8, -, -⟩ := H.op (x := x4 - x7) (k := 384 / 10) 3 (by norm_num) rfl
    (by norm_num) (by rw [abs_le]; constructor <;> linarith)
  have d8' := abs_le.1 d8
  obtain ⟨x9, w9, e9, d9, -, -⟩ := H.op (x := x8 / 54) (k := 72 / 100) 3 (by norm_num) rfl
    (by norm_num) (by rw [abs_le]; constructor <;> linarith)
  have d9' := abs_le.1 d9
  refine ⟨x9, w9, ?_, ?_, ?_⟩
  · rw [fin_mul, e1, l9, fin_mul, e2, l27, fin_mul, e3, fin_sub, e4, fin_mul, e5, fin_mul, e6, l2,
      fin_mul, e7, fin_sub, e8, l54, fin_div (by norm_num), e9]
  · have e : (9 * b * c - 27 * d - 2 * b ^ 3) / 54 = (9 * (b * c) - 27 * d - 2 * (b * b * b)) / 54 := by
      ring
    rw [e, abs_le]
    constructor <;> linarith
  · rw [abs_le]
    constructor <;> linarith

theorem delta01 {p q : ℝ} {hp : p ∈ F.grid ∧ |p| ≤ F.max} {hq : q ∈ F.grid ∧ |q| ≤ F.max}
    (bp : |p| ≤ 1 / 2 * B ^ 2) (bq : |q| ≤ 3 / 4 * B ^ 3) :
    ∃ D hD, (fin p hp * fin p hp * fin p hp + fin q hq * fin q hq : Fl F) = fin D hD ∧
      |D - (p ^ 3 + q ^ 2)| ≤ 6 * (τ * B ^ 6) ∧ |D| ≤ 7 / 10 * B ^ 6 ∧ (0 ≤ p → 0 ≤ D) := by
  have τ0 := H.τ0
  have B0 := H.B0
  have B6 : 0 ≤ B ^ 6 := by positivity
  have hT : 0 ≤ τ * B ^ 6 := by positivity
  have hT' : τ * B ^ 6 ≤ 1 / 1024 * B ^ 6 := mul_le_mul_of_nonneg_right H.τ1 B6
  obtain ⟨x1, w1, e1, d1, m1, r1⟩ := H.op (x := p * p) (k := 1 / 4) 4 (by norm_num) rfl (by norm_num)
    (by have := prod_le bp bp (by ring : B ^ 2 * B ^ 2 = B ^ 4); linarith)
  have h2 : |(x1 - p * p) * p| ≤ (1 / 4 + 1) * τ * (1 / 2) * B ^ 6 :=
    prod_le (by linarith : |x1 - p * p| ≤ (1 / 4 + 1) * τ * B ^ 4) bp (by ring)
  have h2' := abs_le.1 h2
  obtain ⟨x2, w2, e2, d2, m2, r2⟩ := H.op (x := x1 * p) (k := 126 / 1000) 6 (by norm_num) rfl
    (by norm_num)
    (by have := prod_le m1 bp (by ring : B ^ 4 * B ^ 2 = B ^ 6); linarith)
  have d2' := abs_le.1 d2
  obtain ⟨x3, w3, e3, d3, m3, r3⟩ := H.op (x := q * q) (k := 9 / 16) 6 (by norm_num) rfl
    (by norm_num)
    (by have := prod_le bq bq (by ring : B ^ 3 * B ^ 3 = B ^ 6); linarith)
  have d3' := abs_le.1 d3
  have m2' := abs_le.1 m2
  have m3' := abs_le.1 m3
  obtain ⟨x4, w4, e4, d4, m4, r4⟩ := H.op (x := x2 + x3) (k := 692 / 1000) 6 (by norm_num) rfl
    (by norm_num) (by rw [abs_le]; constructor <;> linarith)
  have d4' := abs_le.1 d4
  refine ⟨x4, w4, ?_, ?_, by linarith, ?_⟩
  · rw [fin_mul, e1, fin_mul, e2, fin_mul, e3, fin_add, e4]
  · have e : p ^ 3 + q ^ 2 = p * p * p + q * q := by ring
    rw [e, abs_le]
    constructor <;> linarith
  · intro p0
    rw [r4]
    refine F.rnd_nonneg (add_nonneg ?_ ?_)
    · rw [r2]
      refine F.rnd_nonneg (mul_nonneg ?_ p0)
      rw [r1]
      exact F.rnd_nonneg (mul_self_nonneg p)
    · rw [r3]
      exact F.rnd_nonneg (mul_self_nonneg q)

/-- The square root, and how well its square fits. -/
theorem root {D : ℝ} {hD : D ∈ F.grid ∧ |D| ≤ F.max} (D0 : 0 ≤ D) (bD : D ≤ 81 / 100 * B ^ 6) :
    ∃ s hs, Scalar.sqrt (fin D hD : Fl F) = fin s hs ∧ |s ^ 2 - D| ≤ 4 * (τ * B ^ 6) ∧
      |s - Real.sqrt D| ≤ 2 * (τ * B ^ 3) ∧ 0 ≤ s ∧ s ≤ 91 / 100 * B ^ 3 := by
  have τ0 := H.τ0
  have B0 := H.B0
  have B3 : 0 ≤ B ^ 3 := by positivity
  have hT : 0 ≤ τ * B ^ 3 := by positivity
  have r0 := Real.sqrt_nonneg D
  have r1 : Real.sqrt D ≤ 9 / 10 * B ^ 3 := by
    rw [← Real.sqrt_sq (by positivity : (0 : ℝ) ≤ 9 / 10 * B ^ 3)]
    apply Real.sqrt_le_sqrt
    calc D ≤ 81 / 100 * B ^ 6 := bD
      _ = _ := by ring
  obtain ⟨s, hs, e1, d1, m1, q1⟩ := H.op (x := Real.sqrt D) (k := 9 / 10) 3 (by norm_num) rfl
    (by norm_num) (by rw [abs_of_nonneg r0]; exact r1)
  have s0 : 0 ≤ s := by rw [q1]; exact F.rnd_nonneg r0
  rw [abs_of_nonneg s0] at m1
  refine ⟨s, hs, ?_, ?_, by linarith, s0, by linarith⟩
  · show (open Classical in if D < 0 then (nan : Fl F) else F.round (Real.sqrt D)) = _
    rw [if_neg (not_lt.2 D0), e1]
  · have e : s ^ 2 - D = (s - Real.sqrt D) * (s + Real.sqrt D) := by
      have := Real.sq_sqrt D0
      calc s ^ 2 - D = s ^ 2 - Real.sqrt D ^ 2 := by rw [this]
        _ = _ := by ring
    rw [e]
    have := prod_le (x := s - Real.sqrt D) (y := s + Real.sqrt D) (a := 19 / 10 * τ) (b := 181 / 100)
      (U := B ^ 3) (V := B ^ 3) (by linarith) (by rw [abs_of_nonneg (by linarith)]; linarith)
      (by ring : B ^ 3 * B ^ 3 = B ^ 6)
    have h6 : 0 ≤ τ * B ^ 6 := by positivity
    linarith

/-- The constant 1/3 and products with it. -/
theorem third : ∃ f hf, (lit 1 / lit 3 : Fl F) = fin f hf ∧ |f - 1 / 3| ≤ 4 / 3 * τ ∧
    f = F.rnd (1 / 3) := by
  obtain ⟨l3, -, -, -, -, -⟩ := H.lits
  obtain ⟨f, hf, e1, d1, m1, q1⟩ := H.op (x := 1 / 3) (k := 1 / 3) (W := 1) 0 (by norm_num)
    (pow_zero B).symm (by norm_num) (by norm_num [abs_of_pos])
  refine ⟨f, hf, ?_, by linarith, q1⟩
  rw [lit_one, l3, fin_div (by norm_num), e1]

theorem third_mul {W b f : ℝ} {hb : b ∈ F.grid ∧ |b| ≤ F.max} {hf : f ∈ F.grid ∧ |f| ≤ F.max}
    (j : ℕ) (hj : j ≤ 6) (hW : W = B ^ j) {k e : ℝ} {b' : ℝ} (hk : k ≤ 90) (bb : |b| ≤ k * W)
    (hb' : |b - b'| ≤ e * (τ * W)) (d : |f - 1 / 3| ≤ 4 / 3 * τ) :
    ∃ y hy, (fin b hb * fin f hf : Fl F) = fin y hy ∧
      |y - b' / 3| ≤ (1 / 3 * e + 168 / 100 * k + 1) * (τ * W) ∧ |y| ≤ (35 / 100 * k + 1 / 1024) * W := by
  have τ0 := H.τ0
  have W1 : 1 ≤ W := by rw [hW]; exact (H.pow_range j hj).1
  have k0 : 0 ≤ k := by
    by_contra hk
    have := mul_neg_of_neg_of_pos (not_le.1 hk) (by linarith : 0 < W)
    linarith [abs_nonneg b]
  have hf1 : |f| ≤ 335 / 1000 := by
    have := abs_le.1 d
    have := H.τ1
    rw [abs_le]; constructor <;> linarith
  have h1 : |b * f| ≤ k * (335 / 1000) * W := prod_le bb (by rw [mul_one]; exact hf1) (mul_one W)
  obtain ⟨y, hy, e1, d1, m1, q1⟩ := H.op (x := b * f) (k := k * (335 / 1000)) j hj hW (by linarith) h1
  have h2 : |b * (f - 1 / 3)| ≤ k * (4 / 3 * τ) * W := prod_le bb (by rw [mul_one]; exact d) (mul_one W)
  have h2' := abs_le.1 h2
  have d1' := abs_le.1 d1
  have hb'' := abs_le.1 hb'
  have hτ : 0 ≤ τ * W := by positivity
  have hkτ : 0 ≤ k * (τ * W) := by positivity
  refine ⟨y, hy, by rw [fin_mul, e1], ?_, ?_⟩
  · rw [abs_le]
    constructor <;> linarith
  · have : 0 ≤ k * W := by positivity
    linarith

/-! ### Cube roots -/

end CubicSetting

/-- Replacing the exponent 1/3 by a number close to it. -/
theorem pow_third_close {x X f d τ : ℝ} (x0 : 0 ≤ x) (xX : x ≤ X) (hf : |f - 1 / 3| ≤ d)
    (d1 : 4 * d ≤ τ) (d2 : 2 * d * Real.log X ≤ τ) (τ1 : τ ≤ 1 / 1024) :
    |x ^ f - x ^ (1 / 3 : ℝ)| ≤ τ * (1 + x ^ (1 / 3 : ℝ)) := by
  have d0 : 0 ≤ d := (abs_nonneg _).trans hf
  have τ0 : 0 ≤ τ := by linarith
  have hf' := abs_le.1 hf
  have f4 : 1 / 4 ≤ f := by linarith
  rcases x0.eq_or_lt with rfl | x0
  · rw [Real.zero_rpow (by linarith), Real.zero_rpow (by norm_num)]
    simpa using τ0
  have y0 : 0 < x ^ (1 / 3 : ℝ) := Real.rpow_pos_of_pos x0 _
  have hsplit : x ^ f = x ^ (1 / 3 : ℝ) * Real.exp ((f - 1 / 3) * Real.log x) := by
    rw [mul_comm (f - 1 / 3), ← Real.rpow_def_of_pos x0, ← Real.rpow_add x0]
    congr 1; ring
  rcases le_total 1 x with h1 | h1
  · have l0 : 0 ≤ Real.log x := Real.log_nonneg h1
    have l1 : Real.log x ≤ Real.log X := Real.log_le_log x0 xX
    have h2 : |(f - 1 / 3) * Real.log x| ≤ τ / 2 := by
      rw [abs_mul, abs_of_nonneg l0]
      have := mul_le_mul hf l1 l0 d0
      linarith
    have h3 := Real.abs_exp_sub_one_le (x := (f - 1 / 3) * Real.log x) (by linarith)
    have e : x ^ f - x ^ (1 / 3 : ℝ)
        = x ^ (1 / 3 : ℝ) * (Real.exp ((f - 1 / 3) * Real.log x) - 1) := by rw [hsplit]; ring
    rw [e, abs_mul, abs_of_pos y0]
    have := mul_le_mul_of_nonneg_left (show |Real.exp ((f - 1 / 3) * Real.log x) - 1| ≤ τ by linarith)
      y0.le
    linarith
  · -- both powers are `x^(1/4)` times something close
    have key : ∀ g, 1 / 4 ≤ g → ∀ e, 0 ≤ e → e ≤ d → |x ^ (g + e) - x ^ g| ≤ 4 * d := by
      intro g hg e e0 ed
      have hl : Real.log x ≤ 0 := Real.log_nonpos x0.le h1
      have ha : x ^ (g + e) = x ^ g * x ^ e := Real.rpow_add x0 _ _
      have hb : x ^ e ≤ 1 := Real.rpow_le_one x0.le h1 e0
      have hc : 1 - x ^ e ≤ e * -Real.log x := by
        rw [Real.rpow_def_of_pos x0]
        have := Real.add_one_le_exp (Real.log x * e)
        linarith
      have hg0 : 0 < x ^ g := Real.rpow_pos_of_pos x0 _
      have hd : x ^ g ≤ x ^ (1 / 4 : ℝ) := Real.rpow_le_rpow_of_exponent_ge x0 h1 hg
      have z0 : 0 < x ^ (1 / 4 : ℝ) := Real.rpow_pos_of_pos x0 _
      have hlog : -Real.log x = 4 * Real.log (x ^ (1 / 4 : ℝ))⁻¹ := by
        rw [Real.log_inv, Real.log_rpow x0]; ring
      have hle : Real.log (x ^ (1 / 4 : ℝ))⁻¹ ≤ (x ^ (1 / 4 : ℝ))⁻¹ - 1 :=
        Real.log_le_sub_one_of_pos (by positivity)
      have hfin : x ^ (1 / 4 : ℝ) * -Real.log x ≤ 4 := by
        rw [hlog]
        have := mul_le_mul_of_nonneg_left hle z0.le
        rw [mul_sub, mul_inv_cancel₀ z0.ne'] at this
        linarith
      rw [ha, abs_sub_comm, abs_of_nonneg (by nlinarith)]
      calc x ^ g - x ^ g * x ^ e = x ^ g * (1 - x ^ e) := by ring
        _ ≤ x ^ (1 / 4 : ℝ) * (e * -Real.log x) :=
            mul_le_mul hd hc (by linarith) z0.le
        _ = e * (x ^ (1 / 4 : ℝ) * -Real.log x) := by ring
        _ ≤ d * 4 := mul_le_mul ed hfin (mul_nonneg z0.le (by linarith)) d0
        _ = 4 * d := by ring
    have : |x ^ f - x ^ (1 / 3 : ℝ)| ≤ 4 * d := by
      rcases le_total (1 / 3) f with h | h
      · have := key (1 / 3) (by norm_num) (f - 1 / 3) (by linarith) (by linarith)
        rwa [add_sub_cancel] at this
      · have := key f f4 (1 / 3 - f) (by linarith) (by linarith)
        rwa [add_sub_cancel, abs_sub_comm] at this
    have : τ ≤ τ * (1 + x ^ (1 / 3 : ℝ)) := le_mul_of_one_le_right τ0 (by linarith)
    linarith

/-- The cube root of a number of either sign, as the code computes it. -/
theorem CubicSetting.cubeRoot {τ B X : ℝ} (H : CubicSetting F τ B) (L : AccurateLibrary F τ X)
    (hX : 2 * B ^ 3 ≤ X) (hd : (F.u + 3 * F.eta) * (2 + Real.log X) ≤ τ)
    {p f : ℝ} {hp : p ∈ F.grid ∧ |p| ≤ F.max} {hf : f ∈ F.grid ∧ |f| ≤ F.max}
    (bp : |p| ≤ 167 / 100 * B ^ 3) (ef : f = F.rnd (1 / 3)) :
    ∃ s hs, (Scalar.signum (fin p hp) * Scalar.powf (Scalar.abs (fin p hp)) (fin f hf) : Fl F)
        = fin s hs ∧ |s ^ 3 - p| ≤ 31 * (τ * B ^ 3) ∧ |s| ≤ 121 / 100 * B := by
  have τ0 := H.τ0
  have B0 := H.B0
  have B1 := H.B1
  have hB3 : 1 ≤ B ^ 3 := one_le_pow₀ B1
  have u0 := F.u_nonneg
  have η0 := F.eta_nonneg
  have log0 : 0 ≤ Real.log X := Real.log_nonneg (by linarith)
  have hd1 : |f - 1 / 3| ≤ (F.u + 3 * F.eta) / 3 := by
    rw [ef]
    have := F.rnd_err (1 / 3)
    rw [abs_of_pos (by norm_num : (0 : ℝ) < 1 / 3)] at this
    linarith
  have hprod : 0 ≤ (F.u + 3 * F.eta) * Real.log X := by positivity
  have hf' := abs_le.1 hd1
  have hclose := pow_third_close (abs_nonneg p) (by linarith : |p| ≤ X) hd1
    (by linarith) (by linarith) H.τ1
  have hpow := L.pow |p| f (abs_nonneg p) (by linarith) (by linarith [H.τ1]) (by linarith [H.τ1])
  set y := |p| ^ (1 / 3 : ℝ) with hy
  set z := |p| ^ f with hz
  set w := F.powImpl |p| f with hw
  have y0 : 0 ≤ y := Real.rpow_nonneg (abs_nonneg p) _
  have y3 : y ^ 3 = |p| := by
    rw [hy, ← Real.rpow_natCast, ← Real.rpow_mul (abs_nonneg p)]
    norm_num
  have yB : y ≤ 119 / 100 * B := by
    by_contra h
    have := pow_lt_pow_left₀ (not_le.1 h) (by positivity) (n := 3) (by norm_num)
    rw [y3] at this
    have e : (119 / 100 * B) ^ 3 = 1685159 / 1000000 * B ^ 3 := by ring
    rw [e] at this
    linarith
  have hτB : τ * (1 + y) ≤ 219 / 100 * (τ * B) := by
    have := mul_le_mul_of_nonneg_left (show 1 + y ≤ 219 / 100 * B by linarith) τ0
    linarith
  have hτB0 : 0 ≤ τ * B := by positivity
  have hτB' : τ * B ≤ 1 / 1024 * B := mul_le_mul_of_nonneg_right H.τ1 B0
  have hclose' := abs_le.1 hclose
  have hτz : τ * (1 + z) ≤ 220 / 100 * (τ * B) := by
    have := mul_le_mul_of_nonneg_left (show 1 + z ≤ 220 / 100 * B by linarith) τ0
    linarith
  have hpow' := abs_le.1 hpow
  have hwy : |w - y| ≤ 439 / 100 * (τ * B) := by
    rw [abs_le]; constructor <;> linarith
  have hwy' := abs_le.1 hwy
  obtain ⟨v, hv, e1, d1, m1, -⟩ := H.op (x := w) (k := 1195 / 1000) 1 (by norm_num) (pow_one B).symm
    (by norm_num) (by rw [abs_le]; constructor <;> linarith)
  have d1' := abs_le.1 d1
  have m1' := abs_le.1 m1
  have hvy : |v - y| ≤ 66 / 10 * (τ * B) := by
    rw [abs_le]; constructor <;> linarith
  have vB : |v| ≤ 121 / 100 * B := by linarith
  have hcube := cube_close vB (by rw [abs_of_nonneg y0]; linarith) hvy
  rw [y3] at hcube
  have hT : 0 ≤ τ * B ^ 3 := by positivity
  have hcube' : |v ^ 3 - (|p|)| ≤ 31 * (τ * B ^ 3) := by
    refine hcube.trans ?_
    have e : 3 * (121 / 100 * B) ^ 2 * (66 / 10 * (τ * B)) = 3 * (121 / 100) ^ 2 * (66 / 10) * (τ * B ^ 3) := by
      ring
    rw [e]
    linarith
  have epow : (Scalar.powf (Scalar.abs (fin p hp)) (fin f hf) : Fl F) = fin v hv := by
    show (open Classical in if |p| < 0 then (nan : Fl F) else F.round (F.powImpl |p| f)) = _
    rw [if_neg (not_lt.2 (abs_nonneg p)), ← hw, e1]
  rw [epow]
  rcases lt_or_ge p 0 with h | h
  · have es : (Scalar.signum (fin p hp) : Fl F) = F.round (-1) := by
      show (open Classical in if p < 0 then F.round (-1) else F.round 1) = _
      rw [if_pos h]
    refine ⟨-v, ⟨F.neg_mem v hv.1, by rw [abs_neg]; exact hv.2⟩, ?_, ?_, by rw [abs_neg]; exact vB⟩
    · rw [es, F.round_of_mem ⟨F.neg_mem 1 F.one_ok.1, by rw [abs_neg]; exact F.one_ok.2⟩, fin_mul,
        F.round_of_mem (by rw [neg_one_mul]; exact ⟨F.neg_mem v hv.1, by rw [abs_neg]; exact hv.2⟩)]
      exact fin_congr (neg_one_mul v)
    · rw [abs_of_neg h] at hcube'
      have e : (-v) ^ 3 - p = -(v ^ 3 - -p) := by ring
      rw [e, abs_neg]
      exact hcube'
  · have es : (Scalar.signum (fin p hp) : Fl F) = F.round 1 := by
      show (open Classical in if p < 0 then F.round (-1) else F.round 1) = _
      rw [if_neg (not_lt.2 h)]
    refine ⟨v, hv, ?_, ?_, vB⟩
    · rw [es, F.round_of_mem F.one_ok, fin_mul, F.round_of_mem (by rw [one_mul]; exact hv)]
      exact fin_congr (one_mul v)
    · rwa [abs_of_nonneg h] at hcube'

/-! ### Cardano's formula -/

/-- The product of the two cube roots. -/
theorem cardano_product {σ B p q g s t : ℝ} (σ0 : 0 ≤ σ) (σ1 : σ ≤ 1 / 16) (B0 : 0 ≤ B)
    (bq : |q| ≤ 3 / 4 * B ^ 3) (bg : |g| ≤ 91 / 100 * B ^ 3)
    (hg : |g ^ 2 - (p ^ 3 + q ^ 2)| ≤ 10 * (σ ^ 3 * B ^ 6))
    (hs : |s ^ 3 - (q + g)| ≤ 34 * (σ ^ 3 * B ^ 3)) (ht : |t ^ 3 - (q - g)| ≤ 34 * (σ ^ 3 * B ^ 3)) :
    |s * t + p| ≤ 8 * (σ * B ^ 2) := by
  have τ1 : σ ^ 3 ≤ 1 / 4096 := by
    have := pow_le_pow_left₀ σ0 σ1 3
    linarith
  have hT : 0 ≤ σ ^ 3 * B ^ 6 := by positivity
  have hT2 : σ ^ 3 * (σ ^ 3 * B ^ 6) ≤ 1 / 4096 * (σ ^ 3 * B ^ 6) := mul_le_mul_of_nonneg_right τ1 hT
  have hP : |q + g| ≤ 166 / 100 * B ^ 3 := by
    have := abs_add_le q g
    linarith
  have hQ : |q - g| ≤ 166 / 100 * B ^ 3 := by
    have := abs_sub q g
    linarith
  have e1 : |(s ^ 3 - (q + g)) * (q - g)| ≤ 34 * σ ^ 3 * (166 / 100) * B ^ 6 :=
    prod_le (by linarith : |s ^ 3 - (q + g)| ≤ 34 * σ ^ 3 * B ^ 3) hQ (by ring)
  have e2 : |(t ^ 3 - (q - g)) * (q + g)| ≤ 34 * σ ^ 3 * (166 / 100) * B ^ 6 :=
    prod_le (by linarith : |t ^ 3 - (q - g)| ≤ 34 * σ ^ 3 * B ^ 3) hP (by ring)
  have e3 : |(s ^ 3 - (q + g)) * (t ^ 3 - (q - g))| ≤ 34 * σ ^ 3 * (34 * σ ^ 3) * B ^ 6 :=
    prod_le (by linarith : |s ^ 3 - (q + g)| ≤ 34 * σ ^ 3 * B ^ 3)
      (by linarith : |t ^ 3 - (q - g)| ≤ 34 * σ ^ 3 * B ^ 3) (by ring)
  have e1' := abs_le.1 e1
  have e2' := abs_le.1 e2
  have e3' := abs_le.1 e3
  have hg' := abs_le.1 hg
  have e4 : |(s * t) ^ 3 - (-p) ^ 3| ≤ 124 * (σ ^ 3 * B ^ 6) := by
    have e : (s * t) ^ 3 - (-p) ^ 3 = (s ^ 3 - (q + g)) * (q - g) + (t ^ 3 - (q - g)) * (q + g)
        + (s ^ 3 - (q + g)) * (t ^ 3 - (q - g)) - (g ^ 2 - (p ^ 3 + q ^ 2)) := by ring
    rw [e, abs_le]
    constructor <;> linarith
  have e5 := cube_sub_le (s * t) (-p)
  rw [sub_neg_eq_add] at e5
  by_contra h
  have h1 := pow_lt_pow_left₀ (not_le.1 h) (by positivity) (n := 3) (by norm_num)
  have e6 : (8 * (σ * B ^ 2)) ^ 3 = 512 * (σ ^ 3 * B ^ 6) := by ring
  rw [e6] at h1
  linarith

/-- Replacing the exact depressed equation and its exact root by computed ones. -/
theorem depressed_close {τ B X Y p q P Q R : ℝ} (τ0 : 0 ≤ τ) (B0 : 0 ≤ B)
    (hX : |X| ≤ 26 / 10 * B) (hY : |Y| ≤ 26 / 10 * B) (hXY : |Y - X| ≤ 15 * (τ * B))
    (hp : |p| ≤ 1 / 2 * B ^ 2) (hP : |p - P| ≤ 3 * (τ * B ^ 2)) (hQ : |q - Q| ≤ 5 * (τ * B ^ 3))
    (hR : |X ^ 3 + 3 * p * X - 2 * q| ≤ R) :
    |Y ^ 3 + 3 * P * Y - 2 * Q| ≤ R + 400 * (τ * B ^ 3) := by
  have h1 := cube_close hY hX hXY
  have e1 : 3 * (26 / 10 * B) ^ 2 * (15 * (τ * B)) = 3 * (26 / 10) ^ 2 * 15 * (τ * B ^ 3) := by ring
  rw [e1] at h1
  have h2 : |p * (Y - X)| ≤ 1 / 2 * (15 * τ) * B ^ 3 :=
    prod_le hp (by linarith : |Y - X| ≤ 15 * τ * B) (by ring)
  have h3 : |(p - P) * Y| ≤ 3 * τ * (26 / 10) * B ^ 3 :=
    prod_le (by linarith : |p - P| ≤ 3 * τ * B ^ 2) hY (by ring)
  have hT : 0 ≤ τ * B ^ 3 := by positivity
  have h1' := abs_le.1 h1
  have h2' := abs_le.1 h2
  have h3' := abs_le.1 h3
  have hQ' := abs_le.1 hQ
  have hR' := abs_le.1 hR
  rw [abs_le]
  constructor <;> linarith

/-- The first root of Cardano's formula. -/
theorem cardano_first {σ B p q s t : ℝ} (σ0 : 0 ≤ σ) (B0 : 0 ≤ B)
    (bs : |s| ≤ 121 / 100 * B) (bt : |t| ≤ 121 / 100 * B) (hst : |s * t + p| ≤ 8 * (σ * B ^ 2))
    (hsum : |s ^ 3 + t ^ 3 - 2 * q| ≤ 68 * (σ ^ 3 * B ^ 3)) :
    |(s + t) ^ 3 + 3 * p * (s + t) - 2 * q| ≤ 59 * (σ * B ^ 3) + 68 * (σ ^ 3 * B ^ 3) := by
  have hX : |s + t| ≤ 242 / 100 * B := by
    have := abs_add_le s t
    linarith
  have h1 : |(s * t + p) * (s + t)| ≤ 8 * σ * (242 / 100) * B ^ 3 :=
    prod_le (by linarith : |s * t + p| ≤ 8 * σ * B ^ 2) hX (by ring)
  have hT : 0 ≤ σ * B ^ 3 := by positivity
  have e : (s + t) ^ 3 + 3 * p * (s + t) - 2 * q
      = 3 * ((s * t + p) * (s + t)) + (s ^ 3 + t ^ 3 - 2 * q) := by ring
  have h1' := abs_le.1 h1
  have h2' := abs_le.1 hsum
  rw [e, abs_le]
  constructor <;> linarith

/-- The second root, reported when the two cube roots almost agree. -/
theorem cardano_second {σ B p q s t : ℝ} (σ0 : 0 ≤ σ) (σ1 : σ ≤ 1 / 16) (B0 : 0 ≤ B)
    (bs : |s| ≤ 121 / 100 * B) (bt : |t| ≤ 121 / 100 * B) (hst : |s * t + p| ≤ 8 * (σ * B ^ 2))
    (hsum : |s ^ 3 + t ^ 3 - 2 * q| ≤ 68 * (σ ^ 3 * B ^ 3)) (hd : |s - t| ≤ 6 * (σ ^ 3 * B)) :
    |(-((s + t) / 2)) ^ 3 + 3 * p * -((s + t) / 2) - 2 * q|
      ≤ 59 * (σ * B ^ 3) + 68 * (σ ^ 3 * B ^ 3) := by
  have hX : |s + t| ≤ 242 / 100 * B := by
    have := abs_add_le s t
    linarith
  have h1 : |(s * t + p) * (s + t)| ≤ 8 * σ * (242 / 100) * B ^ 3 :=
    prod_le (by linarith : |s * t + p| ≤ 8 * σ * B ^ 2) hX (by ring)
  have hdd : |(s - t) * (s - t)| ≤ 6 * σ ^ 3 * (6 * σ ^ 3) * B ^ 2 :=
    prod_le (by linarith : |s - t| ≤ 6 * σ ^ 3 * B) (by linarith : |s - t| ≤ 6 * σ ^ 3 * B) (by ring)
  have h2 : |(s - t) * (s - t) * (s + t)| ≤ 6 * σ ^ 3 * (6 * σ ^ 3) * (242 / 100) * B ^ 3 :=
    prod_le hdd hX (by ring)
  have hσ5 : σ ^ 5 ≤ 1 / 1048576 := by
    have := pow_le_pow_left₀ σ0 σ1 5
    linarith
  have hT : 0 ≤ σ * B ^ 3 := by positivity
  have h3 : σ ^ 5 * (σ * B ^ 3) ≤ 1 / 1048576 * (σ * B ^ 3) := mul_le_mul_of_nonneg_right hσ5 hT
  have e : (-((s + t) / 2)) ^ 3 + 3 * p * -((s + t) / 2) - 2 * q
      = -(3 / 2) * ((s * t + p) * (s + t)) + (s ^ 3 + t ^ 3 - 2 * q)
        - 9 / 8 * ((s - t) * (s - t) * (s + t)) := by ring
  have h1' := abs_le.1 h1
  have h2' := abs_le.1 h2
  have h4' := abs_le.1 hsum
  rw [e, abs_le]
  constructor <;> linarith

/-! ### The trigonometric formula -/

theorem cos_inv_fin {y : Fl F} {x : ℝ} {hx : x ∈ F.grid ∧ |x| ≤ F.max}
    (h : Scalar.cos y = fin x hx) : ∃ a ha, y = fin a ha ∧ x = F.rnd (F.cosImpl a) := by
  cases y with
  | nan => cases h
  | inf s => cases h
  | fin a ha => exact ⟨a, ha, rfl, round_inv h⟩

theorem acos_inv_fin {y : Fl F} {x : ℝ} {hx : x ∈ F.grid ∧ |x| ≤ F.max}
    (h : Scalar.acos y = fin x hx) :
    ∃ a ha, y = fin a ha ∧ |a| ≤ 1 ∧ x = F.rnd (F.acosImpl a) := by
  cases y with
  | nan => cases h
  | inf s => cases h
  | fin a ha =>
    have h' : (open Classical in if |a| ≤ 1 then F.round (F.acosImpl a) else nan : Fl F)
        = fin x hx := h
    split_ifs at h' with h1
    exact ⟨a, ha, rfl, h1, round_inv h'⟩

theorem div_fin_inv {a b x : ℝ} {ha : a ∈ F.grid ∧ |a| ≤ F.max} {hb : b ∈ F.grid ∧ |b| ≤ F.max}
    {hx : x ∈ F.grid ∧ |x| ≤ F.max} (h : (fin a ha / fin b hb : Fl F) = fin x hx) :
    b ≠ 0 ∧ x = F.rnd (a / b) := by
  have h' : (open Classical in if b = 0 then (if a = 0 then nan else inf (decide (a < 0)))
    else F.round (a / b) : Fl F) = fin x hx := h
  split_ifs at h' with h1 h2
  exact ⟨h1, round_inv h'⟩

theorem trig_residual {σ B q Q G g ρ C C0 : ℝ} (σ0 : 0 ≤ σ) (σ1 : σ ≤ 1 / 16) (B0 : 0 ≤ B)
    (q0 : 0 ≤ q) (bq : q ≤ 1 / 2 * B ^ 2) (G0 : 0 ≤ G) (hG : |G - q ^ 3| ≤ 2 * (σ ^ 3 * B ^ 6))
    (hg : |g - Real.sqrt G| ≤ 2 * (σ ^ 3 * B ^ 3)) (ρ1 : |ρ| ≤ 1)
    (hρ : |ρ * g - Q| ≤ 3 * (σ ^ 3 * B ^ 3)) (h0 : |C0| ≤ 1) (hC0 : 4 * C0 ^ 3 - 3 * C0 = ρ)
    (hC : |C - C0| ≤ 7 / 10 * σ) :
    |(2 * Real.sqrt q * C) ^ 3 + 3 * -q * (2 * Real.sqrt q * C) - 2 * Q| ≤ 12 * (σ * B ^ 3) := by
  have τ1 : σ ^ 2 ≤ 1 / 256 := by
    have := pow_le_pow_left₀ σ0 σ1 2
    linarith
  have hS : 0 ≤ σ * B ^ 3 := by positivity
  have hT : σ ^ 3 * B ^ 3 ≤ 1 / 256 * (σ * B ^ 3) := by
    have := mul_le_mul_of_nonneg_right τ1 hS
    calc σ ^ 3 * B ^ 3 = σ ^ 2 * (σ * B ^ 3) := by ring
      _ ≤ _ := this
  have r0 := Real.sqrt_nonneg q
  have rr : Real.sqrt q ^ 2 = q := Real.sq_sqrt q0
  have rB : Real.sqrt q ≤ 71 / 100 * B := by
    rw [← Real.sqrt_sq (by positivity : (0 : ℝ) ≤ 71 / 100 * B)]
    apply Real.sqrt_le_sqrt
    have : 0 ≤ B ^ 2 := by positivity
    linarith
  set r := Real.sqrt q with hr
  set h := q * r with hh
  have hh0 : 0 ≤ h := mul_nonneg q0 r0
  have hhB : h ≤ 36 / 100 * B ^ 3 := by
    have h1 : h ≤ (1 / 2 * B ^ 2) * (71 / 100 * B) := mul_le_mul bq rB r0 (by positivity)
    have h2 : 0 ≤ B ^ 3 := by positivity
    linarith
  have hh2 : h ^ 2 = q ^ 3 := by rw [hh, mul_pow, rr]; ring
  have s0 := Real.sqrt_nonneg G
  have ss : Real.sqrt G ^ 2 = G := Real.sq_sqrt G0
  set w := Real.sqrt G with hw
  have hhw : |h - w| ≤ 4 / 10 * (σ * B ^ 3) := by
    refine abs_le_of_sq_le_sq ?_ (by positivity)
    have h1 : (h - w) ^ 2 ≤ |h ^ 2 - w ^ 2| := by
      have e : h ^ 2 - w ^ 2 = (h - w) * (h + w) := by ring
      rw [e, abs_mul, abs_of_nonneg (by linarith : 0 ≤ h + w), ← sq_abs, sq]
      apply mul_le_mul_of_nonneg_left _ (abs_nonneg _)
      rw [abs_le]; constructor <;> linarith
    rw [hh2, ss, abs_sub_comm] at h1
    have h2 : σ ^ 3 * B ^ 6 ≤ 1 / 16 * (σ * B ^ 3) ^ 2 := by
      have := mul_le_mul_of_nonneg_right σ1 (sq_nonneg (σ * B ^ 3))
      calc σ ^ 3 * B ^ 6 = σ * (σ * B ^ 3) ^ 2 := by ring
        _ ≤ _ := this
    have h3 := sq_nonneg (σ * B ^ 3)
    rw [mul_pow]
    linarith
  have C1 : |C| ≤ 105 / 100 := by
    have := abs_le.1 hC
    have := abs_le.1 h0
    rw [abs_le]; constructor <;> linarith
  have hc3 := cube_close C1 (h0.trans (by norm_num)) hC
  have hc3' := abs_le.1 hc3
  have hC' := abs_le.1 hC
  have h4 : |4 * C ^ 3 - 3 * C - ρ| ≤ 12 * σ := by
    rw [← hC0, abs_le]
    constructor <;> linarith
  have h5 : |h * (4 * C ^ 3 - 3 * C - ρ)| ≤ 36 / 100 * (12 * σ) * B ^ 3 :=
    prod_le (by rw [abs_of_nonneg hh0]; exact hhB) (by rw [mul_one]; exact h4) (mul_one _)
  have h6 : |(h - w) * ρ| ≤ 4 / 10 * (σ * B ^ 3) := by
    rw [abs_mul]
    exact (mul_le_of_le_one_right (abs_nonneg _) ρ1).trans hhw
  have h7 : |(w - g) * ρ| ≤ 2 * (σ ^ 3 * B ^ 3) := by
    rw [abs_mul]
    exact (mul_le_of_le_one_right (abs_nonneg _) ρ1).trans (by rw [abs_sub_comm]; exact hg)
  have e : (2 * r * C) ^ 3 + 3 * -q * (2 * r * C) - 2 * Q
      = 2 * (h * (4 * C ^ 3 - 3 * C - ρ)) + 2 * ((h - w) * ρ) + 2 * ((w - g) * ρ)
        + 2 * (ρ * g - Q) := by
    have : (2 * r * C) ^ 3 = 8 * (r ^ 2 * r) * C ^ 3 := by ring
    rw [this, rr, hh]
    ring
  have h5' := abs_le.1 h5
  have h6' := abs_le.1 h6
  have h7' := abs_le.1 h7
  have h8' := abs_le.1 hρ
  rw [e, abs_le]
  constructor <;> linarith

theorem pi_single : |(13176795 / 4194304 : ℝ) - Real.pi| ≤ 1 / 10 ^ 7 := by
  have h1 := Real.pi_gt_d20
  have h2 := Real.pi_lt_d20
  rw [abs_le]
  constructor
  · norm_num at h2 ⊢; linarith
  · norm_num at h1 ⊢; linarith

namespace CubicSetting

variable {τ B X : ℝ} (H : CubicSetting F τ B)

include H

/-- The angle of the first root. -/
theorem angle0 {ϑ A f : ℝ} {hϑ : ϑ ∈ F.grid ∧ |ϑ| ≤ F.max} {hf : f ∈ F.grid ∧ |f| ≤ F.max}
    (A0 : 0 ≤ A) (A1 : A ≤ 315 / 100) (hA : |ϑ - A| ≤ 6 * τ) (d : |f - 1 / 3| ≤ 4 / 3 * τ) :
    ∃ α hα, (fin ϑ hϑ * fin f hf : Fl F) = fin α hα ∧ |α - A / 3| ≤ 50 * τ ∧ |α| ≤ 8 := by
  have τ0 := H.τ0
  have τ1 := H.τ1
  have hA' := abs_le.1 hA
  obtain ⟨α, hα, e1, d1, m1⟩ := H.third_mul (hb := hϑ) (hf := hf) (W := 1) (k := 32 / 10) (e := 6)
    (b' := A) 0 (by norm_num) (pow_zero B).symm (by norm_num)
    (by rw [abs_le]; constructor <;> linarith) (by linarith) d
  exact ⟨α, hα, e1, by linarith, by linarith⟩

/-- The angles of the other two roots, with the single-precision constant for π. -/
theorem angle {ϑ A f m : ℝ} {hϑ : ϑ ∈ F.grid ∧ |ϑ| ≤ F.max} {hf : f ∈ F.grid ∧ |f| ≤ F.max}
    {hm : m ∈ F.grid ∧ |m| ≤ F.max} (m0 : 0 ≤ m) (m4 : m ≤ 4)
    (A0 : 0 ≤ A) (A1 : A ≤ 315 / 100) (hA : |ϑ - A| ≤ 6 * τ) (d : |f - 1 / 3| ≤ 4 / 3 * τ) :
    ∃ α hα, ((fin ϑ hϑ + fin m hm * piF32) * fin f hf : Fl F) = fin α hα ∧
      |α - (A + m * (13176795 / 4194304)) / 3| ≤ 50 * τ ∧ |α| ≤ 8 := by
  have τ0 := H.τ0
  have τ1 := H.τ1
  have hA' := abs_le.1 hA
  obtain ⟨π', hπ, e1, d1, m1, -⟩ := H.op (x := ((13176795 / 4194304 : ℚ) : ℝ)) (k := 315 / 100) (W := 1) 0
    (by norm_num) (pow_zero B).symm (by norm_num)
    (by push_cast; rw [abs_of_pos (by norm_num)]; norm_num)
  have e1' : (piF32 : Fl F) = fin π' hπ := e1
  push_cast at d1
  have d1' := abs_le.1 d1
  have m1' := abs_le.1 m1
  have h1 : |m * (π' - 13176795 / 4194304)| ≤ 4 * ((315 / 100 + 1) * τ) := by
    rw [abs_mul, abs_of_nonneg m0]
    exact mul_le_mul m4 (by linarith) (abs_nonneg _) (by norm_num)
  have h2 : |m * π'| ≤ 4 * (316 / 100) := by
    rw [abs_mul, abs_of_nonneg m0]
    exact mul_le_mul m4 (by linarith) (abs_nonneg _) (by norm_num)
  obtain ⟨y, hy, e2, d2, m2, -⟩ := H.op (x := m * π') (k := 127 / 10) (W := 1) 0
    (by norm_num) (pow_zero B).symm (by norm_num) (by linarith)
  have h1' := abs_le.1 h1
  have d2' := abs_le.1 d2
  have m2' := abs_le.1 m2
  obtain ⟨z, hz, e3, d3, m3, -⟩ := H.op (x := ϑ + y) (k := 1592 / 100) (W := 1) 0
    (by norm_num) (pow_zero B).symm (by norm_num) (by rw [abs_le]; constructor <;> linarith)
  have d3' := abs_le.1 d3
  obtain ⟨α, hα, e4, d4, m4⟩ := H.third_mul (hb := hz) (hf := hf) (W := 1) (k := 16) (e := 54)
    (b' := A + m * (13176795 / 4194304)) 0 (by norm_num) (pow_zero B).symm (by norm_num)
    (by linarith) (by rw [abs_le]; constructor <;> linarith) d
  refine ⟨α, hα, ?_, by linarith, by linarith⟩
  rw [e1', fin_mul, e2, fin_add, e3, e4]

/-- The denominator of the trigonometric formula. -/
theorem denominator {p : ℝ} {hp : p ∈ F.grid ∧ |p| ≤ F.max} (bp : |p| ≤ 1 / 2 * B ^ 2)
    (p0 : p < 0) : ∃ G g hg, (Scalar.sqrt (-fin p hp * fin p hp * fin p hp) : Fl F) = fin g hg ∧
      0 ≤ G ∧ |G - (-p) ^ 3| ≤ 2 * (τ * B ^ 6) ∧ |g - Real.sqrt G| ≤ 2 * (τ * B ^ 3) ∧
      0 ≤ g ∧ g ≤ 91 / 100 * B ^ 3 := by
  have τ0 := H.τ0
  have B0 := H.B0
  have hB6 : 0 ≤ B ^ 6 := by positivity
  have hT6 : 0 ≤ τ * B ^ 6 := by positivity
  obtain ⟨x1, w1, e1, d1, m1, r1⟩ := H.op (x := -p * p) (k := 1 / 4) 4 (by norm_num) rfl (by norm_num)
    (by
      have := prod_le (x := -p) (by rw [abs_neg]; exact bp) bp (by ring : B ^ 2 * B ^ 2 = B ^ 4)
      linarith)
  have h2 : |(x1 - -p * p) * p| ≤ (1 / 4 + 1) * τ * (1 / 2) * B ^ 6 :=
    prod_le (by linarith : |x1 - -p * p| ≤ (1 / 4 + 1) * τ * B ^ 4) bp (by ring)
  have h2' := abs_le.1 h2
  obtain ⟨G, wG, e2, d2, m2, r2⟩ := H.op (x := x1 * p) (k := 126 / 1000) 6 (by norm_num) rfl
    (by norm_num)
    (by have := prod_le m1 bp (by ring : B ^ 4 * B ^ 2 = B ^ 6); linarith)
  have d2' := abs_le.1 d2
  have hG : |G - (-p) ^ 3| ≤ 2 * (τ * B ^ 6) := by
    have e : (-p) ^ 3 = -p * p * p := by ring
    rw [e, abs_le]
    constructor <;> linarith
  have G0 : 0 ≤ G := by
    rw [r2]
    refine F.rnd_nonneg (mul_nonneg_of_nonpos_of_nonpos ?_ p0.le)
    rw [r1]
    refine F.rnd_nonpos ?_
    have := mul_self_nonneg p
    linarith
  rw [abs_of_nonneg G0] at m2
  obtain ⟨g, hg, e3, -, d3, g0, g1⟩ := H.root (hD := wG) G0 (by linarith)
  refine ⟨G, g, hg, ?_, G0, hG, d3, g0, g1⟩
  rw [fin_neg, fin_mul, e1, fin_mul, e2, e3]

/-- The cosine of the computed angle. -/
theorem cosine {σ q g ρ ϑ α C : ℝ} {X : ℝ} (L : AccurateLibrary F τ X) (hσ : τ = σ ^ 3)
    (σ0 : 1 / 10 ^ 6 ≤ σ) (σ1 : σ ≤ 1 / 16) (bq : |q| ≤ 3 / 4 * B ^ 3) (gpos : 0 < g)
    (g1 : g ≤ 91 / 100 * B ^ 3) (ρ1 : |ρ| ≤ 1) (eρ : ρ = F.rnd (q / g))
    (eϑ : ϑ = F.rnd (F.acosImpl ρ)) (bα : |α| ≤ 8) (eC : C = F.rnd (F.cosImpl α))
    (hm : ∀ A, 0 ≤ A → A ≤ 315 / 100 → |ϑ - A| ≤ 6 * τ →
      ∃ β, |α - β / 3| ≤ 50 * τ + 1 / (7 * 10 ^ 6) ∧ Real.cos β = Real.cos A) :
    |ρ * g - q| ≤ 3 * (τ * B ^ 3) ∧
    ∃ C0, |C0| ≤ 1 ∧ 4 * C0 ^ 3 - 3 * C0 = ρ ∧ |C - C0| ≤ 7 / 10 * σ := by
  have τ0 := H.τ0
  have τ1 := H.τ1
  have B0 := H.B0
  have hT3 : 0 ≤ τ * B ^ 3 := by positivity
  have σ00 : 0 ≤ σ := le_trans (by norm_num) σ0
  have τσ : τ ≤ 1 / 256 * σ := by
    have := mul_le_mul_of_nonneg_right (pow_le_pow_left₀ σ00 σ1 2) σ00
    rw [hσ]
    linarith
  refine ⟨?_, ?_⟩
  · have herr := F.rnd_err (q / g)
    rw [← eρ] at herr
    have h1 : |ρ - q / g| * g ≤ (F.u * |q / g| + F.eta) * g := mul_le_mul_of_nonneg_right herr gpos.le
    have e1 : |ρ - q / g| * g = |ρ * g - q| := by
      have : ρ * g - q = (ρ - q / g) * g := by field_simp
      rw [this, abs_mul, abs_of_pos gpos]
    have e2 : (F.u * |q / g| + F.eta) * g = F.u * |q| + F.eta * g := by
      rw [abs_div, abs_of_pos gpos]
      field_simp
    rw [e1, e2] at h1
    have h3 : F.u * |q| ≤ τ * (3 / 4 * B ^ 3) := mul_le_mul H.hu bq (abs_nonneg _) τ0
    have h4 : F.eta * g ≤ τ * (91 / 100 * B ^ 3) := mul_le_mul H.hη g1 gpos.le τ0
    linarith
  have A0 := Real.arccos_nonneg ρ
  have A1 : Real.arccos ρ ≤ 315 / 100 :=
    (Real.arccos_le_pi ρ).trans (by have := Real.pi_lt_d2; linarith)
  have hac := abs_le.1 (L.acos ρ ρ1)
  obtain ⟨ϑ2, -, -, d4, -, r4⟩ := H.op (x := F.acosImpl ρ) (k := 316 / 100) (W := 1) 0
    (by norm_num) (pow_zero B).symm (by norm_num) (by rw [abs_le]; constructor <;> linarith)
  have eϑ3 : ϑ = ϑ2 := by rw [eϑ, r4]
  have hϑA : |ϑ - Real.arccos ρ| ≤ 6 * τ := by
    rw [eϑ3]
    have := abs_le.1 d4
    rw [abs_le]; constructor <;> linarith
  obtain ⟨β, dβ, cβ⟩ := hm _ A0 A1 hϑA
  rw [Real.cos_arccos (abs_le.1 ρ1).1 (abs_le.1 ρ1).2] at cβ
  have hcos1 := abs_le.1 (L.cos α bα)
  have hcos2 : |Real.cos α - Real.cos (β / 3)| ≤ 50 * τ + 1 / (7 * 10 ^ 6) :=
    (Real.abs_cos_sub_cos_le α (β / 3)).trans dβ
  have hcos2' := abs_le.1 hcos2
  obtain ⟨C2, -, -, d5, -, r5⟩ := H.op (x := F.cosImpl α) (k := 101 / 100) (W := 1) 0
    (by norm_num) (pow_zero B).symm (by norm_num) (by
      have := Real.cos_le_one α
      have := Real.neg_one_le_cos α
      rw [abs_le]; constructor <;> linarith)
  have eC3 : C = C2 := by rw [eC, r5]
  have d5' := abs_le.1 d5
  refine ⟨Real.cos (β / 3), Real.abs_cos_le_one _, ?_, ?_⟩
  · rw [← Real.cos_three_mul, ← cβ]
    congr 1; ring
  · rw [eC3, abs_le]
    constructor <;> linarith

/-- The root computed from a cosine. -/
theorem trigValue {p C b f x r y v : ℝ} {hp : p ∈ F.grid ∧ |p| ≤ F.max}
    {hb : b ∈ F.grid ∧ |b| ≤ F.max} {hf : f ∈ F.grid ∧ |f| ≤ F.max}
    {hr : r ∈ F.grid ∧ |r| ≤ F.max} {hv : v ∈ F.grid ∧ |v| ≤ F.max} (bb : |b| ≤ B)
    (bp : |p| ≤ 1 / 2 * B ^ 2) (p0 : p < 0) (C1 : |C| ≤ 105 / 100) (df : |f - 1 / 3| ≤ 4 / 3 * τ)
    (er : (Scalar.sqrt (-fin p hp) * lit 2 : Fl F) = fin r hr) (ey : y = F.rnd (r * C))
    (ev : (fin b hb * fin f hf : Fl F) = fin v hv) (ex : x = F.rnd (y - v)) :
    |(x + b / 3) - 2 * Real.sqrt (-p) * C| ≤ 15 * (τ * B) ∧
    |2 * Real.sqrt (-p) * C| ≤ 15 / 10 * B := by
  have τ0 := H.τ0
  have τ1 := H.τ1
  have B0 := H.B0
  have hT1 : 0 ≤ τ * B := by positivity
  have hT1' : τ * B ≤ 1 / 1024 * B := mul_le_mul_of_nonneg_right τ1 B0
  obtain ⟨-, -, -, l2, -, -⟩ := H.lits
  have rq0 := Real.sqrt_nonneg (-p)
  have rqB : Real.sqrt (-p) ≤ 71 / 100 * B := by
    rw [← Real.sqrt_sq (by positivity : (0 : ℝ) ≤ 71 / 100 * B)]
    apply Real.sqrt_le_sqrt
    rw [abs_of_neg p0] at bp
    have : 0 ≤ B ^ 2 := by positivity
    linarith
  obtain ⟨z1, k1, e6, d6, m6, -⟩ := H.op (x := Real.sqrt (-p)) (k := 71 / 100) 1 (by norm_num)
    (pow_one B).symm (by norm_num) (by rw [abs_of_nonneg rq0]; exact rqB)
  have m6' := abs_le.1 m6
  obtain ⟨z2, k2, e7, d7, m7, -⟩ := H.op (x := z1 * 2) (k := 143 / 100) 1 (by norm_num)
    (pow_one B).symm (by norm_num) (by rw [abs_le]; constructor <;> linarith)
  have ez : (Scalar.sqrt (-fin p hp) * lit 2 : Fl F) = fin z2 k2 := by
    rw [fin_neg, l2]
    have : (Scalar.sqrt (fin (-p) ⟨F.neg_mem p hp.1, by rw [abs_neg]; exact hp.2⟩) : Fl F)
        = fin z1 k1 := by
      show (open Classical in if -p < 0 then (nan : Fl F) else F.round (Real.sqrt (-p))) = _
      rw [if_neg (not_lt.2 (by linarith)), e6]
    rw [this, fin_mul, e7]
  rw [ez] at er
  obtain rfl : z2 = r := by injection er
  have d6' := abs_le.1 d6
  have d7' := abs_le.1 d7
  have m7' := abs_le.1 m7
  have hz : |z2 - 2 * Real.sqrt (-p)| ≤ 59 / 10 * (τ * B) := by
    rw [abs_le]; constructor <;> linarith
  have h8 : |(z2 - 2 * Real.sqrt (-p)) * C| ≤ 59 / 10 * τ * (105 / 100) * B :=
    prod_le (by linarith : |z2 - 2 * Real.sqrt (-p)| ≤ 59 / 10 * τ * B) (by rw [mul_one]; exact C1)
      (mul_one B)
  have h9 : |z2 * C| ≤ 144 / 100 * (105 / 100) * B :=
    prod_le (by linarith : |z2| ≤ 144 / 100 * B) (by rw [mul_one]; exact C1) (mul_one B)
  obtain ⟨y2, hy2, -, d10, m10, r10⟩ := H.op (x := z2 * C) (k := 152 / 100) 1 (by norm_num)
    (pow_one B).symm (by norm_num) (by linarith)
  obtain rfl : y = y2 := by rw [ey, r10]
  obtain ⟨v2, hv2, e11, d11, m11⟩ := H.third_mul (hb := hb) (hf := hf) (W := B) (k := 1) (e := 0)
    (b' := b) 1 (by norm_num) (pow_one B).symm (by norm_num) (by linarith) (by simp) df
  rw [e11] at ev
  obtain rfl : v2 = v := by injection ev
  have m10' := abs_le.1 m10
  have m11' := abs_le.1 m11
  obtain ⟨x2, hx2, -, d12, m12, r12⟩ := H.op (x := y - v2) (k := 188 / 100) 1 (by norm_num)
    (pow_one B).symm (by norm_num) (by rw [abs_le]; constructor <;> linarith)
  obtain rfl : x = x2 := by rw [ex, r12]
  have d10' := abs_le.1 d10
  have d11' := abs_le.1 d11
  have d12' := abs_le.1 d12
  have h8' := abs_le.1 h8
  constructor
  · rw [abs_le]; constructor <;> linarith
  · have hbig : |2 * Real.sqrt (-p) * C| ≤ 2 * (71 / 100) * (105 / 100) * B :=
      prod_le (by rw [abs_of_nonneg (by linarith)]; linarith) (by rw [mul_one]; exact C1) (mul_one B)
    linarith

/-- One root of the trigonometric formula. -/
theorem trigRoot {σ p q b c d f x : ℝ} {X : ℝ} (L : AccurateLibrary F τ X) (hσ : τ = σ ^ 3)
    (σ0 : 1 / 10 ^ 6 ≤ σ) (σ1 : σ ≤ 1 / 16)
    {hp : p ∈ F.grid ∧ |p| ≤ F.max} {hq : q ∈ F.grid ∧ |q| ≤ F.max}
    {hb : b ∈ F.grid ∧ |b| ≤ F.max} {hf : f ∈ F.grid ∧ |f| ≤ F.max}
    {hx : x ∈ F.grid ∧ |x| ≤ F.max} (bb : |b| ≤ B)
    (bp : |p| ≤ 1 / 2 * B ^ 2) (bq : |q| ≤ 3 / 4 * B ^ 3) (p0 : p < 0)
    (dp : |p - (3 * c - b ^ 2) / 9| ≤ 3 * (τ * B ^ 2))
    (dq : |q - (9 * b * c - 27 * d - 2 * b ^ 3) / 54| ≤ 5 * (τ * B ^ 3))
    (df : |f - 1 / 3| ≤ 4 / 3 * τ) (m : Fl F) (θ : Fl F)
    (hθ : θ = Scalar.acos (fin q hq / Scalar.sqrt (-fin p hp * fin p hp * fin p hp)))
    (hm : ∀ ϑ hϑ, θ = fin ϑ hϑ →
      ∀ A, 0 ≤ A → A ≤ 315 / 100 → |ϑ - A| ≤ 6 * τ →
      ∃ α hα, m = fin α hα ∧ |α| ≤ 8 ∧ ∃ β, |α - β / 3| ≤ 50 * τ + 1 / (7 * 10 ^ 6) ∧
        Real.cos β = Real.cos A)
    (hm' : m.IsFinite → θ.IsFinite)
    (h : (Scalar.sqrt (-fin p hp) * lit 2 * Scalar.cos m - fin b hb * fin f hf : Fl F) = fin x hx) :
    |x ^ 3 + b * x ^ 2 + c * x + d| ≤ 62 * (σ * B ^ 3) := by
  have τ0 := H.τ0
  have τ1 := H.τ1
  have B0 := H.B0
  have σ00 : 0 ≤ σ := le_trans (by norm_num) σ0
  have τσ : τ ≤ 1 / 256 * σ := by
    have := mul_le_mul_of_nonneg_right (pow_le_pow_left₀ σ00 σ1 2) σ00
    rw [hσ]
    linarith
  obtain ⟨G, g, hg, eden, G0, hG, d3, g0, g1⟩ := H.denominator (hp := hp) bp p0
  obtain ⟨y, hy, v, hv, ey, ev, ex⟩ := sub_inv_fin h
  obtain ⟨r, hr, C, hC, er, eC, ey'⟩ := mul_inv_fin ey
  obtain ⟨α, hα, eα, eC'⟩ := cos_inv_fin eC
  obtain ⟨ϑ, hϑ, eϑ⟩ := isFinite_iff.1 (hm' (by rw [eα]; trivial))
  have eϑ2 := eϑ
  rw [hθ, eden] at eϑ2
  obtain ⟨ρ, hρ, eρ, ρ1, eϑ'⟩ := acos_inv_fin eϑ2
  obtain ⟨gne, eρ''⟩ := div_fin_inv eρ
  have gpos : 0 < g := lt_of_le_of_ne g0 (Ne.symm gne)
  have bα : |α| ≤ 8 := by
    have A1 : Real.arccos ρ ≤ 315 / 100 :=
      (Real.arccos_le_pi ρ).trans (by have := Real.pi_lt_d2; linarith)
    have hac := abs_le.1 (L.acos ρ ρ1)
    have A0 := Real.arccos_nonneg ρ
    obtain ⟨ϑ2, -, -, d4, -, r4⟩ := H.op (x := F.acosImpl ρ) (k := 316 / 100) (W := 1) 0
      (by norm_num) (pow_zero B).symm (by norm_num) (by rw [abs_le]; constructor <;> linarith)
    obtain ⟨α2, hα2, e2, b2, -⟩ := hm ϑ hϑ eϑ _ A0 A1 (by
      rw [show ϑ = ϑ2 by rw [eϑ', r4]]
      have := abs_le.1 d4
      rw [abs_le]; constructor <;> linarith)
    rw [eα] at e2
    obtain rfl : α = α2 := by injection e2
    exact b2
  obtain ⟨hquot, C0, hC0, hC0', hCC⟩ := H.cosine L hσ σ0 σ1 bq gpos g1 ρ1 eρ'' eϑ' bα eC' (by
    intro A A0 A1 hA
    obtain ⟨α2, hα2, e2, -, h3⟩ := hm ϑ hϑ eϑ A A0 A1 hA
    rw [eα] at e2
    obtain rfl : α = α2 := by injection e2
    exact h3)
  have hmain := trig_residual (σ := σ) (B := B) (q := -p) (Q := q) (G := G) (g := g) (ρ := ρ) (C := C)
    (C0 := C0) σ00 σ1 B0 (by linarith) (by rw [abs_of_neg p0] at bp; exact bp) G0
    (by rw [← hσ]; exact hG) (by rw [← hσ]; exact d3) ρ1 (by rw [← hσ]; exact hquot)
    hC0 hC0' hCC
  rw [neg_neg] at hmain
  have C1 : |C| ≤ 105 / 100 := by
    have := abs_le.1 hCC
    have := abs_le.1 hC0
    rw [abs_le]; constructor <;> linarith
  obtain ⟨hdiff, hbig⟩ := H.trigValue bb bp p0 C1 df er ey' ev ex
  have hT1' : τ * B ≤ 1 / 1024 * B := mul_le_mul_of_nonneg_right τ1 B0
  have hdiff' := abs_le.1 hdiff
  have hbig' := abs_le.1 hbig
  have hfin := depressed_close (P := (3 * c - b ^ 2) / 9) (Q := (9 * b * c - 27 * d - 2 * b ^ 3) / 54)
    τ0 B0 (by linarith : |2 * Real.sqrt (-p) * C| ≤ 26 / 10 * B)
    (by rw [abs_le]; constructor <;> linarith) hdiff bp dp dq hmain
  have e : x ^ 3 + b * x ^ 2 + c * x + d = (x + b / 3) ^ 3 + 3 * ((3 * c - b ^ 2) / 9) * (x + b / 3)
      - 2 * ((9 * b * c - 27 * d - 2 * b ^ 3) / 54) := by ring
  rw [e]
  refine hfin.trans ?_
  have hB3 : 0 ≤ B ^ 3 := by positivity
  have := mul_le_mul_of_nonneg_right τσ hB3
  have : 0 ≤ σ * B ^ 3 := by positivity
  linarith

end CubicSetting

end Stroke
