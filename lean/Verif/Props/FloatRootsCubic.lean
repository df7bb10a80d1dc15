import Verif.Lemmas.CubicFormulaError
import Verif.Props.FloatBoxCubic

/-!
# Cubic root finding in floating point (C105)

Cardano's formula in `roots_cubic` and `CubicBezier::real_roots`, and `solve_t_for_axis` built on
it, under rounding: the residual of a returned parameter is of the order of the cube root of the
machine precision, and not better.
-/

set_option linter.unusedSectionVars false

namespace Stroke

open Fl

variable {F : FloatFormat} {n : ℕ}

/-- A root found by Cardano's formula (non-negative discriminant). -/
theorem cardano_root {τ B X σ b c d p q D f x : ℝ} (H : CubicSetting F τ B)
    (L : AccurateLibrary F τ X) (hX : 2 * B ^ 3 ≤ X)
    (hd : (F.u + 3 * F.eta) * (2 + Real.log X) ≤ τ) (hσ : τ = σ ^ 3) (σ0 : 0 ≤ σ) (σ1 : σ ≤ 1 / 16)
    (hε : F.epsilon ≤ 2 * τ)
    {hq : q ∈ F.grid ∧ |q| ≤ F.max}
    {hb : b ∈ F.grid ∧ |b| ≤ F.max} {hf : f ∈ F.grid ∧ |f| ≤ F.max}
    {hD : D ∈ F.grid ∧ |D| ≤ F.max} {hx : x ∈ F.grid ∧ |x| ≤ F.max} (bb : |b| ≤ B)
    (bp : |p| ≤ 1 / 2 * B ^ 2) (bq : |q| ≤ 3 / 4 * B ^ 3)
    (dp : |p - (3 * c - b ^ 2) / 9| ≤ 3 * (τ * B ^ 2))
    (dq : |q - (9 * b * c - 27 * d - 2 * b ^ 3) / 54| ≤ 5 * (τ * B ^ 3))
    (dD : |D - (p ^ 3 + q ^ 2)| ≤ 6 * (τ * B ^ 6)) (bD : |D| ≤ 7 / 10 * B ^ 6) (D0 : 0 ≤ D)
    (df : |f - 1 / 3| ≤ 4 / 3 * τ) (ef : f = F.rnd (1 / 3)) {s t : Fl F}
    (es : s = Scalar.signum (fin q hq + Scalar.sqrt (fin D hD))
      * Scalar.powf (Scalar.abs (fin q hq + Scalar.sqrt (fin D hD))) (fin f hf))
    (et : t = Scalar.signum (fin q hq - Scalar.sqrt (fin D hD))
      * Scalar.powf (Scalar.abs (fin q hq - Scalar.sqrt (fin D hD))) (fin f hf))
    (h : fin x hx = -fin b hb * fin f hf + (s + t) ∨
      Scalar.lt (Scalar.abs (s - t)) (Scalar.epsilon : Fl F) = true ∧
        fin x hx = -fin b hb * fin f hf - (s + t) / lit 2) :
    |x ^ 3 + b * x ^ 2 + c * x + d| ≤ 62 * (σ * B ^ 3) := by
  have τ0 := H.τ0
  have τ1 := H.τ1
  have B0 := H.B0
  have B1 := H.B1
  have B3 : 0 ≤ B ^ 3 := by positivity
  have B6 : 0 ≤ B ^ 6 := by positivity
  have hT3 : 0 ≤ τ * B ^ 3 := by positivity
  have hT3' : τ * B ^ 3 ≤ 1 / 1024 * B ^ 3 := mul_le_mul_of_nonneg_right τ1 B3
  have hT1 : 0 ≤ τ * B := by positivity
  have hT1' : τ * B ≤ 1 / 1024 * B := mul_le_mul_of_nonneg_right τ1 B0
  obtain ⟨-, -, -, l2, -, -⟩ := H.lits
  rw [abs_of_nonneg D0] at bD
  obtain ⟨g, hg, eg, dg, -, g0, g1⟩ := H.root (hD := hD) D0 (by linarith)
  have bq' := abs_le.1 bq
  obtain ⟨P, hP, eP, dP, mP, -⟩ := H.op (x := q + g) (k := 166 / 100) 3 (by norm_num) rfl
    (by norm_num) (by rw [abs_le]; constructor <;> linarith)
  obtain ⟨Q, hQ, eQ, dQ, mQ, -⟩ := H.op (x := q - g) (k := 166 / 100) 3 (by norm_num) rfl
    (by norm_num) (by rw [abs_le]; constructor <;> linarith)
  obtain ⟨S, hS, eS, dS, bS⟩ := H.cubeRoot L hX hd (hp := hP) (hf := hf) (by linarith) ef
  obtain ⟨T, hT, eT, dT, bT⟩ := H.cubeRoot L hX hd (hp := hQ) (hf := hf) (by linarith) ef
  rw [eg, fin_add, eP, eS] at es
  rw [eg, fin_sub, eQ, eT] at et
  subst es et
  have dS' : |S ^ 3 - (q + g)| ≤ 34 * (τ * B ^ 3) := by
    have h1 := abs_le.1 dS
    have h2 := abs_le.1 dP
    rw [abs_le]; constructor <;> linarith only [h1.1, h1.2, h2.1, h2.2, hT3]
  have dT' : |T ^ 3 - (q - g)| ≤ 34 * (τ * B ^ 3) := by
    have h1 := abs_le.1 dT
    have h2 := abs_le.1 dQ
    rw [abs_le]; constructor <;> linarith only [h1.1, h1.2, h2.1, h2.2, hT3]
  have hgg : |g ^ 2 - (p ^ 3 + q ^ 2)| ≤ 10 * (τ * B ^ 6) := by
    have h1 := abs_le.1 dg
    have h2 := abs_le.1 dD
    rw [abs_le]; constructor <;> linarith only [h1.1, h1.2, h2.1, h2.2]
  have hprod : |S * T + p| ≤ 8 * (σ * B ^ 2) :=
    cardano_product σ0 σ1 B0 bq (by rw [abs_of_nonneg g0]; exact g1) (by rw [← hσ]; exact hgg)
      (by rw [← hσ]; exact dS') (by rw [← hσ]; exact dT')
  have hsum : |S ^ 3 + T ^ 3 - 2 * q| ≤ 68 * (σ ^ 3 * B ^ 3) := by
    rw [← hσ]
    have h1 := abs_le.1 dS'
    have h2 := abs_le.1 dT'
    rw [abs_le]; constructor <;> linarith only [h1.1, h1.2, h2.1, h2.2]
  have e : x ^ 3 + b * x ^ 2 + c * x + d = (x + b / 3) ^ 3 + 3 * ((3 * c - b ^ 2) / 9) * (x + b / 3)
      - 2 * ((9 * b * c - 27 * d - 2 * b ^ 3) / 54) := by ring
  have hfinal : 59 * (σ * B ^ 3) + 68 * (σ ^ 3 * B ^ 3) + 400 * (τ * B ^ 3) ≤ 62 * (σ * B ^ 3) := by
    have h1 : τ ≤ 1 / 256 * σ := by
      have := mul_le_mul_of_nonneg_right (pow_le_pow_left₀ σ0 σ1 2) σ0
      rw [hσ]
      linarith only [this]
    have h2 := mul_le_mul_of_nonneg_right h1 B3
    have h3 : 0 ≤ σ * B ^ 3 := by positivity
    rw [← hσ]
    linarith only [h2, h3]
  -- the shift and the sum
  obtain ⟨v, hv, ev, dv, mv⟩ := H.third_mul (b := -b)
    (hb := ⟨F.neg_mem b hb.1, by rw [abs_neg]; exact hb.2⟩) (hf := hf) (W := B) (k := 1) (e := 0)
    (b' := -b) 1 (by norm_num) (pow_one B).symm (by norm_num) (by rw [abs_neg]; linarith only [bb])
    (by simp) df
  have bS' := abs_le.1 bS
  have bT' := abs_le.1 bT
  obtain ⟨w, hw, ew, dw, mw, -⟩ := H.op (x := S + T) (k := 242 / 100) 1 (by norm_num)
    (pow_one B).symm (by norm_num) (by
      rw [abs_le]; constructor <;> linarith only [bS'.1, bS'.2, bT'.1, bT'.2])
  have dv' := abs_le.1 dv
  have mv' := abs_le.1 mv
  have dw' := abs_le.1 dw
  have mw' := abs_le.1 mw
  rcases h with h | ⟨hst, h⟩
  · rw [fin_neg, ev, fin_add, ew, fin_add] at h
    obtain ⟨z, hz, ez, dz, mz, rz⟩ := H.op (x := v + w) (k := 278 / 100) 1 (by norm_num)
      (pow_one B).symm (by norm_num) (by
        rw [abs_le]; constructor <;> linarith only [mv'.1, mv'.2, mw'.1, mw'.2, B1])
    rw [ez] at h
    obtain rfl : x = z := by injection h
    have dz' := abs_le.1 dz
    rw [e]
    refine (depressed_close (X := S + T) (P := (3 * c - b ^ 2) / 9) τ0 B0 ?_ ?_ ?_ bp dp dq
      (cardano_first σ0 B0 bS bT hprod hsum)).trans hfinal
    · rw [abs_le]; constructor <;> linarith only [bS'.1, bS'.2, bT'.1, bT'.2, B0]
    · rw [abs_le]; constructor <;>
        linarith only [bS'.1, bS'.2, bT'.1, bT'.2, dz'.1, dz'.2, dv'.1, dv'.2, dw'.1, dw'.2, B0, hT1']
    · rw [abs_le]; constructor <;>
        linarith only [dz'.1, dz'.2, dv'.1, dv'.2, dw'.1, dw'.2, hT1]
  · rw [fin_neg, ev, fin_add, ew, l2, fin_div (by norm_num)] at h
    obtain ⟨y, hy, ey, dy, my, -⟩ := H.op (x := w / 2) (k := 122 / 100) 1 (by norm_num)
      (pow_one B).symm (by norm_num) (by
        rw [abs_le]; constructor <;> linarith only [mw'.1, mw'.2, B1])
    have dy' := abs_le.1 dy
    have my' := abs_le.1 my
    rw [ey, fin_sub] at h
    obtain ⟨z, hz, ez, dz, mz, rz⟩ := H.op (x := v - y) (k := 278 / 100) 1 (by norm_num)
      (pow_one B).symm (by norm_num) (by
        rw [abs_le]; constructor <;> linarith only [mv'.1, mv'.2, my'.1, my'.2, B1])
    rw [ez] at h
    obtain rfl : x = z := by injection h
    have dz' := abs_le.1 dz
    have hdiff : |S - T| ≤ 6 * (σ ^ 3 * B) := by
      rw [← hσ]
      obtain ⟨r, hr, er, dr, mr, rr⟩ := H.op (x := S - T) (k := 242 / 100) 1 (by norm_num)
        (pow_one B).symm (by norm_num) (by
          rw [abs_le]; constructor <;> linarith only [bS'.1, bS'.2, bT'.1, bT'.2])
      rw [fin_sub, er, epsilon_eq] at hst
      have h1 : |r| < F.epsilon := lt_fin.1 hst
      have h1' := abs_lt.1 h1
      have dr' := abs_le.1 dr
      have hτB : τ ≤ τ * B := le_mul_of_one_le_right τ0 B1
      rw [abs_le]; constructor <;> linarith only [h1'.1, h1'.2, dr'.1, dr'.2, hε, hτB]
    rw [e]
    refine (depressed_close (X := -((S + T) / 2)) (P := (3 * c - b ^ 2) / 9) τ0 B0 ?_ ?_ ?_ bp dp dq
      (cardano_second σ0 σ1 B0 bS bT hprod hsum hdiff)).trans hfinal
    · rw [abs_le]; constructor <;> linarith only [bS'.1, bS'.2, bT'.1, bT'.2, B0]
    · rw [abs_le]; constructor <;>
        linarith only [bS'.1, bS'.2, bT'.1, bT'.2, dz'.1, dz'.2, dv'.1, dv'.2, dw'.1, dw'.2, dy'.1,
          dy'.2, B0, hT1']
    · rw [abs_le]; constructor <;>
        linarith only [dz'.1, dz'.2, dv'.1, dv'.2, dw'.1, dw'.2, dy'.1, dy'.2, hT1]

/-- Every finite number that `roots_cubic` returns for an equation whose leading coefficient is not
small solves the normalised equation up to an error of the order of `σ`, the cube root of the
precision `τ` of the arithmetic and of the library functions. -/
theorem roots_cubic_residual {τ B X σ a b c d bn cn dn x : ℝ} (H : CubicSetting F τ B)
    (L : AccurateLibrary F τ X) (hX : 2 * B ^ 3 ≤ X)
    (hd : (F.u + 3 * F.eta) * (2 + Real.log X) ≤ τ) (hσ : τ = σ ^ 3) (σ0 : 1 / 10 ^ 6 ≤ σ)
    (σ1 : σ ≤ 1 / 16) (hε : F.epsilon ≤ 2 * τ)
    {wa : a ∈ F.grid ∧ |a| ≤ F.max} {wb : b ∈ F.grid ∧ |b| ≤ F.max}
    {wc : c ∈ F.grid ∧ |c| ≤ F.max} {wd : d ∈ F.grid ∧ |d| ≤ F.max}
    {wbn : bn ∈ F.grid ∧ |bn| ≤ F.max} {wcn : cn ∈ F.grid ∧ |cn| ≤ F.max}
    {wdn : dn ∈ F.grid ∧ |dn| ≤ F.max} {wx : x ∈ F.grid ∧ |x| ≤ F.max} (ha : F.epsilon ≤ |a|)
    (eb : (fin b wb / fin a wa : Fl F) = fin bn wbn) (ec : (fin c wc / fin a wa : Fl F) = fin cn wcn)
    (ed : (fin d wd / fin a wa : Fl F) = fin dn wdn)
    (bb : |bn| ≤ B) (bc : |cn| ≤ B ^ 2) (bd : |dn| ≤ B ^ 3) {rs : List (Fl F)}
    (h : rootsCubic (fin a wa) (fin b wb) (fin c wc) (fin d wd) = some rs) (hx : fin x wx ∈ rs) :
    |x ^ 3 + bn * x ^ 2 + cn * x + dn| ≤ 62 * (σ * B ^ 3) := by
  have σ00 : 0 ≤ σ := le_trans (by norm_num) σ0
  obtain ⟨-, -, -, l2, l4, -⟩ := H.lits
  obtain ⟨p, hp, ep, dp, bp⟩ := H.delta0 (hb := wbn) (hc := wcn) bb bc
  obtain ⟨q, hq, eq, dq, bq⟩ := H.delta1 (hb := wbn) (hc := wcn) (hd := wdn) bb bc bd
  obtain ⟨D, hD, eD, dD, bD, pD⟩ := H.delta01 (hp := hp) (hq := hq) bp bq
  obtain ⟨f, hf, ef, df, rf⟩ := H.third
  have hsmall : ¬ (Scalar.lt (Scalar.abs (fin a wa : Fl F)) Scalar.epsilon = true) := by
    rw [epsilon_eq]
    show ¬ (Scalar.lt (fin |a| _ : Fl F) (fin F.epsilon _) = true)
    rw [lt_fin, not_lt]
    exact ha
  unfold rootsCubic at h
  simp only [avPush, List.length_nil, List.nil_append, List.length_singleton, Option.bind_eq_bind,
    Option.pure_def, show (0 : ℕ) < 3 by omega, show (1 : ℕ) < 3 by omega, if_true,
    Option.bind_some, List.length_append, List.cons_append, List.length_cons,
    show (1 + 1 : ℕ) < 3 by omega, show (0 + 1 + 1 : ℕ) < 3 by omega,
    show (0 + 1 : ℕ) < 3 by omega, eb, ec, ed, ep, eq, eD, ef] at h
  rw [if_neg hsmall] at h
  split_ifs at h with h1 h2
  · obtain rfl := Option.some.inj h
    rw [lit_zero] at h1
    have D0 := le_fin.1 h1
    rw [Bool.and_eq_true] at h2
    simp only [List.mem_cons, List.not_mem_nil, or_false] at hx
    exact cardano_root H L hX hd hσ σ00 σ1 hε bb bp bq dp dq dD bD D0 df rf rfl rfl
      (hx.imp id fun h => ⟨h2.1, h⟩)
  · obtain rfl := Option.some.inj h
    rw [lit_zero] at h1
    have D0 := le_fin.1 h1
    simp only [List.mem_cons, List.not_mem_nil, or_false] at hx
    exact cardano_root H L hX hd hσ σ00 σ1 hε bb bp bq dp dq dD bD D0 df rf rfl rfl (Or.inl hx)
  · obtain rfl := Option.some.inj h
    rw [lit_zero] at h1
    have D0 : D < 0 := by
      by_contra hc
      exact h1 (le_fin.2 (not_lt.1 hc))
    have p0 : p < 0 := by
      by_contra hc
      have := pD (not_lt.1 hc)
      linarith
    simp only [List.mem_cons, List.not_mem_nil, or_false] at hx
    have hπ := abs_le.1 pi_single
    rcases hx with hx | hx | hx
    · refine H.trigRoot (hq := hq) (c := cn) (d := dn) L hσ σ0 σ1 bb bp bq p0 dp dq df _ _ rfl ?_ ?_ hx.symm
      · intro ϑ hϑ e A A0 A1 hA
        rw [e]
        obtain ⟨α, hα, h1, h2, h3⟩ := H.angle0 (hϑ := hϑ) (hf := hf) A0 A1 hA df
        exact ⟨α, hα, h1, h3, A, by linarith [show (0 : ℝ) ≤ 1 / (7 * 10 ^ 6) by positivity], rfl⟩
      · exact fun h => (Reflects.finite.mul _ _ h).1
    · refine H.trigRoot (hq := hq) (c := cn) (d := dn) L hσ σ0 σ1 bb bp bq p0 dp dq df _ _ rfl ?_ ?_ hx.symm
      · intro ϑ hϑ e A A0 A1 hA
        rw [e, l2]
        obtain ⟨α, hα, h1, h2, h3⟩ := H.angle (hϑ := hϑ) (hf := hf) (m := 2)
          (hm := by exact_mod_cast F.int_ok 2 (by norm_num)) (by norm_num) (by norm_num) A0 A1 hA df
        refine ⟨α, hα, h1, h3, A + 2 * Real.pi, ?_, Real.cos_add_two_pi A⟩
        have h2' := abs_le.1 h2
        have : (2 : ℝ) * (1 / 10 ^ 7) / 3 ≤ 1 / (7 * 10 ^ 6) := by norm_num
        rw [abs_le]; constructor <;> linarith
      · exact fun h => (Reflects.finite.add _ _ (Reflects.finite.mul _ _ h).1).1
    · refine H.trigRoot (hq := hq) (c := cn) (d := dn) L hσ σ0 σ1 bb bp bq p0 dp dq df _ _ rfl ?_ ?_ hx.symm
      · intro ϑ hϑ e A A0 A1 hA
        rw [e, l4]
        obtain ⟨α, hα, h1, h2, h3⟩ := H.angle (hϑ := hϑ) (hf := hf) (m := 4)
          (hm := by exact_mod_cast F.int_ok 4 (by norm_num)) (by norm_num) (by norm_num) A0 A1 hA df
        refine ⟨α, hα, h1, h3, A + 4 * Real.pi, ?_, ?_⟩
        · have h2' := abs_le.1 h2
          have : (4 : ℝ) * (1 / 10 ^ 7) / 3 ≤ 1 / (7 * 10 ^ 6) := by norm_num
          rw [abs_le]; constructor <;> linarith
        · rw [show A + 4 * Real.pi = A + 2 * Real.pi + 2 * Real.pi by ring, Real.cos_add_two_pi,
            Real.cos_add_two_pi]
      · exact fun h => (Reflects.finite.add _ _ (Reflects.finite.mul _ _ h).1).1

/-! ### `solve_t_for_axis` of cubic curves -/

/-- The coefficients `solve_t_for_axis` computes. -/
theorem solve_coefficients_cubic {x0 x1 x2 x3 v M : ℝ}
    {h0 : x0 ∈ F.grid ∧ |x0| ≤ F.max} {h1 : x1 ∈ F.grid ∧ |x1| ≤ F.max}
    {h2 : x2 ∈ F.grid ∧ |x2| ≤ F.max} {h3 : x3 ∈ F.grid ∧ |x3| ≤ F.max}
    {hv : v ∈ F.grid ∧ |v| ≤ F.max} (hu : F.u ≤ 1 / 1024) (hη : F.eta ≤ F.u * M)
    (b0 : |x0| ≤ M) (b1 : |x1| ≤ M) (b2 : |x2| ≤ M) (b3 : |x3| ≤ M) (bv : |v| ≤ M)
    (hmax : 13 * M ≤ F.max) :
    ∃ a ha b hb c hc d hd,
      (-fin x0 h0 + fin x1 h1 * lit 3 - fin x2 h2 * lit 3 + fin x3 h3 : Fl F) = fin a ha ∧
      (fin x0 h0 * lit 3 - fin x1 h1 * lit 6 + fin x2 h2 * lit 3 : Fl F) = fin b hb ∧
      (-fin x0 h0 * lit 3 + fin x1 h1 * lit 3 : Fl F) = fin c hc ∧
      (fin x0 h0 - fin v hv : Fl F) = fin d hd ∧
      |a - (x3 - 3 * x2 + 3 * x1 - x0)| ≤ 31 * (F.u * M) ∧
      |b - 3 * (x0 - 2 * x1 + x2)| ≤ 39 * (F.u * M) ∧
      |c - 3 * (x1 - x0)| ≤ 16 * (F.u * M) ∧ |d - (x0 - v)| ≤ 3 * (F.u * M) := by
  have M0 : 0 ≤ M := (abs_nonneg x0).trans b0
  have uM0 : 0 ≤ F.u * M := mul_nonneg F.u_nonneg M0
  have l3 : (lit 3 : Fl F) = fin 3 (by exact_mod_cast F.int_ok 3 (by norm_num)) := by
    simpa using lit_int (F := F) 3 (by norm_num)
  have l6 : (lit 6 : Fl F) = fin 6 (by exact_mod_cast F.int_ok 6 (by norm_num)) := by
    simpa using lit_int (F := F) 6 (by norm_num)
  have b0' := abs_le.1 b0
  have b1' := abs_le.1 b1
  have b2' := abs_le.1 b2
  have b3' := abs_le.1 b3
  have bv' := abs_le.1 bv
  have tri : ∀ x y : ℝ, |x * y - x * y| ≤ 0 * (F.u * M) := fun x y => by simp
  have three : ∀ x, |x| ≤ M → |x * 3| ≤ 3 * M := fun x hx => by
    rw [abs_mul, abs_of_pos (by norm_num : (0 : ℝ) < 3)]; linarith only [hx]
  obtain ⟨y1, w1, e1, d1⟩ := unit_step (x := x1 * 3) hu M0 hη le_rfl (three _ b1) (tri _ _)
    (by linarith only [hmax, M0])
  obtain ⟨y2, w2, e2, d2⟩ := unit_step (x := x2 * 3) hu M0 hη le_rfl (three _ b2) (tri _ _)
    (by linarith only [hmax, M0])
  obtain ⟨y0, w0, e0, d0⟩ := unit_step (x := x0 * 3) hu M0 hη le_rfl (three _ b0) (tri _ _)
    (by linarith only [hmax, M0])
  obtain ⟨y6, w6, e6, d6⟩ := unit_step (x := x1 * 6) (B := 6) hu M0 hη le_rfl
    (by rw [abs_mul, abs_of_pos (by norm_num : (0 : ℝ) < 6)]; linarith only [b1]) (tri _ _)
    (by linarith only [hmax, M0])
  have d1' := abs_le.1 d1
  have d2' := abs_le.1 d2
  have d0' := abs_le.1 d0
  have d6' := abs_le.1 d6
  obtain ⟨z0, k0, f0, g0⟩ := unit_step (x := -x0 * 3) hu M0 hη le_rfl
    (three (-x0) (by rw [abs_neg]; exact b0)) (tri _ _) (by linarith only [hmax, M0])
  have g0' := abs_le.1 g0
  -- the leading coefficient
  obtain ⟨a1, v1, p1, q1⟩ := unit_step (x := -x0 + y1) (X := -x0 + x1 * 3) (B := 4) (e := 4) hu M0 hη
    (by norm_num) (by rw [abs_le]; constructor <;> linarith only [b0'.1, b0'.2, b1'.1, b1'.2])
    (by rw [abs_le]; constructor <;> linarith only [d1'.1, d1'.2]) (by linarith only [hmax, M0])
  have q1' := abs_le.1 q1
  obtain ⟨a2, v2, p2, q2⟩ := unit_step (x := a1 - y2) (X := -x0 + x1 * 3 - x2 * 3) (B := 7)
    (e := 131 / 10) hu M0 hη (by norm_num)
    (by rw [abs_le]; constructor <;> linarith only [b0'.1, b0'.2, b1'.1, b1'.2, b2'.1, b2'.2])
    (by rw [abs_le]; constructor <;> linarith only [d2'.1, d2'.2, q1'.1, q1'.2, uM0])
    (by linarith only [hmax, M0])
  have q2' := abs_le.1 q2
  obtain ⟨a, ha, p3, q3⟩ := unit_step (x := a2 + x3) (X := -x0 + x1 * 3 - x2 * 3 + x3) (B := 8)
    (e := 212 / 10) hu M0 hη (by norm_num)
    (by rw [abs_le]; constructor <;>
          linarith only [b0'.1, b0'.2, b1'.1, b1'.2, b2'.1, b2'.2, b3'.1, b3'.2])
    (by rw [abs_le]; constructor <;> linarith only [q2'.1, q2'.2, uM0]) (by linarith only [hmax, M0])
  have q3' := abs_le.1 q3
  -- the second coefficient
  obtain ⟨s1, t1, r1, j1⟩ := unit_step (x := y0 - y6) (X := x0 * 3 - x1 * 6) (B := 9) (e := 11) hu M0
    hη (by norm_num) (by rw [abs_le]; constructor <;> linarith only [b0'.1, b0'.2, b1'.1, b1'.2])
    (by rw [abs_le]; constructor <;> linarith only [d0'.1, d0'.2, d6'.1, d6'.2, uM0])
    (by linarith only [hmax, M0])
  have j1' := abs_le.1 j1
  obtain ⟨b, hb, r2, j2⟩ := unit_step (x := s1 + y2) (X := x0 * 3 - x1 * 6 + x2 * 3) (B := 12)
    (e := 252 / 10) hu M0 hη (by norm_num)
    (by rw [abs_le]; constructor <;> linarith only [b0'.1, b0'.2, b1'.1, b1'.2, b2'.1, b2'.2])
    (by rw [abs_le]; constructor <;> linarith only [j1'.1, j1'.2, d2'.1, d2'.2, uM0])
    (by linarith only [hmax, M0])
  have j2' := abs_le.1 j2
  -- the third and the last
  obtain ⟨c, hc, m1, i1⟩ := unit_step (x := z0 + y1) (X := -x0 * 3 + x1 * 3) (B := 6) (e := 8) hu M0
    hη (by norm_num) (by rw [abs_le]; constructor <;> linarith only [b0'.1, b0'.2, b1'.1, b1'.2])
    (by rw [abs_le]; constructor <;> linarith only [g0'.1, g0'.2, d1'.1, d1'.2, uM0])
    (by linarith only [hmax, M0])
  have i1' := abs_le.1 i1
  obtain ⟨d, hd, m2, i2⟩ := unit_step (x := x0 - v) (X := x0 - v) (B := 2) (e := 0) hu M0
    hη le_rfl (by rw [abs_le]; constructor <;> linarith only [b0'.1, b0'.2, bv'.1, bv'.2])
    (by simp) (by linarith only [hmax, M0])
  refine ⟨a, ha, b, hb, c, hc, d, hd, ?_, ?_, ?_, ?_, ?_, ?_, ?_, by linarith only [i2]⟩
  · rw [fin_neg, l3, fin_mul, e1, fin_add, p1, fin_mul, e2, fin_sub, p2, fin_add, p3]
  · rw [l3, l6, fin_mul, e0, fin_mul, e6, fin_sub, r1, fin_mul, e2, fin_add, r2]
  · rw [fin_neg, l3, fin_mul, f0, fin_mul, e1, fin_add, m1]
  · rw [fin_sub, m2]
  · rw [abs_le]; constructor <;> linarith only [q3'.1, q3'.2, uM0]
  · rw [abs_le]; constructor <;> linarith only [j2'.1, j2'.2, uM0]
  · rw [abs_le]; constructor <;> linarith only [i1'.1, i1'.2, uM0]

/-- The quotient of two computed coefficients. -/
theorem coefficient_quotient {τ B a b k3 k W : ℝ} (H : CubicSetting F τ B)
    {ha : a ∈ F.grid ∧ |a| ≤ F.max} {hb : b ∈ F.grid ∧ |b| ≤ F.max} (j : ℕ) (hj : j ≤ 6)
    (hW : 103 / 100 * W ≤ B ^ j) (W1 : 1 ≤ W) (k30 : 0 < |k3|) (da : |a - k3| ≤ 31 / 4000 * |k3|)
    (db : |b - k| ≤ 39 / 4000 * |k3|) (hk : |k| ≤ W * |k3|) :
    ∃ z hz, (fin b hb / fin a ha : Fl F) = fin z hz ∧ |z| ≤ B ^ j ∧
      |a * z - b| ≤ 2 * (τ * B ^ j) * |a| := by
  have a1 : 992 / 1000 * |k3| ≤ |a| := by
    have := abs_sub_abs_le_abs_sub k3 a
    rw [abs_sub_comm] at this
    linarith only [this, da, k30]
  have a0 : 0 < |a| := by linarith only [a1, k30]
  have hbk : |b| ≤ W * |k3| + 39 / 4000 * |k3| := by
    have := abs_add_le (b - k) k
    rw [sub_add_cancel] at this
    linarith only [this, db, hk]
  have hb1 : |b / a| ≤ 99 / 100 * B ^ j := by
    rw [abs_div, div_le_iff₀ a0]
    have h1 : (W + 39 / 4000) * |k3| ≤ (99 / 100 * (103 / 100 * W)) * (992 / 1000 * |k3|) := by
      have : (W + 39 / 4000) * |k3| ≤ (99 / 100 * (103 / 100 * W) * (992 / 1000)) * |k3| :=
        mul_le_mul_of_nonneg_right (by linarith only [W1]) k30.le
      linarith only [this]
    have h2 : (99 / 100 * (103 / 100 * W)) * (992 / 1000 * |k3|) ≤ (99 / 100 * B ^ j) * |a| :=
      mul_le_mul (by linarith only [hW]) a1 (by positivity) (by
        have := (H.pow_range j hj).1
        linarith only [this])
    linarith only [h1, h2, hbk]
  obtain ⟨z, hz, e, d, m, -⟩ := H.op (x := b / a) (k := 99 / 100) j hj rfl (by norm_num) hb1
  have hB := (H.pow_range j hj).1
  refine ⟨z, hz, by rw [fin_div (abs_pos.1 a0), e], by linarith only [m, hB], ?_⟩
  have e2 : a * z - b = (z - b / a) * a := by
    have := abs_pos.1 a0
    field_simp
  rw [e2, abs_mul]
  apply mul_le_mul_of_nonneg_right _ (abs_nonneg a)
  have := mul_nonneg H.τ0 (by linarith only [hB] : 0 ≤ B ^ j)
  linarith only [d, this]

/-- **C105**, `CubicBezier::solve_t_for_axis` in floating point.  Let `k3, …, k0` be the
coefficients of `eval(t)_i - value`; `B` bounds their ratios in the sense `|k2| ≤ B |k3|`,
`|k1| ≤ B² |k3|`, `|k0| ≤ B³ |k3|`.  If the arithmetic and the library functions have precision `τ`
and `k3` is not small, then every returned parameter is a number in (0, 1) at which the exact curve
has the value asked for up to `70 ∛τ B³ |k3|` (plus the error of computing the coefficients).
Missing for the full property: an error proportional to `τ` instead of its cube root, which fails
(`C105_false`). -/
theorem C105_solve_t_partial (q : CubicBezier (PointN (Fl F) n)) {v : ℝ}
    {hv : v ∈ F.grid ∧ |v| ≤ F.max} (i : Fin n) {M B τ σ : ℝ} (hσ : τ = σ ^ 3)
    (σ0 : 1 / 10 ^ 6 ≤ σ) (σ1 : σ ≤ 1 / 16) (L : AccurateLibrary F τ (3 * B ^ 3))
    (hd : (F.u + 3 * F.eta) * (2 + Real.log (3 * B ^ 3)) ≤ τ) (hε : F.epsilon ≤ 2 * τ)
    (hη : F.eta ≤ F.u * M) (hs : BoundedBy M q.start) (hc : BoundedBy M q.ctrl1)
    (hc' : BoundedBy M q.ctrl2) (he : BoundedBy M q.end_) (bv : |v| ≤ M) (B1 : 1 ≤ B)
    (hmax : 120 * B ^ 6 ≤ F.max) (hmax' : 13 * M ≤ F.max) {k3 k2 k1 k0 : ℝ}
    (h3 : k3 = (q.end_.coords i).toReal - 3 * (q.ctrl2.coords i).toReal
      + 3 * (q.ctrl1.coords i).toReal - (q.start.coords i).toReal)
    (h2 : k2 = 3 * ((q.start.coords i).toReal - 2 * (q.ctrl1.coords i).toReal
      + (q.ctrl2.coords i).toReal))
    (h1 : k1 = 3 * ((q.ctrl1.coords i).toReal - (q.start.coords i).toReal))
    (h0 : k0 = (q.start.coords i).toReal - v)
    (b2 : |k2| ≤ B * |k3|) (b1 : |k1| ≤ B ^ 2 * |k3|) (b0 : |k0| ≤ B ^ 3 * |k3|)
    (hk : 4000 * (F.u * M) ≤ |k3|) (hk' : 2 * F.epsilon ≤ |k3|)
    {ts : List (Fl F)} (h : q.solveTForAxis (fin v hv) i = some ts) (t : Fl F) (ht : t ∈ ts) :
    ∃ r, (∃ hr, t = fin r hr) ∧ 0 < r ∧ r < 1 ∧
      |(q.real.eval r).coords i - v| ≤ 70 * (σ * B ^ 3 * |k3|) + 90 * (F.u * M) := by
  have σ00 : 0 ≤ σ := le_trans (by norm_num) σ0
  have τ4 : τ ≤ 1 / 4096 := by
    have := pow_le_pow_left₀ σ00 σ1 3
    rw [hσ]; linarith only [this]
  have u0 := F.u_nonneg
  have η0 := F.eta_nonneg
  have B3 : 1 ≤ B ^ 3 := one_le_pow₀ B1
  have B2 : 1 ≤ B ^ 2 := one_le_pow₀ B1
  have B0 : 0 ≤ B := by linarith only [B1]
  have log0 : 0 ≤ Real.log (3 * B ^ 3) := Real.log_nonneg (by linarith only [B3])
  have hprod : 0 ≤ (F.u + 3 * F.eta) * Real.log (3 * B ^ 3) := by positivity
  have H : CubicSetting F τ (103 / 100 * B) := by
    refine ⟨by linarith only [hd, hprod, η0, u0], by linarith only [hd, hprod, η0, u0],
      by linarith only [τ4], by linarith only [B1], ?_⟩
    have e : 100 * (103 / 100 * B) ^ 6 = 100 * (103 / 100) ^ 6 * B ^ 6 := by ring
    have : 0 ≤ B ^ 6 := by positivity
    rw [e]
    norm_num
    linarith only [hmax, this]
  have hu : F.u ≤ 1 / 1024 := H.hu.trans H.τ1
  obtain ⟨i, hi⟩ := i
  obtain ⟨f0, c0⟩ := hs ⟨i, hi⟩
  obtain ⟨f1, c1⟩ := hc ⟨i, hi⟩
  obtain ⟨f2, c2⟩ := hc' ⟨i, hi⟩
  obtain ⟨f3, c3⟩ := he ⟨i, hi⟩
  obtain ⟨x0, w0, e0⟩ := isFinite_iff.1 f0
  obtain ⟨x1, w1, e1⟩ := isFinite_iff.1 f1
  obtain ⟨x2, w2, e2⟩ := isFinite_iff.1 f2
  obtain ⟨x3, w3, e3⟩ := isFinite_iff.1 f3
  rw [e0, toReal_fin] at c0
  rw [e1, toReal_fin] at c1
  rw [e2, toReal_fin] at c2
  rw [e3, toReal_fin] at c3
  simp only [e0, e1, e2, e3, toReal_fin] at h3 h2 h1 h0
  obtain ⟨a, ha, b, hb, c, hc, d, hd', ea, eb, ec, ed, da, db, dc, dd⟩ :=
    solve_coefficients_cubic (h0 := w0) (h1 := w1) (h2 := w2) (h3 := w3) (hv := hv) hu hη c0 c1 c2 c3
      bv hmax'
  rw [← h3] at da
  rw [← h2] at db
  rw [← h1] at dc
  rw [← h0] at dd
  obtain ⟨roots, hroots, hl⟩ := cubic_roots_some q (fin a ha) (fin b hb) (fin c hc) (fin d hd')
  have hts : ts = [] ∨
      ts = roots.filter fun r => Scalar.lt (lit 0) r && Scalar.lt r (lit 1) := by
    unfold CubicBezier.solveTForAxis at h
    obtain ⟨col, hcol⟩ := Option.isSome_iff_exists.1
      (cubic_colinear_isSome q (Scalar.epsilon : Fl F))
    rw [hcol] at h
    simp only [axis_some_pn _ hi, Option.bind_eq_bind, Option.bind_some, Option.pure_def] at h
    rw [e0, e1, e2, e3, ea, eb, ec, ed, hroots] at h
    simp only [Option.bind_some, keep_some roots (by omega)] at h
    split_ifs at h <;> first
      | (left; simpa using h.symm)
      | (right; simpa using h.symm)
  rcases hts with rfl | rfl
  · simp at ht
  obtain ⟨hmem, hcond⟩ := List.mem_filter.1 ht
  rw [Bool.and_eq_true] at hcond
  obtain ⟨x, hx, rfl, x00, x11⟩ := finite_of_between hcond.1 hcond.2
  refine ⟨x, ⟨hx, rfl⟩, x00, x11, ?_⟩
  have k30 : 0 < |k3| := by linarith only [hk', F.epsilon_pos]
  have uM0 : 0 ≤ F.u * M := mul_nonneg u0 ((abs_nonneg x0).trans c0)
  have da' : |a - k3| ≤ 31 / 4000 * |k3| := by linarith only [da, hk]
  obtain ⟨bn, wbn, ebn, bbn, rbn⟩ := coefficient_quotient H (ha := ha) (hb := hb) (W := B) 1
    (by norm_num) (by rw [pow_one]) B1 k30 da' (by linarith only [db, hk]) b2
  obtain ⟨cn, wcn, ecn, bcn, rcn⟩ := coefficient_quotient H (ha := ha) (hb := hc) (W := B ^ 2) 2
    (by norm_num) (by rw [mul_pow]; norm_num; linarith only [B2]) B2 k30 da'
    (by linarith only [dc, hk, uM0]) b1
  obtain ⟨dn, wdn, edn, bdn, rdn⟩ := coefficient_quotient H (ha := ha) (hb := hd') (W := B ^ 3) 3
    (by norm_num) (by rw [mul_pow]; norm_num; linarith only [B3]) B3 k30 da'
    (by linarith only [dd, hk, uM0]) b0
  rw [pow_one] at bbn rbn
  have haa : |a| ≤ 101 / 100 * |k3| := by
    have := abs_add_le (a - k3) k3
    rw [sub_add_cancel] at this
    linarith only [this, da', k30]
  have haε : F.epsilon ≤ |a| := by
    have := abs_sub_abs_le_abs_sub k3 a
    rw [abs_sub_comm] at this
    linarith only [this, da', hk', k30]
  have hres := roots_cubic_residual H L (by
      have e : 2 * (103 / 100 * B) ^ 3 = 2 * (103 / 100) ^ 3 * B ^ 3 := by ring
      rw [e]; norm_num; linarith only [B3]) hd hσ σ0 σ1 hε haε ebn ecn edn bbn bcn bdn hroots hmem
  -- collecting the errors
  have hval : (q.real.eval x).coords ⟨i, hi⟩ - v = k3 * x ^ 3 + k2 * x ^ 2 + k1 * x + k0 := by
    rw [cubic_real_eval, e0, e1, e2, e3, toReal_fin, toReal_fin, toReal_fin, toReal_fin, h3, h2, h1,
      h0]
    ring
  rw [hval]
  have px2 : x ^ 2 ≤ 1 := pow_le_one₀ x00.le x11.le
  have px3 : x ^ 3 ≤ 1 := pow_le_one₀ x00.le x11.le
  have small : ∀ {z e y : ℝ}, |z| ≤ e → 0 ≤ y → y ≤ 1 → |z * y| ≤ e := by
    intro z e y hz y0 y1
    rw [abs_mul, abs_of_nonneg y0]
    exact (mul_le_of_le_one_right (abs_nonneg z) y1).trans hz
  have s3 := abs_le.1 (small da (by positivity : 0 ≤ x ^ 3) px3)
  have s2 := abs_le.1 (small db (by positivity : 0 ≤ x ^ 2) px2)
  have s1 := abs_le.1 (small dc x00.le x11.le)
  have s0 := abs_le.1 dd
  have t2 := abs_le.1 (small rbn (by positivity : 0 ≤ x ^ 2) px2)
  have t1 := abs_le.1 (small rcn x00.le x11.le)
  have t0 := abs_le.1 rdn
  have main : |a * (x ^ 3 + bn * x ^ 2 + cn * x + dn)| ≤ |a| * (62 * (σ * (103 / 100 * B) ^ 3)) := by
    rw [abs_mul]
    exact mul_le_mul_of_nonneg_left hres (abs_nonneg a)
  have m' := abs_le.1 main
  have τσ : τ ≤ 1 / 256 * σ := by
    have := mul_le_mul_of_nonneg_right (pow_le_pow_left₀ σ00 σ1 2) σ00
    rw [hσ]
    linarith only [this]
  have a0 := abs_nonneg a
  -- everything in units of `σ B³ |a|`
  set U := σ * B ^ 3 * |a| with hU
  have U0 : 0 ≤ U := by positivity
  have E1 : |a| * (62 * (σ * (103 / 100 * B) ^ 3)) = 62 * (103 / 100) ^ 3 * U := by rw [hU]; ring
  have pB : ∀ w, 0 ≤ w → w ≤ (103 / 100) ^ 3 * B ^ 3 → 2 * (τ * w) * |a| ≤ 1 / 100 * U := by
    intro w w0 hw
    have h1 : τ * w ≤ 1 / 256 * σ * ((103 / 100) ^ 3 * B ^ 3) :=
      mul_le_mul τσ hw w0 (by positivity)
    have h2 := mul_le_mul_of_nonneg_right h1 a0
    have h3 : 1 / 256 * σ * ((103 / 100) ^ 3 * B ^ 3) * |a| = 1 / 256 * (103 / 100) ^ 3 * U := by
      rw [hU]; ring
    rw [h3] at h2
    norm_num at h2
    linarith only [h2, U0]
  have p1 := pB (103 / 100 * B) (by positivity) (by
    have := mul_le_mul_of_nonneg_left B2 B0
    norm_num
    linarith only [this, B0])
  have p2 := pB ((103 / 100 * B) ^ 2) (by positivity) (by
    have := mul_le_mul_of_nonneg_left B1 (by positivity : 0 ≤ B ^ 2)
    rw [mul_pow]
    norm_num
    linarith only [this, B2])
  have p3 := pB ((103 / 100 * B) ^ 3) (by positivity) (by rw [mul_pow])
  have hUk : U ≤ 101 / 100 * (σ * B ^ 3 * |k3|) := by
    rw [hU]
    have := mul_le_mul_of_nonneg_left haa (by positivity : 0 ≤ σ * B ^ 3)
    linarith only [this]
  rw [E1] at m'
  norm_num at m'
  have e : k3 * x ^ 3 + k2 * x ^ 2 + k1 * x + k0
      = a * (x ^ 3 + bn * x ^ 2 + cn * x + dn) - (a * bn - b) * x ^ 2 - (a * cn - c) * x
        - (a * dn - d) - (a - k3) * x ^ 3 - (b - k2) * x ^ 2 - (c - k1) * x - (d - k0) := by ring
  rw [e, abs_le]
  constructor <;>
    linarith only [m'.1, m'.2, t2.1, t2.2, t1.1, t1.2, t0.1, t0.2, s3.1, s3.2, s2.1, s2.2, s1.1,
      s1.2, s0.1, s0.2, p1, p2, p3, hUk, U0, uM0]

/-! ### binary64 -/

section

variable (cosI acosI : ℝ → ℝ) (powI : ℝ → ℝ → ℝ)

/-- The exact functions, rounded once, are accurate: a correctly rounded library. -/
theorem exact_library {F : FloatFormat} (hc : F.cosImpl = Real.cos) (ha : F.acosImpl = Real.arccos)
    (hp : F.powImpl = fun x y => x ^ y) {τ : ℝ} (τ0 : 0 ≤ τ) (X : ℝ) : AccurateLibrary F τ X := by
  refine ⟨fun x _ => ?_, fun x _ => ?_, fun x y x0 _ _ _ => ?_⟩
  · rw [hc, sub_self, abs_zero]; exact τ0
  · rw [ha, sub_self, abs_zero]; exact τ0
  · rw [hp, sub_self, abs_zero]
    have := Real.rpow_nonneg x0 y
    positivity

theorem log_bound : Real.log (3 * 1000 ^ 3) ≤ 29 := by
  rw [Real.log_le_iff_le_exp (by norm_num)]
  have h1 : (3 / 2 : ℝ) ≤ Real.exp (1 / 2) := by
    have := Real.add_one_le_exp (1 / 2)
    linarith
  have h2 : Real.exp 29 = Real.exp (1 / 2) ^ 58 := by rw [← Real.exp_nat_mul]; norm_num
  rw [h2]
  refine le_trans ?_ (pow_le_pow_left₀ (by norm_num) h1 58)
  norm_num

theorem unit_small :
    ((binary64 cosI acosI powI).u + 3 * (binary64 cosI acosI powI).eta) * (2 + 29)
      ≤ 2 ^ (-48 : ℤ) := by
  have hη := binary64_eta cosI acosI powI
  have hu : (binary64 cosI acosI powI).u = 2 ^ (-53 : ℤ) := rfl
  rw [hu]
  norm_num at hη ⊢
  linarith

/-- **C105** in binary64 for curves in units where the coordinate's cubic polynomial is not
dominated by its lower coefficients: if the ratios of the coefficients are bounded by `B ≤ 1000`,
no coordinate is larger than a million times the leading coefficient and the library functions are
accurate to 2⁻⁴⁸, then every returned parameter is in (0, 1) and the exact curve is within
`B³ |k3| / 900` of the requested value there. -/
theorem C105_binary64_partial (q : CubicBezier (PointN (Fl (binary64 cosI acosI powI)) n)) {v : ℝ}
    {hv : v ∈ (binary64 cosI acosI powI).grid ∧ |v| ≤ (binary64 cosI acosI powI).max} (i : Fin n)
    {M B : ℝ} (L : AccurateLibrary (binary64 cosI acosI powI) (2 ^ (-48 : ℤ)) (3 * B ^ 3))
    (hs : BoundedBy M q.start) (hc : BoundedBy M q.ctrl1) (hc' : BoundedBy M q.ctrl2)
    (he : BoundedBy M q.end_) (bv : |v| ≤ M) (B1 : 1 ≤ B) (B2 : B ≤ 1000) (hM : M ≤ 10 ^ 50)
    {k3 k2 k1 k0 : ℝ}
    (h3 : k3 = (q.end_.coords i).toReal - 3 * (q.ctrl2.coords i).toReal
      + 3 * (q.ctrl1.coords i).toReal - (q.start.coords i).toReal)
    (h2 : k2 = 3 * ((q.start.coords i).toReal - 2 * (q.ctrl1.coords i).toReal
      + (q.ctrl2.coords i).toReal))
    (h1 : k1 = 3 * ((q.ctrl1.coords i).toReal - (q.start.coords i).toReal))
    (h0 : k0 = (q.start.coords i).toReal - v)
    (b2 : |k2| ≤ B * |k3|) (b1 : |k1| ≤ B ^ 2 * |k3|) (b0 : |k0| ≤ B ^ 3 * |k3|)
    (hk : M ≤ 10 ^ 6 * |k3|) (hk' : 1 / 10 ^ 15 ≤ |k3|)
    {ts : List (Fl (binary64 cosI acosI powI))} (h : q.solveTForAxis (fin v hv) i = some ts)
    (t : Fl (binary64 cosI acosI powI)) (ht : t ∈ ts) :
    ∃ r, (∃ hr, t = fin r hr) ∧ 0 < r ∧ r < 1 ∧
      |(q.real.eval r).coords i - v| ≤ B ^ 3 * |k3| / 900 := by
  have hη := binary64_eta cosI acosI powI
  have hmax := binary64_max cosI acosI powI
  have husmall := unit_small cosI acosI powI
  have hu : (binary64 cosI acosI powI).u = 2 ^ (-53 : ℤ) := rfl
  have hε : (binary64 cosI acosI powI).epsilon = 2 ^ (-52 : ℤ) := rfl
  have hη0 := (binary64 cosI acosI powI).eta_nonneg
  have B3 : 1 ≤ B ^ 3 := one_le_pow₀ B1
  have B3' : B ^ 3 ≤ 1000 ^ 3 := pow_le_pow_left₀ (by linarith only [B1]) B2 3
  have B6' : B ^ 6 ≤ 1000 ^ 6 := pow_le_pow_left₀ (by linarith only [B1]) B2 6
  have hlog : Real.log (3 * B ^ 3) ≤ 29 :=
    (Real.log_le_log (by linarith only [B3]) (by linarith only [B3'])).trans log_bound
  have hM0 : |k3| ≤ 8 * M := by
    have a0 := abs_le.1 (hs i).2
    have a1 := abs_le.1 (hc i).2
    have a2 := abs_le.1 (hc' i).2
    have a3 := abs_le.1 (he i).2
    rw [h3, abs_le]
    constructor <;> linarith only [a0.1, a0.2, a1.1, a1.2, a2.1, a2.2, a3.1, a3.2]
  obtain ⟨r, hr, r0, r1, hres⟩ := C105_solve_t_partial q i (M := M) (B := B)
    (τ := 2 ^ (-48 : ℤ)) (σ := 2 ^ (-16 : ℤ)) (by norm_num) (by norm_num) (by norm_num) L
    (le_trans (mul_le_mul_of_nonneg_left (by linarith only [hlog])
      (by rw [hu]; positivity)) husmall)
    (by rw [hε]; norm_num) (by
      rw [hu]
      refine hη.trans ?_
      have : (2 : ℝ) ^ (-53 : ℤ) * (1 / 10 ^ 16) ≤ 2 ^ (-53 : ℤ) * M :=
        mul_le_mul_of_nonneg_left (by norm_num at hk' ⊢; linarith only [hk', hM0]) (by positivity)
      refine le_trans ?_ this
      norm_num) hs hc hc' he bv B1
    (by refine le_trans ?_ hmax; norm_num at B6' ⊢; linarith only [B6'])
    (by refine le_trans ?_ hmax; norm_num at hM ⊢; linarith only [hM])
    h3 h2 h1 h0 b2 b1 b0 (by rw [hu]; norm_num at hk ⊢; linarith only [hk, abs_nonneg k3])
    (by rw [hε]; norm_num at hk' ⊢; linarith only [hk']) h t ht
  refine ⟨r, hr, r0, r1, hres.trans ?_⟩
  have hk0 := abs_nonneg k3
  have hBk : |k3| ≤ B ^ 3 * |k3| := le_mul_of_one_le_left hk0 B3
  rw [hu, mul_assoc]
  norm_num at hk ⊢
  linarith only [hk, hBk, hk0]

/-- A curve in one dimension with control points `0, 2⁻²¹, 2⁻²⁰, 1 + 3·2⁻²¹`, that is
`t³ + 3·2⁻²¹ t`. -/
noncomputable def nearlyPure : CubicBezier (PointN (Fl (binary64 cosI acosI powI)) 1) :=
  ⟨⟨fun _ => fin 0 (FloatFormat.zero_ok _)⟩,
   ⟨fun _ => fin (2 ^ (-21 : ℤ)) (dyadic_ok _ _ _ 1 (-21) (by norm_num) (by norm_num)
      (by norm_num) (by norm_num [abs_le]))⟩,
   ⟨fun _ => fin (2 ^ (-20 : ℤ)) (dyadic_ok _ _ _ 1 (-20) (by norm_num) (by norm_num)
      (by norm_num) (by norm_num [abs_le]))⟩,
   ⟨fun _ => fin (1 + 3 * 2 ^ (-21 : ℤ)) (dyadic_ok _ _ _ (2 ^ 21 + 3) (-21)
      (by norm_num) (by norm_num) (by norm_num) (by norm_num [abs_le]))⟩⟩

/-- In binary64 `2⁻⁸ + 2⁻⁶³` rounds to `2⁻⁸`. -/
theorem rnd_absorb :
    (binary64 cosI acosI powI).rnd (2 ^ (-63 : ℤ) + 2 ^ (-8 : ℤ)) = 2 ^ (-8 : ℤ) := by
  show ieeeRnd 53 (-1074) (2 ^ (-63 : ℤ) + 2 ^ (-8 : ℤ)) = 2 ^ (-8 : ℤ)
  have x0 : (0 : ℝ) < 2 ^ (-63 : ℤ) + 2 ^ (-8 : ℤ) := by positivity
  have hl : Int.log 2 |(2 ^ (-63 : ℤ) + 2 ^ (-8 : ℤ) : ℝ)| = -8 := by
    rw [abs_of_pos x0]
    apply le_antisymm
    · have : Int.log 2 (2 ^ (-63 : ℤ) + 2 ^ (-8 : ℤ) : ℝ) < -7 := by
        rw [← Int.lt_zpow_iff_log_lt (by norm_num) x0]
        norm_num
      omega
    · rw [← Int.zpow_le_iff_le_log (by norm_num) x0]
      norm_num
  have hu : ulpExp 53 (-1074) (2 ^ (-63 : ℤ) + 2 ^ (-8 : ℤ)) = -60 := by
    unfold ulpExp
    rw [hl]
    norm_num
  unfold ieeeRnd
  rw [hu]
  have : roundEven ((2 ^ (-63 : ℤ) + 2 ^ (-8 : ℤ)) / 2 ^ (-60 : ℤ)) = 2 ^ 52 := by
    refine roundEven_unique (roundEven_spec _) (Or.inl ?_)
    norm_num [abs_lt]
  rw [this]
  norm_num

/-- The root the code computes for `x³ + 3·2⁻²¹ x - 1/8`: nearly 1/2, as if the linear term were
absent. -/
theorem pure_root (L : AccurateLibrary (binary64 cosI acosI powI) (2 ^ (-48 : ℤ)) 3)
    (q : CubicBezier (PointN (Fl (binary64 cosI acosI powI)) n)) {ha hb hc hd} :
    ∃ r hr, |r - 1 / 2| ≤ 1 / 10 ^ 11 ∧
    (q.realRoots (fin 1 ha) (fin 0 hb) (fin (3 * 2 ^ (-21 : ℤ)) hc) (fin (-1 / 8) hd)
      : Option (List (Fl (binary64 cosI acosI powI)))) = some [fin r hr] := by
  have hη := binary64_eta cosI acosI powI
  have hmax := binary64_max cosI acosI powI
  have husmall := unit_small cosI acosI powI
  have habsorb := rnd_absorb cosI acosI powI
  have hu : (binary64 cosI acosI powI).u = 2 ^ (-53 : ℤ) := rfl
  have hε : (binary64 cosI acosI powI).epsilon = 2 ^ (-52 : ℤ) := rfl
  have hη0 := (binary64 cosI acosI powI).eta_nonneg
  have ok := dyadic_ok cosI acosI powI
  set F := binary64 cosI acosI powI with hF
  have H : CubicSetting F (2 ^ (-48 : ℤ)) 1 := by
    refine ⟨by rw [hu]; norm_num, hη.trans (by norm_num), by norm_num, le_rfl, ?_⟩
    refine le_trans ?_ hmax
    norm_num
  obtain ⟨l3, l9, l27, l2, l4, l54⟩ := H.lits
  obtain ⟨f, hf, ef, df, rf⟩ := H.third
  have w0 := F.zero_ok
  have w1 : (2 ^ (-21 : ℤ) : ℝ) ∈ F.grid ∧ |(2 ^ (-21 : ℤ) : ℝ)| ≤ F.max :=
    ok 1 (-21) (by norm_num) (by norm_num) (by norm_num) (by norm_num [abs_le])
  have w16 : (1 / 16 : ℝ) ∈ F.grid ∧ |(1 / 16 : ℝ)| ≤ F.max :=
    ok 1 (-4) (by norm_num) (by norm_num) (by norm_num) (by norm_num [abs_le])
  have w8 : (1 / 8 : ℝ) ∈ F.grid ∧ |(1 / 8 : ℝ)| ≤ F.max :=
    ok 1 (-3) (by norm_num) (by norm_num) (by norm_num) (by norm_num [abs_le])
  have w256 : (2 ^ (-8 : ℤ) : ℝ) ∈ F.grid ∧ |(2 ^ (-8 : ℤ) : ℝ)| ≤ F.max :=
    ok 1 (-8) (by norm_num) (by norm_num) (by norm_num) (by norm_num [abs_le])
  have e0 : ((fin (3 * 2 ^ (-21 : ℤ)) hc * lit 3 - fin 0 hb * fin 0 hb) / lit 9 : Fl F)
      = fin (2 ^ (-21 : ℤ)) w1 := by
    have w : (9 * 2 ^ (-21 : ℤ) : ℝ) ∈ F.grid ∧ |(9 * 2 ^ (-21 : ℤ) : ℝ)| ≤ F.max :=
      ok 9 (-21) (by norm_num) (by norm_num) (by norm_num) (by norm_num [abs_le])
    rw [l3, l9, fin_mul, round_eq (y := 9 * 2 ^ (-21 : ℤ)) (by ring) w, fin_mul,
      round_eq (y := 0) (by norm_num) w0, fin_sub, round_eq (sub_zero _) w, fin_div (by norm_num)]
    exact round_eq (by ring) _
  have e1 : ((fin 0 hb * fin (3 * 2 ^ (-21 : ℤ)) hc * lit 9 - fin (-1 / 8) hd * lit 27
      - fin 0 hb * fin 0 hb * fin 0 hb * lit 2) / lit 54 : Fl F) = fin (1 / 16) w16 := by
    have w : (-27 / 8 : ℝ) ∈ F.grid ∧ |(-27 / 8 : ℝ)| ≤ F.max :=
      ok (-27) (-3) (by norm_num) (by norm_num) (by norm_num) (by norm_num [abs_le])
    have w' : (27 / 8 : ℝ) ∈ F.grid ∧ |(27 / 8 : ℝ)| ≤ F.max :=
      ok 27 (-3) (by norm_num) (by norm_num) (by norm_num) (by norm_num [abs_le])
    rw [l27, l9, l2, l54, fin_mul, round_eq (y := 0) (zero_mul _) w0, fin_mul,
      round_eq (y := 0) (zero_mul _) w0, fin_mul, round_eq (y := -27 / 8) (by norm_num) w, fin_sub,
      round_eq (y := 27 / 8) (by norm_num) w', fin_mul, round_eq (y := 0) (zero_mul _) w0, fin_mul,
      round_eq (y := 0) (zero_mul _) w0, fin_mul, round_eq (y := 0) (zero_mul _) w0, fin_sub,
      round_eq (sub_zero _) w', fin_div (by norm_num)]
    exact round_eq (by norm_num) _
  have e2 : (fin (2 ^ (-21 : ℤ)) w1 * fin (2 ^ (-21 : ℤ)) w1 * fin (2 ^ (-21 : ℤ)) w1
      + fin (1 / 16) w16 * fin (1 / 16) w16 : Fl F) = fin (2 ^ (-8 : ℤ)) w256 := by
    rw [fin_mul, round_eq (y := 2 ^ (-42 : ℤ)) (by norm_num) (ok 1 (-42) (by norm_num)
      (by norm_num) (by norm_num) (by norm_num [abs_le])), fin_mul,
      round_eq (y := 2 ^ (-63 : ℤ)) (by norm_num) (ok 1 (-63) (by norm_num)
      (by norm_num) (by norm_num) (by norm_num [abs_le])), fin_mul,
      round_eq (y := 2 ^ (-8 : ℤ)) (by norm_num) w256, fin_add,
      F.round_of_rnd_le (by rw [habsorb]; exact w256.2)]
    exact fin_congr habsorb
  have e3 : Scalar.sqrt (fin (2 ^ (-8 : ℤ)) w256 : Fl F) = fin (1 / 16) w16 := by
    show (open Classical in if (2 ^ (-8 : ℤ) : ℝ) < 0 then (nan : Fl F)
      else F.round (Real.sqrt (2 ^ (-8 : ℤ)))) = _
    rw [if_neg (by norm_num)]
    refine round_eq ?_ _
    rw [show (2 ^ (-8 : ℤ) : ℝ) = (1 / 16) ^ 2 by norm_num, Real.sqrt_sq (by norm_num)]
  have e4 : (fin (1 / 16) w16 + fin (1 / 16) w16 : Fl F) = fin (1 / 8) w8 := by
    rw [fin_add]
    exact round_eq (by norm_num) _
  have e5 : (fin (1 / 16) w16 - fin (1 / 16) w16 : Fl F) = fin 0 w0 := by
    rw [fin_sub]
    exact round_eq (by norm_num) _
  have q1 : ∀ {x : ℝ} (hx : x ∈ F.grid ∧ |x| ≤ F.max), (fin x hx / fin 1 ha : Fl F) = fin x hx := by
    intro x hx
    rw [fin_div one_ne_zero]
    exact round_eq (div_one x) _
  -- the two cube roots
  have hlog : Real.log 3 ≤ 29 := by
    have := Real.log_le_sub_one_of_pos (show (0 : ℝ) < 3 by norm_num)
    linarith only [this]
  obtain ⟨S, hS, eS, dS, bS⟩ := H.cubeRoot L (by norm_num)
    (le_trans (mul_le_mul_of_nonneg_left (by linarith only [hlog])
      (by rw [hu]; positivity)) husmall) (hp := w8) (hf := hf) (by norm_num [abs_of_pos]) rf
  have hS1 : |S - 1 / 2| ≤ 1 / 10 ^ 12 := by
    have h1 : S ^ 3 - 1 / 8 = (S - 1 / 2) * (S ^ 2 + S / 2 + 1 / 4) := by ring
    have h2 : 3 / 16 ≤ S ^ 2 + S / 2 + 1 / 4 := by nlinarith [sq_nonneg (S + 1 / 4)]
    rw [h1, abs_mul, abs_of_nonneg (by linarith only [h2] : 0 ≤ S ^ 2 + S / 2 + 1 / 4)] at dS
    have h3 := mul_le_mul_of_nonneg_left h2 (abs_nonneg (S - 1 / 2))
    norm_num at dS ⊢
    linarith only [h3, dS]
  have hf0 : 0 < f ∧ f ≤ 1 := by
    have := abs_le.1 df
    norm_num at this
    exact ⟨by linarith only [this.1], by linarith only [this.2]⟩
  obtain ⟨T, hT, eT, dT⟩ : ∃ T hT, (Scalar.signum (fin 0 w0)
      * Scalar.powf (Scalar.abs (fin 0 w0)) (fin f hf) : Fl F) = fin T hT ∧ |T| ≤ 1 / 10 ^ 12 := by
    have hpow := L.pow 0 f le_rfl (by norm_num) hf0.1.le hf0.2
    rw [Real.zero_rpow hf0.1.ne', sub_zero, add_zero, mul_one] at hpow
    obtain ⟨y, hy, ey, dy, my, -⟩ := H.op (x := F.powImpl 0 f) (k := 2 ^ (-48 : ℤ)) (W := 1) 0
      (by norm_num) (pow_zero _).symm (by norm_num) (by rw [mul_one]; exact hpow)
    have hpf : Scalar.powf (Scalar.abs (fin 0 w0)) (fin f hf) = fin y hy := by
      show (open Classical in if (|0| : ℝ) < 0 then (nan : Fl F) else F.round (F.powImpl |0| f)) = _
      rw [if_neg (by norm_num), abs_zero, ey]
    have hsg : Scalar.signum (fin 0 w0 : Fl F) = fin 1 F.one_ok := by
      show (open Classical in if (0 : ℝ) < 0 then F.round (-1) else F.round 1) = _
      rw [if_neg (by norm_num)]
      exact round_eq rfl _
    refine ⟨y, hy, ?_, ?_⟩
    · rw [hpf, hsg, fin_mul]
      exact round_eq (one_mul y) _
    · have h1 := abs_le.1 dy
      have h2 := abs_le.1 hpow
      norm_num at h1 h2
      rw [abs_le]
      norm_num
      exact ⟨by linarith only [h1.1, h2.1], by linarith only [h1.2, h2.2]⟩
  have hS1' := abs_le.1 hS1
  have dT' := abs_le.1 dT
  norm_num at hS1' dT'
  obtain ⟨r, hr, er, dr, mr, -⟩ := H.op (x := S + T) (k := 1) (W := 1) 0 (by norm_num)
    (pow_zero _).symm (by norm_num) (by
      rw [abs_le]; constructor <;> linarith only [hS1'.1, hS1'.2, dT'.1, dT'.2])
  obtain ⟨g, hg, eg, dg, mg, -⟩ := H.op (x := S - T) (k := 1) (W := 1) 0 (by norm_num)
    (pow_zero _).symm (by norm_num) (by
      rw [abs_le]; constructor <;> linarith only [hS1'.1, hS1'.2, dT'.1, dT'.2])
  have dr' := abs_le.1 dr
  have dg' := abs_le.1 dg
  norm_num at dr' dg'
  have hroot : (-fin 0 hb * fin f hf + (fin S hS + fin T hT) : Fl F) = fin r hr := by
    rw [fin_neg, fin_mul, round_eq (y := 0) (by ring) w0, fin_add, er, fin_add]
    exact round_eq (zero_add r) _
  have n1 : Scalar.lt (Scalar.abs (fin 1 ha : Fl F)) Scalar.epsilon = false := by
    rw [epsilon_eq, Bool.eq_false_iff]
    show ¬ (Scalar.lt (fin |1| _ : Fl F) (fin F.epsilon _) = true)
    rw [lt_fin, not_lt, abs_one, hε]
    norm_num
  have n2 : Scalar.le (lit 0 : Fl F) (fin (2 ^ (-8 : ℤ)) w256) = true := by
    rw [lit_zero]
    exact le_fin.2 (by positivity)
  have n3 : Scalar.lt (Scalar.abs (fin S hS - fin T hT : Fl F)) Scalar.epsilon = false := by
    rw [fin_sub, eg, epsilon_eq, Bool.eq_false_iff]
    show ¬ (Scalar.lt (fin |g| _ : Fl F) (fin F.epsilon _) = true)
    rw [lt_fin, not_lt, hε]
    refine le_trans ?_ (le_abs_self g)
    norm_num
    linarith only [dg'.1, hS1'.1, dT'.2]
  refine ⟨r, hr, ?_, ?_⟩
  · rw [abs_le]
    norm_num
    exact ⟨by linarith only [dr'.1, hS1'.1, dT'.1], by linarith only [dr'.2, hS1'.2, dT'.2]⟩
  · unfold CubicBezier.realRoots
    simp only [n1, q1, e0, e1, e2, e3, e4, e5, n2, ef, eS, eT, n3, hroot, Bool.false_and,
      Bool.false_eq_true, if_false, if_true]
    rfl

/-- The squared distance between the ends of `nearlyPure` is a float of at least 1. -/
theorem nearlyPure_length : ∃ R h, 1 ≤ R ∧
    Point.squaredLength ((nearlyPure cosI acosI powI).start
      - (nearlyPure cosI acosI powI).end_) = fin R h := by
  set F := binary64 cosI acosI powI with hF
  have ok := dyadic_ok cosI acosI powI
  rw [← hF] at ok
  have h1 : (fin 0 (FloatFormat.zero_ok _) : Fl F) - fin (1 + 3 * 2 ^ (-21 : ℤ))
      (ok (2 ^ 21 + 3) (-21) (by norm_num) (by norm_num) (by norm_num) (by norm_num [abs_le]))
      = fin (-(1 + 3 * 2 ^ (-21 : ℤ))) (ok (-(2 ^ 21 + 3)) (-21)
      (by norm_num) (by norm_num) (by norm_num) (by norm_num [abs_le])) := by
    rw [fin_sub]
    exact round_eq (by ring) _
  set x : ℝ := -(1 + 3 * 2 ^ (-21 : ℤ)) * -(1 + 3 * 2 ^ (-21 : ℤ)) with hx
  have x1 : 1 ≤ x := by rw [hx]; norm_num
  have x2 : x ≤ 2 := by rw [hx]; norm_num
  have r1 : 1 ≤ F.rnd x := by
    have := F.rnd_mono x1
    rwa [F.rnd_of_mem _ F.one_ok.1] at this
  have r2 : F.rnd x ≤ 2 := by
    have := F.rnd_mono x2
    rwa [F.rnd_of_mem 2 (ok 2 0 (by norm_num) (by norm_num) (by norm_num) (by norm_num)).1] at this
  have hm : |F.rnd x| ≤ F.max := by
    rw [abs_of_nonneg (by linarith)]
    linarith [F.max_ge]
  refine ⟨F.rnd x, ⟨F.rnd_mem x, hm⟩, r1, ?_⟩
  show (lit 0 : Fl F) + (fin 0 _ - fin (1 + 3 * 2 ^ (-21 : ℤ)) _)
    * (fin 0 _ - fin (1 + 3 * 2 ^ (-21 : ℤ)) _) = _
  rw [h1, fin_mul, ← hx, F.round_of_rnd_le hm, lit_zero, fin_add]
  exact round_eq (zero_add _) _

/-- **C105** is false in its strong form, an error of the order of the rounding unit: in binary64
with accurate library functions there is a curve with coordinates of at most 2, leading coefficient
1 and all other coefficients at most 1, for which `solve_t_for_axis` returns a single parameter at
which the curve is further than 5·10⁻⁷ (more than 2³¹ rounding units) from the value: Cardano's
formula loses a linear term of size 10⁻⁶ completely. -/
theorem C105_false (L : AccurateLibrary (binary64 cosI acosI powI) (2 ^ (-48 : ℤ)) 3) :
    ∃ (q : CubicBezier (PointN (Fl (binary64 cosI acosI powI)) 1)) (v r : ℝ)
    (hv : v ∈ (binary64 cosI acosI powI).grid ∧ |v| ≤ (binary64 cosI acosI powI).max)
    (hr : r ∈ (binary64 cosI acosI powI).grid ∧ |r| ≤ (binary64 cosI acosI powI).max),
    (BoundedBy 2 q.start ∧ BoundedBy 2 q.ctrl1 ∧ BoundedBy 2 q.ctrl2 ∧ BoundedBy 2 q.end_ ∧
      |v| ≤ 2) ∧
    (q.end_.coords 0).toReal - 3 * (q.ctrl2.coords 0).toReal
      + 3 * (q.ctrl1.coords 0).toReal - (q.start.coords 0).toReal = 1 ∧
    |3 * ((q.start.coords 0).toReal - 2 * (q.ctrl1.coords 0).toReal
      + (q.ctrl2.coords 0).toReal)| ≤ 1 ∧
    |3 * ((q.ctrl1.coords 0).toReal - (q.start.coords 0).toReal)| ≤ 1 ∧
    |(q.start.coords 0).toReal - v| ≤ 1 ∧
    q.solveTForAxis (fin v hv) 0 = some [fin r hr] ∧
    5 / 10 ^ 7 < |(q.real.eval r).coords 0 - v| := by
  obtain ⟨R, hR, R1, eR⟩ := nearlyPure_length cosI acosI powI
  have hpure := fun q hc hd => pure_root (n := 1) cosI acosI powI L q
    (ha := FloatFormat.one_ok _) (hb := FloatFormat.zero_ok _) (hc := hc) (hd := hd)
  set F := binary64 cosI acosI powI with hF
  have ok := dyadic_ok cosI acosI powI
  rw [← hF] at ok
  set q := nearlyPure cosI acosI powI with hq
  have w0 := F.zero_ok
  have hv : (1 / 8 : ℝ) ∈ F.grid ∧ |(1 / 8 : ℝ)| ≤ F.max :=
    ok 1 (-3) (by norm_num) (by norm_num) (by norm_num) (by norm_num [abs_le])
  have hd : (-1 / 8 : ℝ) ∈ F.grid ∧ |(-1 / 8 : ℝ)| ≤ F.max :=
    ok (-1) (-3) (by norm_num) (by norm_num) (by norm_num) (by norm_num [abs_le])
  have hc : (3 * 2 ^ (-21 : ℤ) : ℝ) ∈ F.grid ∧ |(3 * 2 ^ (-21 : ℤ) : ℝ)| ≤ F.max :=
    ok 3 (-21) (by norm_num) (by norm_num) (by norm_num) (by norm_num [abs_le])
  have hm : (-(3 * 2 ^ (-21 : ℤ)) : ℝ) ∈ F.grid ∧ |(-(3 * 2 ^ (-21 : ℤ)) : ℝ)| ≤ F.max :=
    ok (-3) (-21) (by norm_num) (by norm_num) (by norm_num) (by norm_num [abs_le])
  have h6 : (3 * 2 ^ (-20 : ℤ) : ℝ) ∈ F.grid ∧ |(3 * 2 ^ (-20 : ℤ) : ℝ)| ≤ F.max :=
    ok 3 (-20) (by norm_num) (by norm_num) (by norm_num) (by norm_num [abs_le])
  have hm6 : (-(3 * 2 ^ (-20 : ℤ)) : ℝ) ∈ F.grid ∧ |(-(3 * 2 ^ (-20 : ℤ)) : ℝ)| ≤ F.max :=
    ok (-3) (-20) (by norm_num) (by norm_num) (by norm_num) (by norm_num [abs_le])
  have l3 : (lit 3 : Fl F) = fin 3 (ok 3 0 (by norm_num) (by norm_num) (by norm_num)
      (by norm_num)) := round_eq (by norm_num) _
  have l6 : (lit 6 : Fl F) = fin 6 (ok 6 0 (by norm_num) (by norm_num) (by norm_num)
      (by norm_num)) := round_eq (by norm_num) _
  have c0 : q.start.coords ⟨0, by norm_num⟩ = fin 0 w0 := rfl
  have c1 : ∃ h, q.ctrl1.coords ⟨0, by norm_num⟩ = fin (2 ^ (-21 : ℤ)) h := ⟨_, rfl⟩
  have c2 : ∃ h, q.ctrl2.coords ⟨0, by norm_num⟩ = fin (2 ^ (-20 : ℤ)) h := ⟨_, rfl⟩
  have c3 : ∃ h, q.end_.coords ⟨0, by norm_num⟩ = fin (1 + 3 * 2 ^ (-21 : ℤ)) h := ⟨_, rfl⟩
  obtain ⟨w1, c1⟩ := c1
  obtain ⟨w2, c2⟩ := c2
  obtain ⟨w3, c3⟩ := c3
  have ea : (-fin 0 w0 + fin (2 ^ (-21 : ℤ)) w1 * lit 3 - fin (2 ^ (-20 : ℤ)) w2 * lit 3
      + fin (1 + 3 * 2 ^ (-21 : ℤ)) w3 : Fl F) = fin 1 F.one_ok := by
    rw [l3, fin_neg, fin_mul, round_eq (y := 3 * 2 ^ (-21 : ℤ)) (by ring) hc, fin_add,
      round_eq (y := 3 * 2 ^ (-21 : ℤ)) (by ring) hc, fin_mul,
      round_eq (y := 3 * 2 ^ (-20 : ℤ)) (by ring) h6, fin_sub,
      round_eq (y := -(3 * 2 ^ (-21 : ℤ))) (by norm_num) hm, fin_add]
    exact round_eq (by ring) _
  have eb : (fin 0 w0 * lit 3 - fin (2 ^ (-21 : ℤ)) w1 * lit 6 + fin (2 ^ (-20 : ℤ)) w2 * lit 3
      : Fl F) = fin 0 w0 := by
    rw [l3, l6, fin_mul, round_eq (y := 0) (by norm_num) w0, fin_mul,
      round_eq (y := 3 * 2 ^ (-20 : ℤ)) (by norm_num) h6, fin_sub,
      round_eq (y := -(3 * 2 ^ (-20 : ℤ))) (by ring) hm6, fin_mul,
      round_eq (y := 3 * 2 ^ (-20 : ℤ)) (by ring) h6, fin_add]
    exact round_eq (by ring) _
  have ec : (-fin 0 w0 * lit 3 + fin (2 ^ (-21 : ℤ)) w1 * lit 3 : Fl F)
      = fin (3 * 2 ^ (-21 : ℤ)) hc := by
    rw [l3, fin_neg, fin_mul, round_eq (y := 0) (by norm_num) w0, fin_mul,
      round_eq (y := 3 * 2 ^ (-21 : ℤ)) (by ring) hc, fin_add]
    exact round_eq (by ring) _
  have ed : (fin 0 w0 - fin (1 / 8) hv : Fl F) = fin (-1 / 8) hd := by
    rw [fin_sub]
    exact round_eq (by norm_num) _
  obtain ⟨r, hr, dr, hroots⟩ := hpure q hc hd
  have hpt : q.isAPoint Scalar.epsilon = false := by
    unfold CubicBezier.isAPoint
    simp only []
    rw [Bool.and_eq_false_iff]
    left
    rw [Bool.and_eq_false_iff]
    left
    rw [eR, epsilon_eq, fin_mul, round_eq (y := 2 ^ (-104 : ℤ)) (by
      show (2 : ℝ) ^ (1 - ((53 : ℕ) : ℤ)) * (2 : ℝ) ^ (1 - ((53 : ℕ) : ℤ)) = _
      norm_num) (ok 1 (-104) (by norm_num) (by norm_num) (by norm_num) (by norm_num [abs_le])),
      Bool.eq_false_iff]
    intro h
    have h1 := le_fin.1 h
    have h2 : (2 : ℝ) ^ (-104 : ℤ) < 1 := by norm_num
    linarith only [h1, h2, R1]
  have hlen : Scalar.lt (Point.squaredLength (q.start - q.end_)) (Scalar.epsilon : Fl F) = false := by
    rw [eR, epsilon_eq, Bool.eq_false_iff]
    intro h
    have h1 := lt_fin.1 h
    have h2 : F.epsilon ≤ 1 := by
      show (2 : ℝ) ^ (1 - ((53 : ℕ) : ℤ)) ≤ _
      norm_num
    linarith only [h1, h2, R1]
  have dr' := abs_le.1 dr
  norm_num at dr'
  refine ⟨q, 1 / 8, r, hv, hr, ⟨fun i => ⟨trivial, ?_⟩, fun i => ⟨trivial, ?_⟩,
    fun i => ⟨trivial, ?_⟩, fun i => ⟨trivial, ?_⟩, ?_⟩, ?_, ?_, ?_, ?_, ?_, ?_⟩
  · show |(0 : ℝ)| ≤ 2; norm_num
  · show |(2 ^ (-21 : ℤ) : ℝ)| ≤ 2; norm_num [abs_le]
  · show |(2 ^ (-20 : ℤ) : ℝ)| ≤ 2; norm_num [abs_le]
  · show |(1 + 3 * 2 ^ (-21 : ℤ) : ℝ)| ≤ 2; norm_num [abs_le]
  · norm_num [abs_le]
  · show (1 + 3 * 2 ^ (-21 : ℤ) : ℝ) - 3 * 2 ^ (-20 : ℤ) + 3 * 2 ^ (-21 : ℤ) - 0 = 1; norm_num
  · show |3 * ((0 : ℝ) - 2 * 2 ^ (-21 : ℤ) + 2 ^ (-20 : ℤ))| ≤ 1; norm_num
  · show |3 * ((2 : ℝ) ^ (-21 : ℤ) - 0)| ≤ 1; norm_num [abs_le]
  · show |(0 : ℝ) - 1 / 8| ≤ 1; norm_num [abs_le]
  · unfold CubicBezier.solveTForAxis
    obtain ⟨col, hcol⟩ := Option.isSome_iff_exists.1
      (cubic_colinear_isSome q (Scalar.epsilon : Fl F))
    rw [hcol]
    simp only [axis_some_pn _ (show 0 < 1 by norm_num), Option.bind_eq_bind, Option.bind_some,
      Option.pure_def, hpt, hlen, Bool.and_false, Bool.false_eq_true, if_false]
    rw [c0, c1, c2, c3, ea, eb, ec, ed, hroots]
    simp only [Option.bind_some]
    rw [keep_some _ (by simp)]
    congr 1
    rw [List.filter_cons_of_pos, List.filter_nil]
    rw [lit_zero, lit_one, Bool.and_eq_true]
    exact ⟨lt_fin.2 (by linarith only [dr'.1]), lt_fin.2 (by linarith only [dr'.2])⟩
  · rw [cubic_real_eval]
    show (5 : ℝ) / 10 ^ 7 < |(1 - r) ^ 3 * 0 + 3 * r * (1 - r) ^ 2 * 2 ^ (-21 : ℤ)
      + 3 * r ^ 2 * (1 - r) * 2 ^ (-20 : ℤ) + r ^ 3 * (1 + 3 * 2 ^ (-21 : ℤ)) - 1 / 8|
    rw [lt_abs]
    left
    have e : (1 - r) ^ 3 * 0 + 3 * r * (1 - r) ^ 2 * 2 ^ (-21 : ℤ)
        + 3 * r ^ 2 * (1 - r) * 2 ^ (-20 : ℤ) + r ^ 3 * (1 + 3 * 2 ^ (-21 : ℤ)) - 1 / 8
        = (r - 1 / 2) * (r ^ 2 + r / 2 + 1 / 4) + 3 * 2 ^ (-21 : ℤ) * r := by
      rw [show (2 : ℝ) ^ (-20 : ℤ) = 2 * 2 ^ (-21 : ℤ) by norm_num]
      ring
    rw [e]
    have p1 : |r ^ 2 + r / 2 + 1 / 4| ≤ 3 := by
      have h1 : 0 ≤ r := by linarith only [dr'.1]
      have h2 : r ≤ 1 := by linarith only [dr'.2]
      have h3 : r ^ 2 ≤ 1 := pow_le_one₀ h1 h2
      rw [abs_of_nonneg (by positivity)]
      linarith only [h2, h3]
    have p2 : |(r - 1 / 2) * (r ^ 2 + r / 2 + 1 / 4)| ≤ 1 / 10 ^ 11 * 3 := by
      rw [abs_mul]
      exact mul_le_mul dr p1 (abs_nonneg _) (by norm_num)
    have p2' := abs_le.1 p2
    norm_num at p2' ⊢
    linarith only [p2'.1, dr'.1]

/-- The hypotheses of `C105_binary64_partial` are met, with a parameter returned, by the curve of
`C105_false` and a correctly rounded library. -/
example : ∃ (q : CubicBezier (PointN (Fl (binary64 Real.cos Real.arccos fun x y => x ^ y)) 1))
    (v : ℝ) (hv : v ∈ (binary64 Real.cos Real.arccos fun x y => x ^ y).grid ∧
      |v| ≤ (binary64 Real.cos Real.arccos fun x y => x ^ y).max) (r : ℝ) (hr : _),
    q.solveTForAxis (fin v hv) 0 = some [fin r hr] ∧ 0 < r ∧ r < 1 ∧
    5 / 10 ^ 7 < |(q.real.eval r).coords 0 - v| ∧ |(q.real.eval r).coords 0 - v| ≤ 1 / 900 := by
  have L : ∀ X, AccurateLibrary (binary64 Real.cos Real.arccos fun x y => x ^ y)
      (2 ^ (-48 : ℤ)) X := exact_library rfl rfl rfl (by positivity)
  obtain ⟨q, v, r, hv, hr, ⟨b0, b1, b2, b3, bv⟩, k3, k2, k1, k0, h, hfar⟩ :=
    C105_false Real.cos Real.arccos (fun x y => x ^ y) (L 3)
  have key := C105_binary64_partial Real.cos Real.arccos (fun x y => x ^ y) q (0 : Fin 1) (M := 2)
    (B := 1) (L _) b0 b1 b2 b3 bv le_rfl (by norm_num) (by norm_num) k3.symm rfl rfl rfl
    (by rw [abs_one]; linarith only [k2]) (by rw [abs_one]; linarith only [k1])
    (by rw [abs_one]; linarith only [k0]) (by norm_num) (by norm_num) h (fin r hr) (by simp)
  obtain ⟨r', ⟨hr', e⟩, r0, r1, hle⟩ := key
  obtain rfl : r = r' := by injection e
  refine ⟨q, v, hv, r, hr, h, r0, r1, hfar, ?_⟩
  norm_num at hle ⊢
  exact hle

end

end Stroke
