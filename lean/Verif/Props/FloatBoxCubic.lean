import Verif.Props.FloatBoxContains
import Verif.Props.FloatRoots
import Verif.Lemmas.Extrema

/-!
# Floating point: bounding boxes of well-conditioned cubic curves (C84)

`C84_cubic_false` shows that the floating-point box of a cubic curve can miss a large part of the
curve when its leading coefficient is small.  Here: when the leading coefficient is not small, the
box contains the curve up to rounding.
-/

set_option linter.unusedSectionVars false

namespace Stroke

variable {F : FloatFormat} {n : ℕ}

open Fl

/-- One rounded operation, with errors measured in units of `u M`. -/
theorem unit_step {x X M B e : ℝ} (hu : F.u ≤ 1 / 1024) (M0 : 0 ≤ M) (hη : F.eta ≤ F.u * M)
    (e0 : 0 ≤ e) (hX : |X| ≤ B * M) (hx : |x - X| ≤ e * (F.u * M))
    (hmax : (B + e / 1024) * M ≤ F.max) :
    ∃ z hz, F.round x = fin z hz ∧ |z - X| ≤ (B + 1 + 1025 / 1024 * e) * (F.u * M) := by
  have u0 := F.u_nonneg
  have uM : F.u * M ≤ 1 / 1024 * M := mul_le_mul_of_nonneg_right hu M0
  have uM0 : 0 ≤ F.u * M := mul_nonneg u0 M0
  have euM : e * (F.u * M) ≤ e * (1 / 1024 * M) := mul_le_mul_of_nonneg_left uM e0
  have h1 := abs_add_le X (x - X)
  rw [add_sub_cancel] at h1
  have hxB : |x| ≤ (B + e / 1024) * M := by
    have : (B + e / 1024) * M = B * M + e * (1 / 1024 * M) := by ring
    rw [this]; linarith
  refine ⟨F.rnd x, ⟨F.rnd_mem x, F.abs_rnd_le F.max_mem (hxB.trans hmax)⟩,
    F.round_of_le (hxB.trans hmax), ?_⟩
  have herr := F.rnd_err x
  have h2 := mul_le_mul_of_nonneg_left hxB u0
  have h3 := abs_add_le (F.rnd x - x) (x - X)
  rw [sub_add_sub_cancel] at h3
  have e1 : F.u * ((B + e / 1024) * M) = (B + e / 1024) * (F.u * M) := by ring
  have e2 : (B + 1 + 1025 / 1024 * e) * (F.u * M)
      = (B + e / 1024) * (F.u * M) + F.u * M + e * (F.u * M) := by ring
  rw [e2]
  linarith

/-! ### The coefficients of the derivative -/

/-- The coefficients `bounding_box` computes for the derivative of a cubic. -/
theorem derivative_coefficients {x0 x1 x2 x3 M : ℝ}
    {h0 : x0 ∈ F.grid ∧ |x0| ≤ F.max} {h1 : x1 ∈ F.grid ∧ |x1| ≤ F.max}
    {h2 : x2 ∈ F.grid ∧ |x2| ≤ F.max} {h3 : x3 ∈ F.grid ∧ |x3| ≤ F.max}
    (hu : F.u ≤ 1 / 1024) (hη : F.eta ≤ F.u * M)
    (b0 : |x0| ≤ M) (b1 : |x1| ≤ M) (b2 : |x2| ≤ M) (b3 : |x3| ≤ M) (hmax : 25 * M ≤ F.max) :
    ∃ a ha b hb c hc,
      ((fin x1 h1 - fin x0 h0) * lit 3 + (fin x2 h2 - fin x1 h1) * lit 3 * lit (-2)
        + (fin x3 h3 - fin x2 h2) * lit 3 : Fl F) = fin a ha ∧
      ((fin x1 h1 - fin x0 h0) * lit 3 * lit (-2) + (fin x2 h2 - fin x1 h1) * lit 3 * lit 2
        : Fl F) = fin b hb ∧
      ((fin x1 h1 - fin x0 h0) * lit 3 : Fl F) = fin c hc ∧
      |a - 3 * (x3 - 3 * x2 + 3 * x1 - x0)| ≤ 128 * (F.u * M) ∧
      |b - 6 * (x2 - 2 * x1 + x0)| ≤ 122 * (F.u * M) ∧
      |c - 3 * (x1 - x0)| ≤ 17 * (F.u * M) := by
  have u0 := F.u_nonneg
  have M0 : 0 ≤ M := (abs_nonneg _).trans b0
  have uM0 : 0 ≤ F.u * M := mul_nonneg u0 M0
  have e3 : (lit 3 : Fl F) = fin ((3 : ℤ) : ℝ) (F.int_ok 3 (by norm_num)) :=
    lit_int 3 (by norm_num)
  have e2 : (lit 2 : Fl F) = fin ((2 : ℤ) : ℝ) (F.int_ok 2 (by norm_num)) :=
    lit_int 2 (by norm_num)
  have em2 : (lit (-2) : Fl F) = fin ((-2 : ℤ) : ℝ) (F.int_ok (-2) (by norm_num)) := by
    have := lit_int (F := F) (-2) (by norm_num)
    rwa [show (((-2 : ℤ)) : ℚ) = -2 by norm_num] at this
  -- `3 (y - x)`
  have hd : ∀ (x y : ℝ) (hx : x ∈ F.grid ∧ |x| ≤ F.max) (hy : y ∈ F.grid ∧ |y| ≤ F.max),
      |x| ≤ M → |y| ≤ M → ∃ d hd, ((fin y hy - fin x hx) * lit 3 : Fl F) = fin d hd ∧
        |d - 3 * (y - x)| ≤ 17 * (F.u * M) := by
    intro x y hx hy bx by'
    have hxy : |y - x| ≤ 2 * M := by
      have := abs_sub y x
      linarith
    obtain ⟨z, hz, ez, dz⟩ := unit_step (x := y - x) (X := y - x) (B := 2) (e := 0) hu M0 hη
      le_rfl hxy (by simp) (by linarith)
    have hz3 : |z * 3 - 3 * (y - x)| ≤ 9 * (F.u * M) := by
      have : z * 3 - 3 * (y - x) = 3 * (z - (y - x)) := by ring
      rw [this, abs_mul, abs_of_pos (by norm_num : (0 : ℝ) < 3)]
      linarith
    have h3xy : |3 * (y - x)| ≤ 6 * M := by
      rw [abs_mul, abs_of_pos (by norm_num : (0 : ℝ) < 3)]
      linarith
    obtain ⟨d, hd, ed, dd⟩ := unit_step hu M0 hη (by norm_num) h3xy hz3 (by linarith)
    refine ⟨d, hd, ?_, dd.trans ?_⟩
    · rw [fin_sub, ez, e3, fin_mul, ← ed]
      norm_num
    · apply mul_le_mul_of_nonneg_right _ uM0; norm_num
  -- multiplication by ±2
  have hm : ∀ (s : ℤ) (d X : ℝ) (hd : d ∈ F.grid ∧ |d| ≤ F.max), |s| = 2 → |X| ≤ 6 * M →
      |d - X| ≤ 17 * (F.u * M) → ∀ hs, ∃ z hz, (fin d hd * fin (s : ℝ) hs : Fl F) = fin z hz ∧
        |z - s * X| ≤ 48 * (F.u * M) := by
    intro s d X hd hs bX dX hs'
    have hs2 : |(s : ℝ)| = 2 := by exact_mod_cast hs
    have h1 : |d * s - s * X| ≤ 34 * (F.u * M) := by
      have : d * s - s * X = s * (d - X) := by ring
      rw [this, abs_mul, hs2]
      linarith
    have h2 : |s * X| ≤ 12 * M := by rw [abs_mul, hs2]; linarith
    obtain ⟨z, hz, ez, dz⟩ := unit_step hu M0 hη (by norm_num) h2 h1 (by linarith)
    refine ⟨z, hz, by rw [fin_mul, ez], dz.trans ?_⟩
    apply mul_le_mul_of_nonneg_right _ uM0; norm_num
  have h6 : ∀ x y : ℝ, |x| ≤ M → |y| ≤ M → |3 * (y - x)| ≤ 6 * M := by
    intro x y hx hy
    have := abs_sub y x
    rw [abs_mul, abs_of_pos (by norm_num : (0 : ℝ) < 3)]
    linarith
  obtain ⟨d0, hd0, ed0, dd0⟩ := hd x0 x1 h0 h1 b0 b1
  obtain ⟨d1, hd1, ed1, dd1⟩ := hd x1 x2 h1 h2 b1 b2
  obtain ⟨d2, hd2, ed2, dd2⟩ := hd x2 x3 h2 h3 b2 b3
  obtain ⟨p, hp, ep, dp⟩ := hm (-2) d0 _ hd0 (by norm_num) (h6 _ _ b0 b1) dd0
    (F.int_ok (-2) (by norm_num))
  obtain ⟨r, hr, er, dr⟩ := hm 2 d1 _ hd1 (by norm_num) (h6 _ _ b1 b2) dd1
    (F.int_ok 2 (by norm_num))
  obtain ⟨q, hq, eq, dq⟩ := hm (-2) d1 _ hd1 (by norm_num) (h6 _ _ b1 b2) dd1
    (F.int_ok (-2) (by norm_num))
  push_cast at dp dr dq
  have A0 := abs_le.1 b0
  have A1 := abs_le.1 b1
  have A2 := abs_le.1 b2
  have A3 := abs_le.1 b3
  -- b
  have hb1 : |p + r - 6 * (x2 - 2 * x1 + x0)| ≤ 96 * (F.u * M) := by
    have := abs_le.1 dp
    have := abs_le.1 dr
    rw [abs_le]; constructor <;> linarith
  have hb2 : |6 * (x2 - 2 * x1 + x0)| ≤ 24 * M := by rw [abs_le]; constructor <;> linarith
  obtain ⟨b, hb, eb, db⟩ := unit_step hu M0 hη (by norm_num) hb2 hb1 (by linarith)
  -- a
  have ha1 : |d0 + q - (3 * (x1 - x0) - 6 * (x2 - x1))| ≤ 65 * (F.u * M) := by
    have := abs_le.1 dd0
    have := abs_le.1 dq
    rw [abs_le]; constructor <;> linarith
  have ha2 : |3 * (x1 - x0) - 6 * (x2 - x1)| ≤ 18 * M := by rw [abs_le]; constructor <;> linarith
  obtain ⟨w, hw, ew, dw⟩ := unit_step hu M0 hη (by norm_num) ha2 ha1 (by linarith)
  have ha3 : |w + d2 - 3 * (x3 - 3 * x2 + 3 * x1 - x0)| ≤ 102 * (F.u * M) := by
    have := abs_le.1 dd2
    have := abs_le.1 dw
    rw [abs_le]; constructor <;> linarith
  have ha4 : |3 * (x3 - 3 * x2 + 3 * x1 - x0)| ≤ 24 * M := by
    rw [abs_le]; constructor <;> linarith
  obtain ⟨a, ha, ea, da⟩ := unit_step hu M0 hη (by norm_num) ha4 ha3 (by linarith)
  refine ⟨a, ha, b, hb, d0, hd0, ?_, ?_, ed0, ?_, ?_, dd0⟩
  · rw [ed0, ed1, ed2, em2, eq, fin_add, ew, fin_add, ea]
  · rw [ed0, ed1, em2, e2, ep, er, fin_add, eb]
  · refine da.trans ?_
    apply mul_le_mul_of_nonneg_right _ uM0; norm_num
  · refine db.trans ?_
    apply mul_le_mul_of_nonneg_right _ uM0; norm_num

/-! ### The roots of the derivative -/

/-- A rounded quotient of two numbers known up to an error. -/
theorem near_quotient {N A a r M κ : ℝ} (hu : F.u ≤ 1 / 1024) (M0 : 0 ≤ M) (hη : F.eta ≤ F.u)
    (r0 : 0 < r) (r1 : r < 1) (hN : |N - 2 * a * r| ≤ 90 * (F.u * M))
    (hA : |A - 2 * a| ≤ 51 * (F.u * M)) (hκ : 200 * (F.u * M) ≤ κ) (κ0 : 0 < κ) (hκa : κ ≤ |a|)
    (ha : |a| ≤ 25 * M) :
    A ≠ 0 ∧ ∃ x hx, F.round (N / A) = fin x hx ∧ |x - r| ≤ 220 * (F.u * M) / κ := by
  have u0 := F.u_nonneg
  have uM0 : 0 ≤ F.u * M := mul_nonneg u0 M0
  have hAabs : κ ≤ |A| := by
    have h1 := abs_sub_abs_le_abs_sub (2 * a) A
    rw [abs_mul, abs_of_pos (by norm_num : (0 : ℝ) < 2), abs_sub_comm (2 * a) A] at h1
    linarith
  have A0 : 0 < |A| := lt_of_lt_of_le κ0 hAabs
  have Ane : A ≠ 0 := abs_pos.1 A0
  refine ⟨Ane, ?_⟩
  have hq : |N / A - r| ≤ 141 * (F.u * M) / κ := by
    have e : N / A - r = ((N - 2 * a * r) - r * (A - 2 * a)) / A := by field_simp; ring
    rw [e, abs_div]
    have h1 := abs_sub (N - 2 * a * r) (r * (A - 2 * a))
    have h2 : |r * (A - 2 * a)| ≤ 51 * (F.u * M) := by
      rw [abs_mul, abs_of_pos r0]
      have := mul_le_mul_of_nonneg_right r1.le (abs_nonneg (A - 2 * a))
      linarith
    apply div_le_div₀ (by positivity) (by linarith) κ0 hAabs
  have hq1 : 141 * (F.u * M) / κ ≤ 1 := by
    rw [div_le_one κ0]; linarith
  have hq2 : |N / A| ≤ 2 := by
    have := abs_add_le r (N / A - r)
    rw [add_sub_cancel, abs_of_pos r0] at this
    linarith
  have h2m : |N / A| ≤ F.max := hq2.trans (by linarith [F.max_ge])
  refine ⟨F.rnd (N / A), ⟨F.rnd_mem _, F.abs_rnd_le F.max_mem h2m⟩, F.round_of_le h2m, ?_⟩
  have herr := F.rnd_err (N / A)
  have h3 := mul_le_mul_of_nonneg_left hq2 u0
  have h4 := abs_add_le (F.rnd (N / A) - N / A) (N / A - r)
  rw [sub_add_sub_cancel] at h4
  have h6 : F.u * 2 + F.eta ≤ 79 * (F.u * M) / κ := by
    rw [le_div_iff₀ κ0]
    have := mul_le_mul_of_nonneg_left (hκa.trans ha) u0
    have := mul_le_mul_of_nonneg_right hη κ0.le
    linarith
  have h7 : 141 * (F.u * M) / κ + 79 * (F.u * M) / κ = 220 * (F.u * M) / κ := by
    rw [← add_div]; congr 1; ring
  linarith

/-- The computed discriminant is the exact discriminant of a nearby quadratic, whose roots in
(0, 1) are close to computed ones. -/
theorem roots_near (q : QuadraticBezier (PointN (Fl F) n)) {a b c M κ : ℝ}
    {ha : a ∈ F.grid ∧ |a| ≤ F.max} {hb : b ∈ F.grid ∧ |b| ≤ F.max}
    {hc : c ∈ F.grid ∧ |c| ≤ F.max} (hu : F.u ≤ 1 / 1024) (hη : F.eta ≤ F.u)
    (hη1 : F.eta ≤ F.u * M) (hη2 : F.eta ≤ F.u * M ^ 2)
    (ba : |a| ≤ 25 * M) (bb : |b| ≤ 25 * M) (bc : |c| ≤ 7 * M) (hεa : F.epsilon ≤ |a|)
    (hκ : 200 * (F.u * M) ≤ κ) (κ0 : 0 < κ) (hκa : κ ≤ |a|) (hmax1 : 51 * M ≤ F.max)
    (hmax2 : 1330 * M ^ 2 ≤ F.max) {roots : List (Fl F)}
    (h : q.realRoots (fin a ha) (fin b hb) (fin c hc) = some roots) :
    ∃ c', |c' - c| ≤ 850 * (F.u * M ^ 2) / κ ∧
      ∀ r, 0 < r → r < 1 → a * r ^ 2 + b * r + c' = 0 →
        ∃ x hx, (fin x hx : Fl F) ∈ roots ∧ |x - r| ≤ 220 * (F.u * M) / κ := by
  have u0 := F.u_nonneg
  have ε0 := F.epsilon_pos
  have M0 : 0 ≤ M := by linarith [abs_nonneg a]
  have MM0 : 0 ≤ M ^ 2 := sq_nonneg M
  have uM0 : 0 ≤ F.u * M := mul_nonneg u0 M0
  have uMM0 : 0 ≤ F.u * M ^ 2 := mul_nonneg u0 MM0
  have uMM : F.u * M ^ 2 ≤ 1 / 1024 * M ^ 2 := mul_le_mul_of_nonneg_right hu MM0
  have a0 : a ≠ 0 := by
    rintro rfl
    rw [abs_zero] at hκa
    linarith
  have e2 : (lit 2 : Fl F) = fin ((2 : ℤ) : ℝ) (F.int_ok 2 (by norm_num)) :=
    lit_int 2 (by norm_num)
  have e4 : (lit 4 : Fl F) = fin ((4 : ℤ) : ℝ) (F.int_ok 4 (by norm_num)) :=
    lit_int 4 (by norm_num)
  have habs : ∀ (r : ℝ) (hr : r ∈ F.grid ∧ |r| ≤ F.max), ∃ h',
      (Scalar.abs (fin r hr : Fl F)) = fin |r| h' := fun r hr => ⟨_, rfl⟩
  -- the discriminant
  have bbb : |b * b| ≤ 625 * M ^ 2 := by
    rw [abs_mul]
    have := mul_le_mul bb bb (abs_nonneg b) (by linarith)
    nlinarith
  have bac : |a * c| ≤ 175 * M ^ 2 := by
    rw [abs_mul]
    have := mul_le_mul ba bc (abs_nonneg c) (by linarith)
    nlinarith
  obtain ⟨P, hP, eP, dP⟩ := unit_step (x := b * b) (e := 0) hu MM0 hη2 le_rfl bbb (by simp)
    (by linarith)
  obtain ⟨Q₁, hQ₁, eQ₁, dQ₁⟩ := unit_step (x := a * c) (e := 0) hu MM0 hη2 le_rfl bac (by simp)
    (by linarith)
  have h4ac : |4 * (a * c)| ≤ 700 * M ^ 2 := by
    rw [abs_mul, abs_of_pos (by norm_num : (0 : ℝ) < 4)]; linarith
  have hQ4 : |Q₁ * ((4 : ℤ) : ℝ) - 4 * (a * c)| ≤ 704 * (F.u * M ^ 2) := by
    have : Q₁ * ((4 : ℤ) : ℝ) - 4 * (a * c) = 4 * (Q₁ - a * c) := by push_cast; ring
    rw [this, abs_mul, abs_of_pos (by norm_num : (0 : ℝ) < 4)]; linarith
  obtain ⟨Q, hQ, eQ, dQ⟩ := unit_step hu MM0 hη2 (by norm_num) h4ac hQ4 (by linarith)
  have hPQ : |P - Q - (b * b - 4 * (a * c))| ≤ 2033 * (F.u * M ^ 2) := by
    have h1 := abs_le.1 dP
    have h2 := abs_le.1 dQ
    rw [abs_le]; constructor <;> linarith
  have hD : |b * b - 4 * (a * c)| ≤ 1325 * M ^ 2 := by
    have := abs_sub (b * b) (4 * (a * c))
    linarith
  obtain ⟨δ, hδ, eδ, dδ⟩ := unit_step hu MM0 hη2 (by norm_num) hD hPQ (by linarith)
  have dδ' : |δ - (b * b - 4 * (a * c))| ≤ 3400 * (F.u * M ^ 2) := by
    refine dδ.trans ?_
    apply mul_le_mul_of_nonneg_right _ uMM0; norm_num
  have hd : (fin b hb : Fl F) * fin b hb - fin a ha * fin c hc * lit 4 = fin δ hδ := by
    rw [fin_mul, eP, fin_mul, eQ₁, e4, fin_mul, eQ, fin_sub, eδ]
  have δle : |δ| ≤ (37 * M) ^ 2 := by
    have := abs_add_le (b * b - 4 * (a * c)) (δ - (b * b - 4 * (a * c)))
    rw [add_sub_cancel] at this
    nlinarith
  -- the denominator
  have h2a : |2 * a| ≤ 50 * M := by
    rw [abs_mul, abs_of_pos (by norm_num : (0 : ℝ) < 2)]; linarith
  obtain ⟨A, hA, eA, dA⟩ := unit_step (x := a * ((2 : ℤ) : ℝ)) (e := 0) hu M0 hη1 le_rfl h2a
    (by push_cast; rw [mul_comm, sub_self]; simp) (by linarith)
  have dA' : |A - 2 * a| ≤ 51 * (F.u * M) := by
    refine dA.trans ?_
    apply mul_le_mul_of_nonneg_right _ uM0; norm_num
  have hden : (fin a ha * lit 2 : Fl F) = fin A hA := by rw [e2, fin_mul, eA]
  have hquot : ∀ (N r : ℝ) (hN : N ∈ F.grid ∧ |N| ≤ F.max), 0 < r → r < 1 →
      |N - 2 * a * r| ≤ 90 * (F.u * M) → ∃ x hx, (fin N hN / (fin a ha * lit 2) : Fl F)
        = fin x hx ∧ |x - r| ≤ 220 * (F.u * M) / κ := by
    intro N r hN r0 r1 hNr
    obtain ⟨A0, x, hx, ex, dx⟩ := near_quotient hu M0 hη r0 r1 hNr dA' hκ κ0 hκa ba
    exact ⟨x, hx, by rw [hden, fin_div A0, ex], dx⟩
  refine ⟨c + (b * b - 4 * (a * c) - δ) / (4 * a), ?_, ?_⟩
  · rw [add_sub_cancel_left, abs_div, abs_sub_comm]
    have h4 : 4 * κ ≤ |4 * a| := by
      rw [abs_mul, abs_of_pos (by norm_num : (0 : ℝ) < 4)]; linarith
    have := div_le_div₀ (by positivity) dδ' (by positivity) h4
    refine this.trans (le_of_eq ?_)
    field_simp
    ring
  intro r r0 r1 hr
  have hsq : (2 * a * r + b) ^ 2 = δ := by
    have : 4 * a * (a * r ^ 2 + b * r + (c + (b * b - 4 * (a * c) - δ) / (4 * a)))
        = (2 * a * r + b) ^ 2 - δ := by field_simp; ring
    rw [hr, mul_zero] at this
    linarith
  have δ0 : 0 ≤ δ := hsq ▸ sq_nonneg _
  unfold QuadraticBezier.realRoots at h
  simp only [Option.bind_eq_bind, Option.pure_def] at h
  rw [epsilon_eq] at h
  obtain ⟨wa, ea⟩ := habs a ha
  rw [ea, if_neg (fun h' => absurd (lt_fin.1 h') (not_lt.2 hεa)), hd] at h
  rw [lit_zero] at h
  rcases δ0.eq_or_lt with hδ0 | hδ0
  · -- a double root
    obtain ⟨wd, ed⟩ := habs δ hδ
    rw [if_neg (fun h' => absurd (lt_fin.1 h') (by rw [← hδ0]; exact lt_irrefl _)), ed,
      if_pos (lt_fin.2 (by rw [← hδ0, abs_zero]; exact ε0))] at h
    have hl := avPush_eq h
    rw [fin_neg] at hl
    have hbr : 2 * a * r + b = 0 := by
      rw [← hδ0] at hsq
      exact pow_eq_zero_iff (two_ne_zero) |>.1 hsq
    obtain ⟨x, hx, ex, dx⟩ := hquot (-b) r ⟨F.neg_mem b hb.1, by rw [abs_neg]; exact hb.2⟩ r0 r1 (by
      rw [show -b - 2 * a * r = 0 by linarith, abs_zero]; positivity)
    refine ⟨x, hx, ?_, dx⟩
    rw [hl, ex]; simp
  · rw [if_pos (lt_fin.2 hδ0)] at h
    obtain ⟨l1, hl1, h⟩ := Option.bind_eq_some_iff.1 h
    have hl1 := avPush_eq hl1
    have hl2 := avPush_eq h
    rw [hl1] at hl2
    have hs37 : |Real.sqrt δ| ≤ 37 * M := by
      rw [abs_of_nonneg (Real.sqrt_nonneg _)]
      apply Real.sqrt_le_iff.2
      exact ⟨by positivity, (le_abs_self δ).trans δle⟩
    obtain ⟨s, hs, es, ds⟩ := unit_step (x := Real.sqrt δ) (e := 0) hu M0 hη1 le_rfl hs37
      (by simp) (by linarith)
    have es' : Scalar.sqrt (fin δ hδ : Fl F) = fin s hs := by
      show (if δ < 0 then nan else F.round (Real.sqrt δ)) = _
      rw [if_neg (not_lt.2 δ0), es]
    rw [es', fin_neg] at hl2
    have h2ar : |2 * a * r| ≤ 50 * M := by
      rw [abs_mul, abs_of_pos r0]
      have := mul_le_mul_of_nonneg_left r1.le (abs_nonneg (2 * a))
      linarith
    have ds' : |s - Real.sqrt δ| ≤ 38 * (F.u * M) := by
      refine ds.trans ?_
      apply mul_le_mul_of_nonneg_right _ uM0; norm_num
    -- which of the two roots
    have hsgn : 2 * a * r = -b - Real.sqrt δ ∨ 2 * a * r = -b + Real.sqrt δ := by
      have : (2 * a * r + b) ^ 2 = Real.sqrt δ ^ 2 := by rw [Real.sq_sqrt δ0, hsq]
      rcases sq_eq_sq_iff_eq_or_eq_neg.1 this with h' | h'
      · right; linarith
      · left; linarith
    rcases hsgn with hr' | hr'
    · have hN : |-b - s - 2 * a * r| ≤ 38 * (F.u * M) := by
        rw [hr', show -b - s - (-b - Real.sqrt δ) = -(s - Real.sqrt δ) by ring, abs_neg]
        exact ds'
      obtain ⟨N, hNf, eN, dN⟩ := unit_step hu M0 hη1 (by norm_num) h2ar hN (by linarith)
      obtain ⟨x, hx, ex, dx⟩ := hquot N r hNf r0 r1 (dN.trans (by
        apply mul_le_mul_of_nonneg_right _ uM0; norm_num))
      refine ⟨x, hx, ?_, dx⟩
      rw [hl2, fin_sub, eN, ex]; simp
    · have hN : |-b + s - 2 * a * r| ≤ 38 * (F.u * M) := by
        rw [hr', show -b + s - (-b + Real.sqrt δ) = s - Real.sqrt δ by ring]
        exact ds'
      obtain ⟨N, hNf, eN, dN⟩ := unit_step hu M0 hη1 (by norm_num) h2ar hN (by linarith)
      obtain ⟨x, hx, ex, dx⟩ := hquot N r hNf r0 r1 (dN.trans (by
        apply mul_le_mul_of_nonneg_right _ uM0; norm_num))
      refine ⟨x, hx, ?_, dx⟩
      rw [hl2, fin_add, eN, ex]; simp

/-! ### Extrema of a nearby function -/

/-- The extrema of a nearby function bound a function. -/
theorem near_extrema {f g g' : ℝ → ℝ} (hg : ∀ t, HasDerivAt g (g' t) t) {lo hi E R : ℝ}
    (R0 : 0 ≤ R) (hfg : ∀ t, 0 ≤ t → t ≤ 1 → |f t - g t| ≤ E)
    (h0 : lo ≤ f 0 ∧ f 0 ≤ hi) (h1 : lo ≤ f 1 ∧ f 1 ≤ hi)
    (hc : ∀ r, 0 < r → r < 1 → g' r = 0 → lo - R ≤ f r ∧ f r ≤ hi + R)
    (t : ℝ) (t0 : 0 ≤ t) (t1 : t ≤ 1) : lo - (2 * E + R) ≤ f t ∧ f t ≤ hi + (2 * E + R) := by
  have k : ∀ t, 0 ≤ t → t ≤ 1 → f t - E ≤ g t ∧ g t ≤ f t + E := by
    intro t t0 t1
    have := abs_le.1 (hfg t t0 t1)
    constructor <;> linarith
  have hcon := containsRange_of_critical (lo := lo - (E + R)) (hi := hi + (E + R)) hg
    (by have := k 0 le_rfl zero_le_one; constructor <;> linarith)
    (by have := k 1 zero_le_one le_rfl; constructor <;> linarith)
    (fun r r0 r1 hr => by
      have h := k r r0.le r1.le
      have h' := hc r r0 r1 hr
      constructor <;> linarith)
  have h := hcon t t0 t1
  have h' := k t t0 t1
  constructor <;> linarith

/-- A cubic polynomial in Bernstein form. -/
noncomputable def cubicAt (x0 x1 x2 x3 t : ℝ) : ℝ :=
  (1 - t) ^ 3 * x0 + 3 * t * (1 - t) ^ 2 * x1 + 3 * t ^ 2 * (1 - t) * x2 + t ^ 3 * x3

theorem cubicAt_power (x0 x1 x2 x3 t : ℝ) : cubicAt x0 x1 x2 x3 t =
    x0 + 3 * (x1 - x0) * t + 6 * (x2 - 2 * x1 + x0) * t ^ 2 / 2
      + 3 * (x3 - 3 * x2 + 3 * x1 - x0) * t ^ 3 / 3 := by
  unfold cubicAt; ring

theorem cubicAt_lipschitz {x0 x1 x2 x3 M : ℝ} (b0 : |x0| ≤ M) (b1 : |x1| ≤ M) (b2 : |x2| ≤ M)
    (b3 : |x3| ≤ M) {s t : ℝ} (s0 : 0 ≤ s) (s1 : s ≤ 1) (t0 : 0 ≤ t) (t1 : t ≤ 1) :
    |cubicAt x0 x1 x2 x3 s - cubicAt x0 x1 x2 x3 t| ≤ 6 * M * |s - t| := by
  have hder : ∀ t, HasDerivAt (cubicAt x0 x1 x2 x3)
      (3 * ((1 - t) ^ 2 * (x1 - x0) + 2 * t * (1 - t) * (x2 - x1) + t ^ 2 * (x3 - x2))) t := by
    intro t
    have e : cubicAt x0 x1 x2 x3 = fun t => x0 + 3 * (x1 - x0) * t
      + 6 * (x2 - 2 * x1 + x0) * t ^ 2 / 2 + 3 * (x3 - 3 * x2 + 3 * x1 - x0) * t ^ 3 / 3 :=
      funext (cubicAt_power x0 x1 x2 x3)
    rw [e]
    have h1 := (hasDerivAt_id' t).const_mul (3 * (x1 - x0))
    have h2 := ((hasDerivAt_pow 2 t).const_mul (6 * (x2 - 2 * x1 + x0))).div_const 2
    have h3 := ((hasDerivAt_pow 3 t).const_mul (3 * (x3 - 3 * x2 + 3 * x1 - x0))).div_const 3
    refine (((h1.const_add x0).add h2).add h3).congr_deriv ?_
    push_cast
    ring
  have hb : ∀ x y : ℝ, |x| ≤ M → |y| ≤ M → |y - x| ≤ 2 * M := by
    intro x y hx hy
    have := abs_sub y x
    linarith
  have key := Convex.norm_image_sub_le_of_norm_hasDerivWithin_le (f := cubicAt x0 x1 x2 x3)
    (C := 6 * M) (s := Set.Icc (0 : ℝ) 1) (x := t) (y := s)
    (fun t _ => (hder t).hasDerivWithinAt) (fun t ht => ?_) (convex_Icc 0 1) ⟨t0, t1⟩ ⟨s0, s1⟩
  · simpa [Real.norm_eq_abs] using key
  · obtain ⟨t0, t1⟩ := ht
    rw [Real.norm_eq_abs, abs_mul, abs_of_pos (by norm_num : (0 : ℝ) < 3)]
    have w0 : 0 ≤ (1 - t) ^ 2 := sq_nonneg _
    have w1 : 0 ≤ 2 * t * (1 - t) := by
      have : 0 ≤ 1 - t := by linarith
      positivity
    have w2 : 0 ≤ t ^ 2 := sq_nonneg _
    have h1 := abs_add_le ((1 - t) ^ 2 * (x1 - x0) + 2 * t * (1 - t) * (x2 - x1))
      (t ^ 2 * (x3 - x2))
    have h2 := abs_add_le ((1 - t) ^ 2 * (x1 - x0)) (2 * t * (1 - t) * (x2 - x1))
    rw [abs_mul, abs_of_nonneg w0, abs_mul, abs_of_nonneg w1] at h2
    rw [abs_mul (t ^ 2), abs_of_nonneg w2] at h1
    have k0 := mul_le_mul_of_nonneg_left (hb _ _ b0 b1) w0
    have k1 := mul_le_mul_of_nonneg_left (hb _ _ b1 b2) w1
    have k2 := mul_le_mul_of_nonneg_left (hb _ _ b2 b3) w2
    have e : (1 - t) ^ 2 * (2 * M) + 2 * t * (1 - t) * (2 * M) + t ^ 2 * (2 * M) = 2 * M := by ring
    linarith

/-- The integrals of two quadratics with close coefficients are close. -/
theorem power_close {x0 A B C a b c ea eb ec t : ℝ} (t0 : 0 ≤ t) (t1 : t ≤ 1)
    (ha : |a - A| ≤ ea) (hb : |b - B| ≤ eb) (hc : |c - C| ≤ ec) :
    |(x0 + C * t + B * t ^ 2 / 2 + A * t ^ 3 / 3) - (x0 + c * t + b * t ^ 2 / 2 + a * t ^ 3 / 3)|
      ≤ ec + eb / 2 + ea / 3 := by
  have p2 : t ^ 2 ≤ 1 := pow_le_one₀ t0 t1
  have p3 : t ^ 3 ≤ 1 := pow_le_one₀ t0 t1
  have e : (x0 + C * t + B * t ^ 2 / 2 + A * t ^ 3 / 3)
      - (x0 + c * t + b * t ^ 2 / 2 + a * t ^ 3 / 3)
      = -((c - C) * t + (b - B) * (t ^ 2 / 2) + (a - A) * (t ^ 3 / 3)) := by ring
  rw [e, abs_neg]
  have h1 := abs_add_le ((c - C) * t + (b - B) * (t ^ 2 / 2)) ((a - A) * (t ^ 3 / 3))
  have h2 := abs_add_le ((c - C) * t) ((b - B) * (t ^ 2 / 2))
  have n2 : 0 ≤ t ^ 2 / 2 := by positivity
  have n3 : 0 ≤ t ^ 3 / 3 := by positivity
  have k1 : |(c - C) * t| ≤ ec := by
    rw [abs_mul, abs_of_nonneg t0]
    have := mul_le_mul hc t1 t0 ((abs_nonneg _).trans hc)
    linarith
  have k2 : |(b - B) * (t ^ 2 / 2)| ≤ eb / 2 := by
    rw [abs_mul, abs_of_nonneg n2]
    have := mul_le_mul hb (by linarith : t ^ 2 / 2 ≤ 1 / 2) n2 ((abs_nonneg _).trans hb)
    linarith
  have k3 : |(a - A) * (t ^ 3 / 3)| ≤ ea / 3 := by
    rw [abs_mul, abs_of_nonneg n3]
    have := mul_le_mul ha (by linarith : t ^ 3 / 3 ≤ 1 / 3) n3 ((abs_nonneg _).trans ha)
    linarith
  linarith

theorem power_deriv (x0 c b a t : ℝ) :
    HasDerivAt (fun t => x0 + c * t + b * t ^ 2 / 2 + a * t ^ 3 / 3) (a * t ^ 2 + b * t + c) t := by
  have h1 := (hasDerivAt_id' t).const_mul c
  have h2 := ((hasDerivAt_pow 2 t).const_mul b).div_const 2
  have h3 := ((hasDerivAt_pow 3 t).const_mul a).div_const 3
  refine (((h1.const_add x0).add h2).add h3).congr_deriv ?_
  push_cast
  ring

/-- Containment on one axis, in terms of the computed leading coefficient. -/
theorem axis_contains (q : QuadraticBezier (PointN (Fl F) n)) {x0 x1 x2 x3 a b c M κ lo hi : ℝ}
    {ha : a ∈ F.grid ∧ |a| ≤ F.max} {hb : b ∈ F.grid ∧ |b| ≤ F.max}
    {hc : c ∈ F.grid ∧ |c| ≤ F.max} (hu : F.u ≤ 1 / 1024) (hη : F.eta ≤ F.u)
    (hη1 : F.eta ≤ F.u * M) (hη2 : F.eta ≤ F.u * M ^ 2)
    (b0 : |x0| ≤ M) (b1 : |x1| ≤ M) (b2 : |x2| ≤ M) (b3 : |x3| ≤ M)
    (da : |a - 3 * (x3 - 3 * x2 + 3 * x1 - x0)| ≤ 128 * (F.u * M))
    (db : |b - 6 * (x2 - 2 * x1 + x0)| ≤ 122 * (F.u * M))
    (dc : |c - 3 * (x1 - x0)| ≤ 17 * (F.u * M))
    (hmax1 : 51 * M ≤ F.max) (hmax2 : 1330 * M ^ 2 ≤ F.max)
    (hκ : 200 * (F.u * M) ≤ κ) (κ0 : 0 < κ) (hκa : |a| < F.epsilon ∨ κ ≤ |a|)
    {roots : List (Fl F)} (h : q.realRoots (fin a ha) (fin b hb) (fin c hc) = some roots)
    (h0 : lo ≤ x0 ∧ x0 ≤ hi) (h1 : lo ≤ x3 ∧ x3 ≤ hi)
    (hval : ∀ x hx, (fin x hx : Fl F) ∈ roots → 0 < x → x < 1 →
      lo - 34 * (F.u * M) ≤ cubicAt x0 x1 x2 x3 x ∧ cubicAt x0 x1 x2 x3 x ≤ hi + 34 * (F.u * M))
    (t : ℝ) (t0 : 0 ≤ t) (t1 : t ≤ 1) :
    let E := 400 * (F.u * M) + 3100 * (F.u * M ^ 2) / κ + 3 * F.epsilon
    lo - E ≤ cubicAt x0 x1 x2 x3 t ∧ cubicAt x0 x1 x2 x3 t ≤ hi + E := by
  intro E
  have u0 := F.u_nonneg
  have ε0 := F.epsilon_pos
  have M0 : 0 ≤ M := (abs_nonneg _).trans b0
  have uM0 : 0 ≤ F.u * M := mul_nonneg u0 M0
  have uM : F.u * M ≤ 1 / 1024 * M := mul_le_mul_of_nonneg_right hu M0
  have uMM0 : 0 ≤ F.u * M ^ 2 := mul_nonneg u0 (sq_nonneg M)
  have hq0 : 0 ≤ F.u * M ^ 2 / κ := by positivity
  have A0 := abs_le.1 b0
  have A1 := abs_le.1 b1
  have A2 := abs_le.1 b2
  have A3 := abs_le.1 b3
  have f0 : cubicAt x0 x1 x2 x3 0 = x0 := by unfold cubicAt; ring
  have f1 : cubicAt x0 x1 x2 x3 1 = x3 := by unfold cubicAt; ring
  -- a computed root near an exact one
  have hnear : ∀ (r x ρ : ℝ) hx, (fin x hx : Fl F) ∈ roots → 0 < r → r < 1 → |x - r| ≤ ρ →
      lo - (34 * (F.u * M) + 6 * M * ρ) ≤ cubicAt x0 x1 x2 x3 r ∧
      cubicAt x0 x1 x2 x3 r ≤ hi + (34 * (F.u * M) + 6 * M * ρ) := by
    intro r x ρ hx hmem r0 r1 hxr
    have ρ0 := (abs_nonneg _).trans hxr
    have hxr' := abs_le.1 hxr
    rcases le_or_gt x 0 with hx0 | hx0
    · have h := cubicAt_lipschitz b0 b1 b2 b3 r0.le r1.le (le_refl 0) zero_le_one
      have h' : |r - 0| ≤ ρ := by rw [sub_zero, abs_of_pos r0]; linarith
      have h'' := abs_le.1 (h.trans (mul_le_mul_of_nonneg_left h' (by linarith : 0 ≤ 6 * M)))
      rw [f0] at h''
      constructor <;> linarith
    rcases le_or_gt 1 x with hx1 | hx1
    · have h := cubicAt_lipschitz b0 b1 b2 b3 r0.le r1.le zero_le_one (le_refl (1 : ℝ))
      have h' : |r - 1| ≤ ρ := by rw [abs_le]; constructor <;> linarith
      have h'' := abs_le.1 (h.trans (mul_le_mul_of_nonneg_left h' (by linarith : 0 ≤ 6 * M)))
      rw [f1] at h''
      constructor <;> linarith
    · have h := cubicAt_lipschitz b0 b1 b2 b3 r0.le r1.le hx0.le hx1.le
      rw [abs_sub_comm r x] at h
      have h'' := abs_le.1 (h.trans (mul_le_mul_of_nonneg_left hxr (by linarith : 0 ≤ 6 * M)))
      have h3 := hval x hx hmem hx0 hx1
      constructor <;> linarith
  have bA : |3 * (x3 - 3 * x2 + 3 * x1 - x0)| ≤ 24 * M := by
    rw [abs_le]; constructor <;> linarith
  have bB : |6 * (x2 - 2 * x1 + x0)| ≤ 24 * M := by rw [abs_le]; constructor <;> linarith
  have bC : |3 * (x1 - x0)| ≤ 6 * M := by rw [abs_le]; constructor <;> linarith
  have hbnd : ∀ {y Y e B : ℝ}, |y - Y| ≤ e * (F.u * M) → |Y| ≤ B * M → 0 ≤ e → e ≤ 1024 →
      |y| ≤ (B + 1) * M := by
    intro y Y e B h h' e0 e1
    have := abs_add_le Y (y - Y)
    rw [add_sub_cancel] at this
    have h2 : e * (F.u * M) ≤ 1024 * (F.u * M) := mul_le_mul_of_nonneg_right e1 uM0
    have : (B + 1) * M = B * M + M := by ring
    rw [this]; linarith
  have ba : |a| ≤ 25 * M := by
    have := hbnd da bA (by norm_num) (by norm_num); linarith
  have bb : |b| ≤ 25 * M := by
    have := hbnd db bB (by norm_num) (by norm_num); linarith
  have bc : |c| ≤ 7 * M := by
    have := hbnd dc bC (by norm_num) (by norm_num); linarith
  by_cases hεa : |a| < F.epsilon
  · -- the leading coefficient is dropped
    unfold QuadraticBezier.realRoots at h
    simp only [Option.bind_eq_bind, Option.pure_def] at h
    rw [epsilon_eq] at h
    rw [show (Scalar.abs (fin a ha : Fl F)) = fin |a| _ from rfl, if_pos (lt_fin.2 hεa)] at h
    rw [show (Scalar.abs (fin b hb : Fl F)) = fin |b| _ from rfl] at h
    have da0 : |0 - 3 * (x3 - 3 * x2 + 3 * x1 - x0)| ≤ 128 * (F.u * M) + F.epsilon := by
      have := abs_sub (a - 3 * (x3 - 3 * x2 + 3 * x1 - x0)) a
      rw [show a - 3 * (x3 - 3 * x2 + 3 * x1 - x0) - a = 0 - 3 * (x3 - 3 * x2 + 3 * x1 - x0)
        by ring] at this
      linarith
    by_cases hεb : |b| < F.epsilon
    · have db0 : |0 - 6 * (x2 - 2 * x1 + x0)| ≤ 122 * (F.u * M) + F.epsilon := by
        have := abs_sub (b - 6 * (x2 - 2 * x1 + x0)) b
        rw [show b - 6 * (x2 - 2 * x1 + x0) - b = 0 - 6 * (x2 - 2 * x1 + x0) by ring] at this
        linarith
      have key := near_extrema (f := cubicAt x0 x1 x2 x3) (lo := lo) (hi := hi)
        (fun t => power_deriv x0 c 0 0 t)
        (R := 17 * (F.u * M) + 121 * (F.u * M) + 5 / 6 * F.epsilon) (by positivity)
        (fun t t0 t1 => by
          rw [cubicAt_power]
          exact power_close t0 t1 da0 db0 dc) (by rw [f0]; exact h0) (by rw [f1]; exact h1)
        (fun r r0 r1 hr => by
          have hc0 : c = 0 := by linarith
          have := power_close (x0 := x0) r0.le r1.le da0 db0 dc
          rw [← cubicAt_power, hc0] at this
          have := abs_le.1 this
          constructor <;> linarith) t t0 t1
      simp only [E]
      have : 3100 * (F.u * M ^ 2) / κ = 3100 * (F.u * M ^ 2 / κ) := by ring
      rw [this]
      constructor <;> linarith
    · rw [if_neg (fun h' => hεb (lt_fin.1 h'))] at h
      push Not at hεb
      have hbne : b ≠ 0 := by
        rintro rfl
        rw [abs_zero] at hεb
        linarith
      have hl := avPush_eq h
      rw [fin_neg, fin_div hbne, List.nil_append] at hl
      have key := near_extrema (f := cubicAt x0 x1 x2 x3) (lo := lo) (hi := hi)
        (fun t => power_deriv x0 c b 0 t)
        (R := 34 * (F.u * M) + 6 * M * (2 * F.u)) (by positivity)
        (fun t t0 t1 => by
          rw [cubicAt_power]
          exact power_close t0 t1 da0 db dc) (by rw [f0]; exact h0) (by rw [f1]; exact h1)
        (fun r r0 r1 hr => by
          have hr' : -c / b = r := by
            field_simp
            linarith
          have hrm : |r| ≤ F.max := by
            rw [abs_of_pos r0]
            linarith [F.max_ge]
          rw [hr', F.round_of_le hrm] at hl
          refine hnear r (F.rnd r) _ ⟨F.rnd_mem r, F.abs_rnd_le F.max_mem hrm⟩ (by rw [hl]; simp)
            r0 r1 ?_
          have := F.rnd_err r
          rw [abs_of_pos r0] at this
          have := mul_le_mul_of_nonneg_left r1.le u0
          linarith) t t0 t1
      simp only [E]
      have : 3100 * (F.u * M ^ 2) / κ = 3100 * (F.u * M ^ 2 / κ) := by ring
      rw [this]
      constructor <;> linarith
  · have hκa' := hκa.resolve_left hεa
    push Not at hεa
    obtain ⟨c', hc', hroots⟩ := roots_near q hu hη hη1 hη2 ba bb bc hεa hκ κ0 hκa' hmax1 hmax2 h
    have dc' : |c' - 3 * (x1 - x0)| ≤ 17 * (F.u * M) + 850 * (F.u * M ^ 2) / κ := by
      have := abs_add_le (c' - c) (c - 3 * (x1 - x0))
      rw [sub_add_sub_cancel] at this
      linarith
    have key := near_extrema (f := cubicAt x0 x1 x2 x3) (lo := lo) (hi := hi)
      (fun t => power_deriv x0 c' b a t)
      (R := 34 * (F.u * M) + 6 * M * (220 * (F.u * M) / κ)) (by positivity)
      (fun t t0 t1 => by
        rw [cubicAt_power]
        exact power_close t0 t1 da db dc') (by rw [f0]; exact h0) (by rw [f1]; exact h1)
      (fun r r0 r1 hr => by
        obtain ⟨x, hx, hmem, dx⟩ := hroots r r0 r1 hr
        exact hnear r x _ hx hmem r0 r1 dx) t t0 t1
    simp only [E]
    have e1 : 3100 * (F.u * M ^ 2) / κ = 3100 * (F.u * M ^ 2 / κ) := by ring
    have e2 : 850 * (F.u * M ^ 2) / κ = 850 * (F.u * M ^ 2 / κ) := by ring
    have e3 : 6 * M * (220 * (F.u * M) / κ) = 1320 * (F.u * M ^ 2 / κ) := by ring
    rw [e1]
    rw [e2, e3] at key
    constructor <;> linarith

/-! ### The theorem -/

/-- **C84** `CubicBezier`, a condition under which the box contains the curve: if the coordinates
are at most `M` in magnitude and the leading coefficient of the derivative on an axis is at least
`κ` in magnitude, the interval of that axis contains the curve up to
`400 u M + 6200 u M² / κ + 3 ε`.  For small leading coefficients containment fails
(`C84_cubic_false`). -/
theorem C84_cubic_conditioned_partial (q : CubicBezier (PointN (Fl F) n)) {M κ : ℝ}
    (hu : F.u ≤ 1 / 1024) (hη : F.eta ≤ F.u) (hη2 : F.eta ≤ F.u * M ^ 2)
    (hs : BoundedBy M q.start) (hc : BoundedBy M q.ctrl1) (hc' : BoundedBy M q.ctrl2)
    (hd : BoundedBy M q.end_) (hmax : 1330 * M ^ 2 ≤ F.max) (hmax' : 51 * M + 2 ≤ F.max)
    (M0 : 0 ≤ M) (κ0 : 0 < κ) (hκ : 400 * (F.u * M) ≤ κ) :
    ∃ box : Arr (Fl F × Fl F) n, q.boundingBox = some box ∧ ∀ i,
      κ ≤ |3 * ((q.end_.coords i).toReal - 3 * (q.ctrl2.coords i).toReal
        + 3 * (q.ctrl1.coords i).toReal - (q.start.coords i).toReal)| →
      ∀ t, 0 ≤ t → t ≤ 1 →
        let curve := (1 - t) ^ 3 * (q.start.coords i).toReal
          + 3 * t * (1 - t) ^ 2 * (q.ctrl1.coords i).toReal
          + 3 * t ^ 2 * (1 - t) * (q.ctrl2.coords i).toReal + t ^ 3 * (q.end_.coords i).toReal
        let E := 400 * (F.u * M) + 6200 * (F.u * M ^ 2) / κ + 3 * F.epsilon
        (box i).1.toReal - E ≤ curve ∧ curve ≤ (box i).2.toReal + E := by
  have u0 := F.u_nonneg
  have he : F.eta ≤ 1 / 1024 := hη.trans hu
  have uM0 : 0 ≤ F.u * M := mul_nonneg u0 M0
  have hη1 : F.eta ≤ F.u * M := by
    rcases le_total 1 M with h | h
    · have := mul_le_mul_of_nonneg_left h u0
      linarith
    · have : M ^ 2 ≤ M := by nlinarith
      have := mul_le_mul_of_nonneg_left this u0
      linarith
  have hev : ∀ (r : ℝ) hr, 0 < r → r < 1 → ∀ i, _ := fun r hr h0 h1 i =>
    C67_cubic_casteljau q (t := r) hr h0.le h1.le hu he hs hc hc' hd (by linarith) i
  obtain ⟨box, hbox, hb⟩ := cubic_box q (fun i => (hs i).1) (fun i => (hd i).1)
    (fun r hr h0 h1 i => (hev r hr h0 h1 i).1)
  refine ⟨box, hbox, fun i hlead t t0 t1 => ?_⟩
  intro curve E
  obtain ⟨roots, hroots, hin, hlo, hhi⟩ := hb i
  have hcand : ∀ x, Candidate (fun t => (q.evalCasteljau t).coords i) roots (q.start.coords i)
      (q.end_.coords i) x → x.IsFinite := by
    rintro x (rfl | rfl | ⟨t, _, ⟨r, hr, rfl, h0, h1⟩, rfl⟩)
    · exact (hs i).1
    · exact (hd i).1
    · exact (hev r hr h0 h1 i).1
  have hin' : ∀ x, Candidate (fun t => (q.evalCasteljau t).coords i) roots (q.start.coords i)
      (q.end_.coords i) x → (box i).1.toReal ≤ x.toReal ∧ x.toReal ≤ (box i).2.toReal := by
    intro x hx
    obtain ⟨h1, h2⟩ := hin x hx
    obtain ⟨a, ha, ea⟩ := isFinite_iff.1 (hcand _ hlo)
    obtain ⟨b, hb', eb⟩ := isFinite_iff.1 (hcand _ hhi)
    obtain ⟨c, hc', ec⟩ := isFinite_iff.1 (hcand x hx)
    rw [ea, ec, le_fin] at h1
    rw [eb, ec, le_fin] at h2
    rw [ea, eb, ec]
    exact ⟨h1, h2⟩
  obtain ⟨x0, w0, y0⟩ := isFinite_iff.1 (hs i).1
  obtain ⟨x1, w1, y1⟩ := isFinite_iff.1 (hc i).1
  obtain ⟨x2, w2, y2⟩ := isFinite_iff.1 (hc' i).1
  obtain ⟨x3, w3, y3⟩ := isFinite_iff.1 (hd i).1
  have b0 := (hs i).2
  have b1 := (hc i).2
  have b2 := (hc' i).2
  have b3 := (hd i).2
  have h0 := hin' _ (Or.inl rfl)
  have h1 := hin' _ (Or.inr (Or.inl rfl))
  have hval : ∀ x hx, (fin x hx : Fl F) ∈ roots → 0 < x → x < 1 → _ := fun x hx hmem hx0 hx1 =>
    And.intro (hin' _ (Or.inr (Or.inr ⟨_, hmem, ⟨x, hx, rfl, hx0, hx1⟩, rfl⟩)))
      (hev x hx hx0 hx1 i).2
  simp only [y0, y1, y2, y3, toReal_fin] at b0 b1 b2 b3 h0 h1 hval hlead
  obtain ⟨a, ha, b, hb', c, hc'', ea, eb, ec, da, db, dc⟩ := derivative_coefficients
    (h0 := w0) (h1 := w1) (h2 := w2) (h3 := w3) hu hη1 b0 b1 b2 b3 (by linarith)
  have ea' : (q.derivative.start + q.derivative.ctrl * (lit (-2) : Fl F)
      + q.derivative.end_).coords i = fin a ha := by
    rw [← ea, ← y0, ← y1, ← y2, ← y3]; rfl
  have eb' : (q.derivative.start * (lit (-2) : Fl F)
      + q.derivative.ctrl * (lit 2 : Fl F)).coords i = fin b hb' := by
    rw [← eb, ← y0, ← y1, ← y2]; rfl
  have ec' : q.derivative.start.coords i = fin c hc'' := by
    rw [← ec, ← y0, ← y1]; rfl
  rw [ea', eb', ec'] at hroots
  have hκa : κ / 2 ≤ |a| := by
    have := abs_sub_abs_le_abs_sub (3 * (x3 - 3 * x2 + 3 * x1 - x0)) a
    rw [abs_sub_comm _ a] at this
    linarith
  have key := axis_contains q.derivative (κ := κ / 2) hu hη hη1 hη2 b0 b1 b2 b3 da db dc
    (by linarith) hmax (by linarith) (by linarith) (Or.inr hκa) hroots h0 h1
    (fun x hx hmem hx0 hx1 => by
      obtain ⟨v1, v2⟩ := hval x hx hmem hx0 hx1
      have v3 := abs_le.1 v2
      unfold cubicAt
      constructor <;> linarith) t t0 t1
  simp only [curve, E, y0, y1, y2, y3, toReal_fin]
  have e : 3100 * (F.u * M ^ 2) / (κ / 2) = 6200 * (F.u * M ^ 2) / κ := by
    field_simp; ring
  rw [e] at key
  exact key

section
variable (cosI acosI : ℝ → ℝ) (powI : ℝ → ℝ → ℝ)

/-- **C84** in numbers, for binary64: if the coordinates are at most `M` in magnitude and the third
difference of the coordinates on an axis is at least `M / 100`, the box contains the curve on this
axis up to `10⁻¹⁰ M`. -/
theorem C84_cubic_binary64_partial (q : CubicBezier (PointN (Fl (binary64 cosI acosI powI)) n))
    {M : ℝ} (M1 : 1 ≤ M) (M6 : M ≤ 10 ^ 20) (hs : BoundedBy M q.start)
    (hc : BoundedBy M q.ctrl1) (hc' : BoundedBy M q.ctrl2) (hd : BoundedBy M q.end_) :
    ∃ box : Arr (Fl (binary64 cosI acosI powI) × Fl (binary64 cosI acosI powI)) n,
      q.boundingBox = some box ∧ ∀ i,
      M / 100 ≤ |(q.end_.coords i).toReal - 3 * (q.ctrl2.coords i).toReal
        + 3 * (q.ctrl1.coords i).toReal - (q.start.coords i).toReal| →
      ∀ t, 0 ≤ t → t ≤ 1 →
        (box i).1.toReal - 1 / 10 ^ 10 * M ≤ (q.real.eval t).coords i ∧
        (q.real.eval t).coords i ≤ (box i).2.toReal + 1 / 10 ^ 10 * M := by
  have M0 : 0 < M := by linarith
  have hη := binary64_eta cosI acosI powI
  have hm := binary64_max cosI acosI powI
  have hu : (binary64 cosI acosI powI).u = 2 ^ (-53 : ℤ) := rfl
  have hε : (binary64 cosI acosI powI).epsilon = 2 ^ (-52 : ℤ) := rfl
  have hηu : (binary64 cosI acosI powI).eta ≤ (binary64 cosI acosI powI).u := by
    rw [hu]; exact hη.trans (by norm_num)
  have hMM : M ^ 2 ≤ 10 ^ 40 := by
    have := pow_le_pow_left₀ M0.le M6 2
    rwa [← pow_mul] at this
  have hMM1 : 1 ≤ M ^ 2 := one_le_pow₀ M1
  obtain ⟨box, hbox, h⟩ := C84_cubic_conditioned_partial q (M := M) (κ := M / 100 * 3)
    (by rw [hu]; norm_num) hηu (by
      have := mul_le_mul_of_nonneg_left hMM1 (binary64 cosI acosI powI).u_nonneg
      linarith) hs hc hc' hd (by linarith) (by linarith) M0.le (by positivity)
    (by rw [hu]; nlinarith [M0, (by norm_num : (400 : ℝ) * 2 ^ (-53 : ℤ) ≤ 1 / 100 * 3)])
  refine ⟨box, hbox, fun i hi t t0 t1 => ?_⟩
  have hk := h i (by rw [abs_mul, abs_of_pos (by norm_num : (0 : ℝ) < 3)]; linarith) t t0 t1
  have hval : (q.real.eval t).coords i = (1 - t) ^ 3 * (q.start.coords i).toReal
          + 3 * t * (1 - t) ^ 2 * (q.ctrl1.coords i).toReal
          + 3 * t ^ 2 * (1 - t) * (q.ctrl2.coords i).toReal + t ^ 3 * (q.end_.coords i).toReal :=
    cubic_real_eval q t i
  rw [hval]
  simp only at hk
  rw [hu, hε] at hk
  have e : 6200 * ((2 : ℝ) ^ (-53 : ℤ) * M ^ 2) / (M / 100 * 3)
      = 620000 / 3 * 2 ^ (-53 : ℤ) * M := by field_simp; ring
  rw [e] at hk
  have hE : 400 * ((2 : ℝ) ^ (-53 : ℤ) * M) + 620000 / 3 * 2 ^ (-53 : ℤ) * M + 3 * 2 ^ (-52 : ℤ)
      ≤ 1 / 10 ^ 10 * M := by
    have h1 : (3 : ℝ) * 2 ^ (-52 : ℤ) ≤ 3 * 2 ^ (-52 : ℤ) * M := le_mul_of_one_le_right
      (by positivity) M1
    have h2 : (400 * (2 : ℝ) ^ (-53 : ℤ) + 620000 / 3 * 2 ^ (-53 : ℤ) + 3 * 2 ^ (-52 : ℤ)) * M
        ≤ 1 / 10 ^ 10 * M := mul_le_mul_of_nonneg_right (by norm_num) M0.le
    linarith
  constructor <;> linarith

/-- The hypotheses of `C84_cubic_binary64_partial` (and so of `C84_cubic_conditioned_partial`): a
curve with two extrema on both axes. -/
example : let F := binary64 cosI acosI powI
    let p : ℤ → ℤ → PointN (Fl F) 2 := fun x y => ⟨![lit x, lit y]⟩
    let q : CubicBezier (PointN (Fl F) 2) := ⟨p 0 2, p 7 (-5), p (-3) 6, p 5 (-1)⟩
    (BoundedBy 7 q.start ∧ BoundedBy 7 q.ctrl1 ∧ BoundedBy 7 q.ctrl2 ∧ BoundedBy 7 q.end_) ∧
    ∀ i, (7 : ℝ) / 100 ≤ |(q.end_.coords i).toReal - 3 * (q.ctrl2.coords i).toReal
        + 3 * (q.ctrl1.coords i).toReal - (q.start.coords i).toReal| := by
  intro F p q
  have hp : ∀ x y : ℤ, |x| ≤ 7 → |y| ≤ 7 → BoundedBy 7 (p x y) ∧
      ((p x y).coords 0).toReal = x ∧ ((p x y).coords 1).toReal = y := by
    intro x y hx hy
    have ex := lit_int (F := F) x (hx.trans (by norm_num))
    have ey := lit_int (F := F) y (hy.trans (by norm_num))
    have h0 : (p x y).coords 0 = lit (x : ℚ) := rfl
    have h1 : (p x y).coords 1 = lit (y : ℚ) := rfl
    refine ⟨fun i => ?_, by rw [h0, ex]; rfl, by rw [h1, ey]; rfl⟩
    fin_cases i
    · show ((p x y).coords 0).IsFinite ∧ |((p x y).coords 0).toReal| ≤ 7
      rw [h0, ex]
      exact ⟨trivial, by rw [toReal_fin]; exact_mod_cast hx⟩
    · show ((p x y).coords 1).IsFinite ∧ |((p x y).coords 1).toReal| ≤ 7
      rw [h1, ey]
      exact ⟨trivial, by rw [toReal_fin]; exact_mod_cast hy⟩
  obtain ⟨s, s0, s1⟩ := hp 0 2 (by norm_num) (by norm_num)
  obtain ⟨k, k0, k1⟩ := hp 7 (-5) (by norm_num) (by norm_num)
  obtain ⟨l, l0, l1⟩ := hp (-3) 6 (by norm_num) (by norm_num)
  obtain ⟨e, e0, e1⟩ := hp 5 (-1) (by norm_num) (by norm_num)
  refine ⟨⟨s, k, l, e⟩, fun i => ?_⟩
  fin_cases i
  · show (7 : ℝ) / 100 ≤ |((p 5 (-1)).coords 0).toReal - 3 * ((p (-3) 6).coords 0).toReal
      + 3 * ((p 7 (-5)).coords 0).toReal - ((p 0 2).coords 0).toReal|
    rw [s0, k0, l0, e0]
    norm_num
  · show (7 : ℝ) / 100 ≤ |((p 5 (-1)).coords 1).toReal - 3 * ((p (-3) 6).coords 1).toReal
      + 3 * ((p 7 (-5)).coords 1).toReal - ((p 0 2).coords 1).toReal|
    rw [s1, k1, l1, e1]
    norm_num [abs_le, le_abs]

end

end Stroke
