import Verif.Props.FloatArcLength
import Verif.Props.LengthRate

set_option linter.unusedSectionVars false

/-!
# The corrected arc length in floating point (C142)
-/

namespace Stroke

open Fl

variable {F : FloatFormat} {n : ℕ}

/-- The parameter `1 / k` as computed. -/
theorem first_param {k : ℕ} (hk : 1 ≤ k) (hS : HasSteps F k) :
    ∃ (a : ℝ) (ha : a ∈ F.grid ∧ |a| ≤ F.max),
      (lit 1 / Scalar.ofUsize k : Fl F) = fin a ha ∧ 0 ≤ a ∧ a ≤ 1 ∧
        |a - 1 / k| ≤ 4 * F.u + 4 * F.eta := by
  have u0 := F.u_nonneg
  have e0 := F.eta_nonneg
  have k0 : (0 : ℝ) < k := by exact_mod_cast (by omega : 0 < k)
  have k1 : (1 : ℝ) ≤ k := by exact_mod_cast hk
  have s0 : (0 : ℝ) ≤ 1 / k := by positivity
  have s1 : 1 / (k : ℝ) ≤ 1 := by rw [div_le_one k0]; exact k1
  have m1 : (1 : ℝ) ≤ F.max := by linarith [F.max_ge]
  have eu : (Scalar.ofUsize k : Fl F) = fin (k : ℝ) (hS.num k le_rfl) :=
    F.round_of_mem (hS.num k le_rfl)
  refine ⟨F.rnd (1 / k), ⟨F.rnd_mem _, F.abs_rnd_le F.max_mem
    (by rw [abs_of_nonneg s0]; linarith)⟩, ?_, F.rnd_nonneg s0, ?_, ?_⟩
  · rw [lit_one, eu, fin_div k0.ne', F.round_of_le (by rw [abs_of_nonneg s0]; linarith)]
  · have := F.rnd_mono s1
    rwa [F.rnd_of_mem 1 F.one_mem] at this
  · have r := F.rnd_err (1 / (k : ℝ))
    rw [abs_of_nonneg s0] at r
    have := mul_le_mul_of_nonneg_left s1 u0
    linarith

/-- The first chord, from a given start point to the computed point at `1 / k`. -/
theorem first_chord_float {k : ℕ} (hk : 1 ≤ k) (hS : HasSteps F k) (hu : F.u ≤ 1 / 1024)
    (he : F.eta ≤ 1 / 1024)
    (f : Fl F → PointN (Fl F) n) (c : ℝ → PointN ℝ n) (p : PointN (Fl F) n) {B E V : ℝ}
    (hB : 0 ≤ B) (hE : 0 ≤ E) (hV0 : 0 ≤ V) (hp : BoundedBy B p) (hpc : p.real = c 0)
    (hf : ∀ (t : ℝ) (ht : t ∈ F.grid ∧ |t| ≤ F.max), 0 ≤ t → t ≤ 1 → BoundedBy B (f (fin t ht)) ∧
      ∀ j, |((f (fin t ht)).coords j).toReal - (c t).coords j| ≤ E)
    (hV : ∀ x y : ℝ, 0 ≤ x → x ≤ y → y ≤ 1 → pdist (c x) (c y) ≤ V * (y - x))
    (hB1 : 5 / 2 * B + 1 ≤ F.max)
    (hmax : (1 + F.u) ^ (n + 1) * (n * (5 / 2 * B + 1) ^ 2) + 2 * n * (1 + F.u) ^ n * F.eta
      ≤ F.max) :
    ∃ (d : ℝ) (hd : d ∈ F.grid ∧ |d| ≤ F.max),
      Scalar.sqrt (Point.squaredLength (p - f (lit 1 / Scalar.ofUsize k))) = fin d hd ∧ 0 ≤ d ∧
      |d - pdist (c 0) (c (1 / k))| ≤ arcStep F n k E V := by
  have u0 := F.u_nonneg
  have e0 := F.eta_nonneg
  have k0 : (0 : ℝ) < k := by exact_mod_cast (by omega : 0 < k)
  have k1 : (1 : ℝ) ≤ k := by exact_mod_cast hk
  have s0 : (0 : ℝ) ≤ 1 / k := by positivity
  have s1 : 1 / (k : ℝ) ≤ 1 := by rw [div_le_one k0]; exact k1
  obtain ⟨a, ha, ea, a0, a1, haerr⟩ := first_param hk hS
  obtain ⟨bpa, hpa⟩ := hf a ha a0 a1
  have hsq := sq_finite_of_bounded hu he hp bpa hB hB1 hmax
  obtain ⟨_, df, d0, hd⟩ := C88_point_distance _ _ hsq
  obtain ⟨d, hdv, ed⟩ := isFinite_iff.1 df
  rw [ed, toReal_fin] at d0 hd
  refine ⟨d, hdv, by rw [ea]; exact ed, d0, ?_⟩
  have hG1 : 1 ≤ (1 + F.u) ^ (n + 3) := one_le_g (F := F) (n + 3)
  have hq : pdist (f (fin a ha)).real (c (1 / k)) ≤ Real.sqrt n * E + V * (4 * F.u + 4 * F.eta) := by
    have t1 := near_point hE hpa
    have t2 := lip_abs hV ⟨a0, a1⟩ ⟨s0, s1⟩
    have t3 := pdist_triangle (f (fin a ha)).real (c a) (c (1 / k))
    have t4 : V * |a - 1 / k| ≤ V * (4 * F.u + 4 * F.eta) := mul_le_mul_of_nonneg_left haerr hV0
    linarith
  have q3 : |pdist p.real (f (fin a ha)).real - pdist (c 0) (c (1 / k))|
      ≤ 2 * (Real.sqrt n * E + V * (4 * F.u + 4 * F.eta)) := by
    rw [hpc]
    have t1 := pdist_triangle (c 0) (f (fin a ha)).real (c (1 / k))
    have t2 := pdist_triangle (c 0) (c (1 / k)) (f (fin a ha)).real
    rw [pdist_comm (c (1 / k)) (f (fin a ha)).real] at t2
    have : 0 ≤ Real.sqrt n * E + V * (4 * F.u + 4 * F.eta) := by positivity
    rw [abs_le]
    constructor <;> linarith
  have hC : pdist (c 0) (c (1 / k)) ≤ V / k := by
    have := hV 0 (1 / k) le_rfl s0 s1
    rw [sub_zero, mul_one_div] at this
    exact this
  refine (arc_chord_err hG1 hd q3 hC).trans ?_
  unfold arcStep
  have : 0 ≤ F.u * V := mul_nonneg u0 hV0
  linarith

/-- **C142** for plane `f64` cubics, with the format kept abstract. -/
theorem corrected_numbers {F : FloatFormat} {k : ℕ} (hk : 1 ≤ k) (hk' : k ≤ 10 ^ 6)
    (hS : HasSteps F k)
    (hu : F.u = 2 ^ (-(53 : ℕ) : ℤ)) (heta : F.eta ≤ 1 / 10 ^ 60) (hmx : 10 ^ 60 ≤ F.max)
    (c : CubicBezier (PointN (Fl F) 2)) {M D : ℝ} (hM : 0 ≤ M) (hM' : M ≤ 10 ^ 9)
    (hD' : D ≤ 10 ^ 10)
    (hs : BoundedBy M c.start) (hc : BoundedBy M c.ctrl1) (hc' : BoundedBy M c.ctrl2)
    (hd : BoundedBy M c.end_)
    (h1 : pdist c.start.real c.ctrl1.real ≤ D) (h2 : pdist c.ctrl1.real c.ctrl2.real ≤ D)
    (h3 : pdist c.ctrl2.real c.end_.real ≤ D) :
    ∃ r L, c.arclen k = some r ∧ c.real.arclen k = some L ∧
      (r + Scalar.sqrt (Point.squaredLength
        (c.start - c.evalCasteljau (lit 1 / Scalar.ofUsize k)))).IsFinite ∧
      |(r + Scalar.sqrt (Point.squaredLength
        (c.start - c.evalCasteljau (lit 1 / Scalar.ofUsize k)))).toReal
          - (L + pdist (c.real.eval (0 : ℝ)) (c.real.eval (1 / k : ℝ)))|
        ≤ (k + 2) * (1 / 10 ^ 14 * (M + D) + 1 / 10 ^ 25) := by
  have e0 := F.eta_nonneg
  have u0 := F.u_nonneg
  have hD : 0 ≤ D := (pdist_nonneg _ _).trans h1
  have g3 : (1 + F.u) ^ (2 + 1) ≤ 2 := by rw [hu]; norm_num
  have g2 : (1 + F.u) ^ 2 ≤ 2 := by rw [hu]; norm_num
  have hkr : (k : ℝ) ≤ 10 ^ 6 := by exact_mod_cast hk'
  have k1 : (1 : ℝ) ≤ k := by exact_mod_cast hk
  have k0 : (0 : ℝ) < k := by linarith
  have hX := arcStep_numbers (F := F) hu heta hk hM hD
  have hu' : F.u ≤ 1 / 1024 := by rw [hu]; norm_num
  have he' : F.eta ≤ 1 / 1024 := heta.trans (by norm_num)
  have uM : F.u * M ≤ 1 / 1024 * M := mul_le_mul_of_nonneg_right hu' hM
  have hM2 : (5 / 2 * (2 * M + 1) + 1) ^ 2 ≤ 10 ^ 20 := by
    calc (5 / 2 * (2 * M + 1) + 1) ^ 2 ≤ (10 ^ 10) ^ 2 :=
          pow_le_pow_left₀ (by positivity) (by norm_num at hM' ⊢; linarith) 2
      _ = 10 ^ 20 := by norm_num
  have hlip : ∀ x y : ℝ, 0 ≤ x → x ≤ y → y ≤ 1 →
      pdist (c.real.eval x) (c.real.eval y) ≤ 3 * D * (y - x) := fun x y hx hxy hy =>
    (C73_specialised ⟨c.real.start, c.real.start⟩
      ⟨c.real.start, c.real.start, c.real.start⟩ c.real x y hx hxy hy).2.2 D h1 h2 h3
  obtain ⟨r, L, hr, hL, rf, h⟩ := arclen_numbers hk hk' hS hu heta hmx c hM hM' hD' hs hc hc' hd
    h1 h2 h3
  obtain ⟨d, hdv, ed, d0, hde⟩ := first_chord_float hk hS hu' he' (fun t => c.evalCasteljau t)
    (fun t => c.real.eval t) c.start (B := 2 * M + 1) (E := 20 * F.u * M + 14 * F.eta)
    (V := 3 * D) (by linarith) (by positivity) (by linarith)
    (fun j => ⟨(hs j).1, (hs j).2.trans (by linarith)⟩)
    (by exact (C20_endpoints c.real).1.symm) (fun t ht t0 t1 => by
      have key := fun j => C67_cubic_casteljau c ht t0 t1 hu' he' hs hc hc' hd (by
        norm_num at hM' hmx ⊢; linarith) j
      refine ⟨fun j => ⟨(key j).1, ?_⟩, fun j => ?_⟩
      · refine (bounded_of_error (key j).2 (M := M) ?_).trans (by linarith)
        have m1 := abs_lerp_le t0 t1 (hs j).2 (hc j).2
        have m2 := abs_lerp_le t0 t1 (hc j).2 (hc' j).2
        have m3 := abs_lerp_le t0 t1 (hc' j).2 (hd j).2
        have := abs_lerp_le t0 t1 (abs_lerp_le t0 t1 m1 m2) (abs_lerp_le t0 t1 m2 m3)
        convert this using 2
        ring
      · rw [cubic_real_eval]
        exact (key j).2) hlip
    (by norm_num at hM' hmx ⊢; linarith)
    (by
      have a1 : (1 + F.u) ^ (2 + 1) * (((2 : ℕ) : ℝ) * (5 / 2 * (2 * M + 1) + 1) ^ 2)
          ≤ 2 * (2 * 10 ^ 20) := by
        apply mul_le_mul g3 _ (by positivity) (by norm_num)
        push_cast
        linarith
      have a2 : 2 * ((2 : ℕ) : ℝ) * (1 + F.u) ^ 2 * F.eta ≤ 8 * 1 := by
        apply mul_le_mul _ (heta.trans (by norm_num)) e0 (by norm_num)
        push_cast
        linarith
      have : (2 : ℝ) * (2 * 10 ^ 20) + 8 * 1 ≤ 10 ^ 60 := by norm_num
      exact (add_le_add a1 a2).trans (this.trans hmx))
  -- the exact sum is at most `3 D`
  have hLC : L + pdist (c.real.eval (0 : ℝ)) (c.real.eval (1 / k : ℝ)) ≤ 3 * D := by
    rw [C26_actual] at hL
    cases hL
    have hch : ∀ i : ℕ, i < k → pdist (c.real.eval ((i : ℝ) / k))
        (c.real.eval (((i + 1 : ℕ) : ℝ) / k)) ≤ 3 * D / k := by
      intro i hi
      have := hlip ((i : ℝ) / k) (((i + 1 : ℕ) : ℝ) / k) (by positivity) (by gcongr; omega)
        (by rw [div_le_one k0]; exact_mod_cast hi)
      refine this.trans (le_of_eq ?_)
      push_cast
      field_simp
      ring
    have h0 := hch 0 (by omega)
    rw [Nat.cast_zero, zero_div, Nat.zero_add, Nat.cast_one] at h0
    have hsum : polylineLength (fun i : ℕ => c.real.eval ((i : ℝ) / k)) 1 k
        ≤ ∑ _j ∈ Finset.Ico 1 k, 3 * D / k := by
      apply Finset.sum_le_sum
      intro j hj
      exact hch j (Finset.mem_Ico.1 hj).2
    rw [Finset.sum_const, Nat.card_Ico, nsmul_eq_mul, Nat.cast_sub hk, Nat.cast_one] at hsum
    have e : ((k : ℝ) - 1) * (3 * D / k) + 3 * D / k = 3 * D := by field_simp; ring
    linarith
  have hL0 : 0 ≤ L + pdist (c.real.eval (0 : ℝ)) (c.real.eval (1 / k : ℝ)) := by
    rw [C26_actual] at hL
    cases hL
    have := pdist_nonneg (c.real.eval (0 : ℝ)) (c.real.eval (1 / k : ℝ))
    have : 0 ≤ polylineLength (fun i : ℕ => c.real.eval ((i : ℝ) / k)) 1 k :=
      Finset.sum_nonneg fun i _ => pdist_nonneg _ _
    linarith
  obtain ⟨rv, hrv, rfl⟩ := isFinite_iff.1 rf
  rw [toReal_fin] at h
  refine ⟨_, L, hr, hL, ?_⟩
  set Y : ℝ := 1 / 10 ^ 14 * (M + D) + 1 / 10 ^ 25 with hY
  set T := L + pdist (c.real.eval (0 : ℝ)) (c.real.eval (1 / k : ℝ)) with hT
  have Y0 : 0 ≤ Y := by positivity
  have hdY : |d - pdist (c.real.eval (0 : ℝ)) (c.real.eval (1 / k : ℝ))| ≤ 9 / 10 * Y := by
    refine (hde.trans hX).trans ?_
    rw [hY]
    norm_num
    linarith
  have hsum : |rv + d - T| ≤ (k + 9 / 10) * Y := by
    rw [hT]
    rw [abs_le] at h hdY ⊢
    constructor <;> linarith [h.1, h.2, hdY.1, hdY.2]
  have hkY : (k + 9 / 10) * Y ≤ 2 * 10 ^ 6 * Y := by
    apply mul_le_mul_of_nonneg_right _ Y0
    have : (k : ℝ) + 9 / 10 ≤ 10 ^ 6 + 9 / 10 := by linarith
    exact this.trans (by norm_num)
  have hYn : Y ≤ 1 / 1000 := by
    have : M + D ≤ 10 ^ 9 + 10 ^ 10 := by linarith
    have := mul_le_mul_of_nonneg_left this (show (0 : ℝ) ≤ 1 / 10 ^ 14 by norm_num)
    rw [hY]
    norm_num at this ⊢
    linarith
  have habs : |rv + d| ≤ 3 * D + 2 * 10 ^ 6 * Y := by
    rw [abs_le] at hsum ⊢
    constructor <;> linarith [hsum.1, hsum.2]
  have hle : |rv + d| ≤ F.max := by
    refine habs.trans ?_
    norm_num at hD' hYn hmx ⊢
    linarith
  simp only [ed, fin_add, F.round_of_le hle]
  refine ⟨trivial, ?_⟩
  rw [toReal_fin]
  have hr := F.rnd_err (rv + d)
  have hur : F.u * |rv + d| ≤ 112 / 10 ^ 18 * (3 * D + 2 * 10 ^ 6 * Y) :=
    mul_le_mul (by rw [hu]; norm_num) habs (abs_nonneg _) (by norm_num)
  have hfin : 112 / 10 ^ 18 * (3 * D + 2 * 10 ^ 6 * Y) + F.eta ≤ 11 / 10 * Y := by
    have : 1 / 10 ^ 14 * D + 1 / 10 ^ 25 ≤ Y := by
      rw [hY]
      have : (0 : ℝ) ≤ 1 / 10 ^ 14 * M := by positivity
      linarith
    norm_num at this heta ⊢
    linarith
  rw [abs_le] at hsum hr ⊢
  constructor <;> linarith [hsum.1, hsum.2, hr.1, hr.2]

section Binary64
variable (cosI acosI : ℝ → ℝ) (powI : ℝ → ℝ → ℝ)

/-- **C142** in `f64`: for plane cubics whose control polygon advances by at least `σ` per leg,
`arclen(k)` plus the length of the missing first chord, all computed in `f64`, is within
`A² / (σ k²)` (too few steps) plus `10⁻¹⁴ (M + D)` per step (rounding) of the length of the curve,
where `A` is the larger second difference of the control points. -/
theorem C142_binary64
    (c : CubicBezier (PointN (Fl (binary64 cosI acosI powI)) 2)) {M D : ℝ}
    (hM : 0 ≤ M) (hM' : M ≤ 10 ^ 9) (hD' : D ≤ 10 ^ 10)
    (hs : BoundedBy M c.start) (hc : BoundedBy M c.ctrl1) (hc' : BoundedBy M c.ctrl2)
    (hd : BoundedBy M c.end_)
    (h1 : pdist c.start.real c.ctrl1.real ≤ D) (h2 : pdist c.ctrl1.real c.ctrl2.real ≤ D)
    (h3 : pdist c.ctrl2.real c.end_.real ≤ D)
    (u : ℕ → ℝ) (hu : u 0 ^ 2 + u 1 ^ 2 ≤ 1) (σ : ℝ) (hσ : 0 < σ)
    (a1 : AdvancesBy u σ c.start.real c.ctrl1.real)
    (a2 : AdvancesBy u σ c.ctrl1.real c.ctrl2.real)
    (a3 : AdvancesBy u σ c.ctrl2.real c.end_.real) (k : ℕ) (hk : 1 ≤ k) (hk' : k ≤ 10 ^ 6) :
    ∃ r, c.arclen k = some r ∧
      (r + Scalar.sqrt (Point.squaredLength
        (c.start - c.evalCasteljau (lit 1 / Scalar.ofUsize k)))).IsFinite ∧
      |(r + Scalar.sqrt (Point.squaredLength
        (c.start - c.evalCasteljau (lit 1 / Scalar.ofUsize k)))).toReal
          - arcLength 2 (fun t i => coord (c.real.derivative.eval t) i)|
        ≤ max (pdist (c.real.start + c.real.ctrl2) (c.real.ctrl1 + c.real.ctrl1))
              (pdist (c.real.ctrl1 + c.real.end_) (c.real.ctrl2 + c.real.ctrl2)) ^ 2 / (σ * k ^ 2)
          + (k + 2) * (1 / 10 ^ 14 * (M + D) + 1 / 10 ^ 25) := by
  obtain ⟨r, L, hr, hL, rf, h⟩ := corrected_numbers hk hk'
    (binary64_steps cosI acosI powI (hk'.trans (by norm_num))) rfl
    (binary64_eta cosI acosI powI) (binary64_max cosI acosI powI) c hM hM' hD' hs hc hc' hd h1 h2 h3
  obtain ⟨x, hx, b1, b2, -⟩ := C142_cubic c.real u (by
    rw [show Point.dim (PointN ℝ 2) = 2 from rfl, Finset.sum_range_succ, Finset.sum_range_succ,
      Finset.sum_range_zero, zero_add]
    exact hu) σ hσ a1 a2 a3 k hk
  rw [hL] at hx
  cases hx
  refine ⟨r, hr, rf, ?_⟩
  rw [show Point.dim (PointN ℝ 2) = 2 from rfl] at b1 b2
  have p0 : 0 ≤ max (pdist (c.real.start + c.real.ctrl2) (c.real.ctrl1 + c.real.ctrl1))
      (pdist (c.real.ctrl1 + c.real.end_) (c.real.ctrl2 + c.real.ctrl2)) ^ 2 / (σ * k ^ 2) := by
    positivity
  rw [abs_le] at h ⊢
  exact ⟨by linarith [h.1], by linarith [h.2]⟩

/-- The hypotheses are met by the cubic over `(0,0), (1,1), (2,1), (3,0)`, which advances by 1 per
leg along the first axis. -/
example : ∃ c : CubicBezier (PointN (Fl (binary64 cosI acosI powI)) 2),
    BoundedBy 3 c.start ∧ BoundedBy 3 c.ctrl1 ∧ BoundedBy 3 c.ctrl2 ∧ BoundedBy 3 c.end_ ∧
    pdist c.start.real c.ctrl1.real ≤ 2 ∧ pdist c.ctrl1.real c.ctrl2.real ≤ 2 ∧
    pdist c.ctrl2.real c.end_.real ≤ 2 ∧
    ∃ u : ℕ → ℝ, u 0 ^ 2 + u 1 ^ 2 ≤ 1 ∧ AdvancesBy u 1 c.start.real c.ctrl1.real ∧
      AdvancesBy u 1 c.ctrl1.real c.ctrl2.real ∧ AdvancesBy u 1 c.ctrl2.real c.end_.real := by
  have ok : ∀ k : ℤ, |k| ≤ 3 → ((k : ℝ) ∈ (binary64 cosI acosI powI).grid ∧
      |(k : ℝ)| ≤ (binary64 cosI acosI powI).max) := fun k hk =>
    FloatFormat.int_ok _ k (hk.trans (by norm_num))
  set P : ∀ a b : ℤ, |a| ≤ 3 → |b| ≤ 3 → PointN (Fl (binary64 cosI acosI powI)) 2 :=
    fun a b ha hb => ⟨![fin (a : ℝ) (ok a ha), fin (b : ℝ) (ok b hb)]⟩ with hP
  have bd : ∀ a b ha hb, BoundedBy 3 (P a b ha hb) := by
    intro a b ha hb i
    have ha' : |(a : ℝ)| ≤ 3 := by exact_mod_cast ha
    have hb' : |(b : ℝ)| ≤ 3 := by exact_mod_cast hb
    fin_cases i
    · exact ⟨trivial, ha'⟩
    · exact ⟨trivial, hb'⟩
  have re : ∀ a b ha hb, (P a b ha hb).real = pt2 a b := by
    intro a b ha hb
    show (⟨_⟩ : PointN ℝ 2) = ⟨_⟩
    congr 1
    funext i
    fin_cases i <;> rfl
  refine ⟨⟨P 0 0 (by norm_num) (by norm_num), P 1 1 (by norm_num) (by norm_num),
    P 2 1 (by norm_num) (by norm_num), P 3 0 (by norm_num) (by norm_num)⟩, bd _ _ (by norm_num) (by norm_num),
    bd _ _ (by norm_num) (by norm_num), bd _ _ (by norm_num) (by norm_num),
    bd _ _ (by norm_num) (by norm_num), ?_, ?_, ?_, fun i => if i = 0 then 1 else 0, by norm_num, ?_, ?_, ?_⟩
  all_goals simp only [re]
  · rw [pdist_pt2, Real.sqrt_le_iff]; norm_num
  · rw [pdist_pt2, Real.sqrt_le_iff]; norm_num
  · rw [pdist_pt2, Real.sqrt_le_iff]; norm_num
  all_goals norm_num [AdvancesBy, show Point.dim (PointN ℝ 2) = 2 from rfl, Finset.sum_range_succ]

end Binary64

end Stroke
