import Verif.Props.BSplineConvex
import Verif.Props.PolylineError

set_option linter.unusedSectionVars false

/-!
# How far a B-spline is from its chords, and how many steps draw it (C150)

A program that draws a B-spline calls `eval` at equally spaced parameters and joins the points.  The
error of that polyline is at most `M h² / 8`, where `h` is the step and `M` bounds the second
differences of the control polygon: the change of slope from one leg to the next, over the knots.

The derivative of the spline is a spline of one degree less with the slopes as control points, so it
changes at most at the rate `M` (compare C145); then `M x² / 2` minus the curve is convex in every
direction (compare C149).

`evalFixed` (Verif/Repaired/Model.lean) has the property; for the code's `eval` see the partial, detour
and negated versions.
-/

open Filter Topology

namespace Stroke

section Basis
variable {u : ℕ → ℝ} {K C D : ℕ}

/-- The spline with the slopes as control points increases at most at the rate `M`. -/
theorem slopes_rate {d : ℕ} (hm : ∀ i j, i ≤ j → j < K → u i ≤ u j) (hK : K = C + (d + 1) + 1)
    (hd : 1 ≤ d) (hDC : d + 1 < C) (y : ℕ → ℝ) {M s t : ℝ} (h1 : u (d + 1) ≤ s) (hst : s ≤ t)
    (h2 : t < u C)
    (hy : ∀ i, 1 ≤ i → i + 1 < C → u (i + 1) ≤ t → s < u (i + (d + 1)) →
      d * (y (i + 1) - y i) ≤ M * (u (i + (d + 1)) - u (i + 1))) :
    M * s - ∑ i ∈ Finset.Ico 1 C, y i * coxDeBoor u d i s
      ≤ M * t - ∑ i ∈ Finset.Ico 1 C, y i * coxDeBoor u d i t := by
  have d0 : (0 : ℝ) < d := by exact_mod_cast hd
  have hm' : ∀ i j, i ≤ j → j < C - 1 + d + 1 → (fun j => u (j + 1)) i ≤ (fun j => u (j + 1)) j :=
    fun i j hij hj => hm _ _ (by omega) (by omega)
  have hC : C - 1 + 1 = C := by omega
  -- the averages of `d` knots are the control points of the parameter
  have par : ∀ x, u (d + 1) ≤ x → x < u C →
      ∑ i ∈ Finset.Ico 1 C, greville (fun j => u (j + 1)) d (i - 1) * coxDeBoor u d i x = x := by
    intro x x1 x2
    have := basis_greville (u := fun j => u (j + 1)) hm' rfl hd (by omega) (t := x) x1
      (by simpa only [hC] using x2)
    rw [Finset.sum_Ico_eq_sum_range]
    conv_rhs => rw [← this]
    exact Finset.sum_congr rfl fun j _ => by
      rw [coxDeBoor_shift, Nat.add_comm 1 j, Nat.add_sub_cancel, mul_comm]
  have key := slopes_mono hm hK hDC (fun i => M * greville (fun j => u (j + 1)) d (i - 1) - y i) h1 hst h2
    (fun i i1 i2 i3 i4 => by
      have := hy i i1 i2 i3 i4
      obtain ⟨n, rfl⟩ : ∃ n, i = n + 1 := ⟨i - 1, by omega⟩
      have g := greville_sub (u := fun j => u (j + 1)) d n
      simp only [Nat.add_sub_cancel]
      have e : greville (fun j => u (j + 1)) d (n + 1)
          = greville (fun j => u (j + 1)) d n + (u (n + 1 + d + 1) - u (n + 1 + 1)) / d := by linarith
      rw [e, mul_add]
      rw [show n + 1 + (d + 1) = n + 1 + d + 1 by omega] at this
      have : y (n + 1 + 1) - y (n + 1) ≤ M * ((u (n + 1 + d + 1) - u (n + 1 + 1)) / d) := by
        rw [← mul_div_assoc, le_div_iff₀ d0, mul_comm]
        exact this
      linarith)
  simp only [sub_mul, Finset.sum_sub_distrib, mul_assoc, ← Finset.mul_sum] at key
  rwa [par s h1 (hst.trans_lt h2), par t (h1.trans hst) h2] at key

end Basis

section Splines
variable {P : Type} [Point ℝ P] [LawfulPoint P] {K C D : ℕ}
variable {knots : Arr ℝ K} {ps : Arr P C} {b : BSpline ℝ P K C D}

/-- A sum of shares is not far below its chords. -/
theorem legShares_chord (v : ValidSpline C D knots) (hD : 2 ≤ D) (y : ℕ → ℝ) {M s m t : ℝ}
    (h1 : knotAt knots D ≤ s) (hsm : s ≤ m) (hmt : m ≤ t) (h2 : BeforeOrClamped C D knots t)
    (hsep : ∀ i, 1 ≤ i → i < C → s < knotAt knots i → knotAt knots i ≤ t →
      knotAt knots i < knotAt knots (i + D))
    (hy : ∀ i, 1 ≤ i → i + 1 < C → knotAt knots (i + 1) ≤ t → s < knotAt knots (i + D) →
      (D - 1 : ℕ) * (legSlope (knotAt knots) D y (i + 1) - legSlope (knotAt knots) D y i)
        ≤ M * (knotAt knots (i + D) - knotAt knots (i + 1)))
    {f : ℝ → ℝ} (hf : ∀ x, f x = ∑ i ∈ Finset.Ico 1 C, (y i - y (i - 1)) * legShare D C (knotAt knots) i x) :
    (t - m) * f s + (m - s) * f t - (t - s) * f m ≤ M / 2 * ((t - m) * (m - s) * (t - s)) := by
  obtain ⟨v1, v2, v3⟩ := id v
  have hm := fun i j (hij : i ≤ j) (hj : j < K) => mono_knotAt v3 hij hj
  obtain ⟨d, rfl⟩ : ∃ d, D = d + 1 := ⟨D - 1, by omega⟩
  have hff : f = fun x => ∑ i ∈ Finset.Ico 1 C, (y i - y (i - 1)) * legShare (d + 1) C (knotAt knots) i x :=
    funext hf
  have tC : t ≤ knotAt knots C := by
    rcases h2 with h2 | h2
    · exact h2.le
    · exact h2.1.le
  rcases eq_or_lt_of_le hmt with rfl | hmt
  · simp
  set g : ℝ → ℝ := fun x => ∑ i ∈ Finset.Ico 1 C, legSlope (knotAt knots) (d + 1) y i
    * coxDeBoor (knotAt knots) d i x with hg
  have cont : ContinuousOn f (Set.Icc s t) := hff ▸ legShares_continuous v (by omega) y h1 h2 hsep
  have der : ∀ x, s ≤ x → x < t → HasDerivWithinAt f (g x) (Set.Ici x) x := fun x x1 x2 => by
    rw [hff]; exact legShares_deriv hm v2 v1 y (h1.trans x1) (x2.trans_le tC)
  have key := chord_of_right_deriv (f := fun x => M / 2 * x ^ 2 - f x) (g := fun x => M * x - g x) hsm hmt
    (by fun_prop) (fun x x1 x2 => by
      have a := (((hasDerivAt_id x).pow 2).const_mul (M / 2)).hasDerivWithinAt (s := Set.Ici x)
      refine (a.sub (der x x1 x2)).congr_deriv ?_
      simp
      ring) (fun x z x1 xz z2 => slopes_rate hm v2 (by omega) v1 _ (h1.trans x1) xz (z2.trans_le tC)
        fun i i1 i2 i3 i4 => by
          simpa using hy i i1 i2 (i3.trans z2.le) (x1.trans_lt i4))
  nlinarith

/-- The slope of leg `i` of the control polygon, as a point: from control point `i` to `i + 1`, divided by
the distance of the parameters they belong to. -/
noncomputable def legVector (D : ℕ) (knots : Arr ℝ K) (ps : Arr P C) (i : ℕ) : P :=
  (extend ps (i + 1) - extend ps i)
    * ((greville (knotAt knots) D (i + 1) - greville (knotAt knots) D i)⁻¹ : ℝ)

theorem coord_legVector (i c : ℕ) : coord (legVector D knots ps i) c
    = legSlope (knotAt knots) D (fun j => coord (extend ps j) c) (i + 1) := by
  rw [legVector, coord_mul, coord_sub, greville_sub, legSlope, Nat.add_sub_cancel, inv_div, div_eq_mul_inv]

theorem legSlope_side (a : ℕ → ℝ) (i : ℕ) :
    legSlope (knotAt knots) D (fun j => side a 0 (extend ps j)) (i + 1)
      = ∑ c ∈ Finset.range (Point.dim P), a c * coord (legVector D knots ps i) c := by
  simp only [coord_legVector]
  unfold legSlope side
  simp only [sub_zero, ← Finset.sum_sub_distrib, ← mul_sub, Finset.sum_mul]
  exact Finset.sum_congr rfl fun c _ => by ring

/-- Points with leg shares are near their chords. -/
theorem chord_legSum (v : ValidSpline C D knots) (hD : 2 ≤ D) {M s t l : ℝ} (hM0 : 0 ≤ M)
    (h1 : knotAt knots D ≤ s) (hst : s ≤ t) (hl : l ∈ Set.Icc (0 : ℝ) 1)
    (h2 : BeforeOrClamped C D knots t)
    (hsep : ∀ i, 1 ≤ i → i < C → s < knotAt knots i → knotAt knots i ≤ t →
      knotAt knots i < knotAt knots (i + D))
    (hM : ∀ i, i + 2 < C → knotAt knots (i + 2) ≤ t → s < knotAt knots (i + 1 + D) →
      (D - 1 : ℕ) * pdist (legVector D knots ps i) (legVector D knots ps (i + 1))
        ≤ M * (knotAt knots (i + 1 + D) - knotAt knots (i + 2)))
    {p q r : P} (hp : IsLegSum D knots ps s p) (hq : IsLegSum D knots ps t q)
    (hr : IsLegSum D knots ps ((1 - l) * s + l * t) r) :
    pdist r (p * (1 - l) + q * l) ≤ M / 2 * (l * (1 - l) * (t - s) ^ 2) := by
  have m1 : s ≤ (1 - l) * s + l * t := by nlinarith [hl.1]
  have m2 : (1 - l) * s + l * t ≤ t := by nlinarith [hl.2]
  have B0 : 0 ≤ M / 2 * (l * (1 - l) * (t - s) ^ 2) :=
    mul_nonneg (by linarith) (mul_nonneg (quarter hl).1 (sq_nonneg _))
  rcases eq_or_lt_of_le hst with hlt | hlt
  · -- one point only
    have e : ∀ c, coord r c = coord p c ∧ coord q c = coord p c := by
      intro c
      rw [hr c, hp c, hq c, ← hlt, show (1 - l) * s + l * s = s by ring]
      exact ⟨rfl, rfl⟩
    have : r = p * (1 - l) + q * l := point_ext fun c => by
      rw [coord_add, coord_mul, coord_mul, (e c).1, (e c).2]
      ring
    rw [← this, pdist_eq_norm, sub_self, norm_zero]
    exact B0
  have hpos := sub_pos.2 hlt
  -- the direction from the point of the curve to the point of the chord
  set a : ℕ → ℝ := fun c => coord (p * (1 - l) + q * l : P) c - coord r c with ha
  set R := pdist r (p * (1 - l) + q * l) with hR
  have hRn : R = Real.sqrt (∑ c ∈ Finset.range (Point.dim P), a c ^ 2) := by
    rw [hR, pdist]
    congr 1
    exact Finset.sum_congr rfl fun c _ => by rw [ha]; ring
  have R0 : 0 ≤ R := pdist_nonneg _ _
  have hRsq : R * R = ∑ c ∈ Finset.range (Point.dim P), a c ^ 2 := by
    rw [hRn, Real.mul_self_sqrt (Finset.sum_nonneg fun c _ => sq_nonneg _)]
  have key := legShares_chord v hD (fun j => side a 0 (extend ps j)) (M := R * M) h1 m1 m2 h2 hsep
    (fun i i1 i2 i3 i4 => by
      obtain ⟨n, rfl⟩ : ∃ n, i = n + 1 := ⟨i - 1, by omega⟩
      rw [legSlope_side, legSlope_side, ← Finset.sum_sub_distrib]
      have cs := Real.sum_mul_le_sqrt_mul_sqrt (Finset.range (Point.dim P)) a
        (fun c => coord (legVector D knots ps (n + 1)) c - coord (legVector D knots ps n) c)
      rw [← hRn] at cs
      change _ ≤ R * pdist (legVector D knots ps (n + 1)) (legVector D knots ps n) at cs
      rw [pdist_comm] at cs
      simp only [mul_sub] at cs
      calc _ ≤ ((D - 1 : ℕ) : ℝ) * (R * pdist (legVector D knots ps n) (legVector D knots ps (n + 1))) :=
            mul_le_mul_of_nonneg_left cs (Nat.cast_nonneg _)
        _ = R * ((D - 1 : ℕ) * pdist (legVector D knots ps n) (legVector D knots ps (n + 1))) := by ring
        _ ≤ R * (M * (knotAt knots (n + 1 + D) - knotAt knots (n + 2))) :=
            mul_le_mul_of_nonneg_left (hM n i2 i3 i4) R0
        _ = _ := by ring) (fun x => rfl)
  have e1 := side_legSum hp hr a
  have e2 := side_legSum hp hq a
  simp only [mul_sub, Finset.sum_sub_distrib] at e1 e2
  have e3 : R * R = (1 - l) * side a 0 p + l * side a 0 q - side a 0 r := by
    rw [hRsq]
    unfold side
    simp only [sub_zero, Finset.mul_sum, ← Finset.sum_add_distrib, ← Finset.sum_sub_distrib]
    refine Finset.sum_congr rfl fun c _ => ?_
    have : a c = coord p c * (1 - l) + coord q c * l - coord r c := by
      rw [ha]; simp only [coord_add, coord_mul]
    rw [sq]
    nth_rewrite 2 [this]
    ring
  revert key e1 e2
  set X := ∑ i ∈ Finset.Ico 1 C, (side a 0 (extend ps i) - side a 0 (extend ps (i - 1)))
    * legShare D C (knotAt knots) i ((1 - l) * s + l * t)
  set Y := ∑ i ∈ Finset.Ico 1 C, (side a 0 (extend ps i) - side a 0 (extend ps (i - 1)))
    * legShare D C (knotAt knots) i s
  set Z := ∑ i ∈ Finset.Ico 1 C, (side a 0 (extend ps i) - side a 0 (extend ps (i - 1)))
    * legShare D C (knotAt knots) i t
  intro key e1 e2
  have e4 : R * R = (1 - l) * Y + l * Z - X := by
    rw [e3]
    have : side a 0 r = side a 0 p + X - Y := by linarith
    rw [this]
    have : side a 0 q = side a 0 p + Z - Y := by linarith
    rw [this]
    ring
  have fin : R * R ≤ R * (M / 2 * (l * (1 - l) * (t - s) ^ 2)) := by
    rw [e4]
    refine le_of_mul_le_mul_left ?_ hpos
    calc (t - s) * ((1 - l) * Y + l * Z - X) = _ := by ring
      _ ≤ _ := key
      _ = _ := by ring
  rcases eq_or_lt_of_le R0 with e | hR'
  · rw [← e]; exact B0
  · exact le_of_mul_le_mul_left fin hR'

/-- `M` bounds the second differences of the control polygon: the change of slope from each leg to the
next, over the knots `i + 2, ..., i + 1 + D` that the two legs share. -/
def BendsAtMost (D : ℕ) (knots : Arr ℝ K) (ps : Arr P C) (M : ℝ) : Prop :=
  ∀ (i : ℕ) (h : i + 2 < C),
    (D - 1 : ℕ) * pdist
        ((ps ⟨i + 1, by omega⟩ - ps ⟨i, by omega⟩)
          * ((greville (knotAt knots) D (i + 1) - greville (knotAt knots) D i)⁻¹ : ℝ) : P)
        ((ps ⟨i + 2, h⟩ - ps ⟨i + 1, by omega⟩)
          * ((greville (knotAt knots) D (i + 2) - greville (knotAt knots) D (i + 1))⁻¹ : ℝ))
      ≤ M * (knotAt knots (i + 1 + D) - knotAt knots (i + 2))

theorem BendsAtMost.legVector {M : ℝ} (h : BendsAtMost D knots ps M) (i : ℕ) (hi : i + 2 < C) :
    (D - 1 : ℕ) * pdist (legVector D knots ps i) (legVector D knots ps (i + 1))
      ≤ M * (knotAt knots (i + 1 + D) - knotAt knots (i + 2)) := by
  unfold Stroke.legVector
  rw [extend_lt ps (by omega : i < C), extend_lt ps (by omega : i + 1 < C), extend_lt ps hi]
  exact h i hi

/-- **C150** for the repaired program: the distance of the curve from a chord. -/
theorem C150_repaired_chord (h : BSpline.new knots ps = .ok b) (hD : 2 ≤ D)
    (hsep : ∀ i, 1 ≤ i → i < C → knotAt knots i < knotAt knots (i + D)) {M : ℝ} (hM0 : 0 ≤ M)
    (hM : BendsAtMost D knots ps M) {s t l : ℝ} (h1 : knotAt knots D ≤ s) (hst : s ≤ t)
    (hl : l ∈ Set.Icc (0 : ℝ) 1) (h2 : BeforeOrClamped C D knots t) {p q r : P}
    (hp : b.evalFixed s = .ok p) (hq : b.evalFixed t = .ok q)
    (hr : b.evalFixed ((1 - l) * s + l * t) = .ok r) :
    pdist r (p * (1 - l) + q * l) ≤ M / 2 * (l * (1 - l) * (t - s) ^ 2) := by
  have v := ((new_ok_iff _ _ _).1 h).1
  have tC : t ≤ knotAt knots C := by
    rcases h2 with h2 | h2
    · exact h2.le
    · exact h2.1.le
  have m1 : s ≤ (1 - l) * s + l * t := by nlinarith [hl.1]
  have m2 : (1 - l) * s + l * t ≤ t := by nlinarith [hl.2]
  exact chord_legSum v hD hM0 h1 hst hl h2 (fun i i1 i2 _ _ => hsep i i1 i2)
    (fun i hi _ _ => hM.legVector i hi) (isLegSum_fixed h h1 (hst.trans tC) hp)
    (isLegSum_fixed h (h1.trans hst) tC hq) (isLegSum_fixed h (h1.trans m1) (m2.trans tC) hr)

/-- **C150** for the repaired program: the polyline with `n` equal steps from the start to the end of
the domain is within `M (end - start)² / (8 n²)` of every point of the curve. -/
theorem C150_repaired (h : BSpline.new knots ps = .ok b) (hD : 2 ≤ D)
    (hsep : ∀ i, 1 ≤ i → i < C → knotAt knots i < knotAt knots (i + D)) {M : ℝ} (hM0 : 0 ≤ M)
    (hM : BendsAtMost D knots ps M) (hend : knotAt knots (C + D - 1) = knotAt knots C)
    {n : ℕ} (hn : 1 ≤ n) {t : ℝ} (t1 : knotAt knots D ≤ t) (t2 : t ≤ knotAt knots C) :
    ∃ i < n, ∃ p q r,
      b.evalFixed (knotAt knots D + (knotAt knots C - knotAt knots D) * ((i : ℝ) / n)) = .ok p ∧
      b.evalFixed (knotAt knots D + (knotAt knots C - knotAt knots D) * (((i : ℝ) + 1) / n)) = .ok q ∧
      b.evalFixed t = .ok r ∧
      NearSegment p q r (M * (knotAt knots C - knotAt knots D) ^ 2 / (8 * n ^ 2)) := by
  have v := ((new_ok_iff _ _ _).1 h).1
  obtain ⟨v1, v2, v3⟩ := id v
  have hm := fun i j (hij : i ≤ j) (hj : j < K) => mono_knotAt v3 hij hj
  have n0 : (0 : ℝ) < n := by exact_mod_cast hn
  set w := knotAt knots C - knotAt knots D with hw
  have w0 : 0 ≤ w := sub_nonneg.2 (hm D C v1.le (by omega))
  obtain ⟨x, hx, e⟩ : ∃ x ∈ Set.Icc (0 : ℝ) 1, t = knotAt knots D + w * x := by
    rcases eq_or_lt_of_le w0 with e | l
    · exact ⟨0, ⟨le_rfl, zero_le_one⟩, by linarith⟩
    · refine ⟨(t - knotAt knots D) / w, ⟨div_nonneg (by linarith) w0, ?_⟩, ?_⟩
      · rw [div_le_one l]; linarith
      · field_simp
        ring
  obtain ⟨i, hi, l, hl, ex, x1, x2⟩ := exists_step hn hx
  have ok : ∀ z ∈ Set.Icc (0 : ℝ) 1, ∃ p, b.evalFixed (knotAt knots D + w * z) = .ok p := by
    intro z hz
    have : w * z ≤ w := mul_le_of_le_one_right w0 hz.2
    have z0 : 0 ≤ w * z := mul_nonneg w0 hz.1
    rcases eq_or_lt_of_le (show knotAt knots D + w * z ≤ knotAt knots C by linarith) with e | lt
    · rw [e]; exact ⟨_, C121_bspline_end h⟩
    · obtain ⟨p, hp, _⟩ := C121_bspline h (show knotAt knots D ≤ knotAt knots D + w * z by linarith) lt
      exact ⟨p, hp⟩
  obtain ⟨p, hp⟩ := ok _ x1
  obtain ⟨q, hq⟩ := ok _ x2
  obtain ⟨r, hr⟩ := ok x hx
  rw [← e] at hr
  refine ⟨i, hi, p, q, r, hp, hq, hr, nearSegment_of_chord hl ?_⟩
  have hin : BeforeOrClamped C D knots (knotAt knots D + w * (((i : ℝ) + 1) / n)) := by
    have : w * (((i : ℝ) + 1) / n) ≤ w := mul_le_of_le_one_right w0 x2.2
    rcases eq_or_lt_of_le (show knotAt knots D + w * (((i : ℝ) + 1) / n) ≤ knotAt knots C by linarith)
      with e | lt
    · exact .inr ⟨e, hend⟩
    · exact .inl lt
  have step : (i : ℝ) / n ≤ ((i : ℝ) + 1) / n := by
    rw [div_le_div_iff_of_pos_right n0]; linarith
  refine (C150_repaired_chord h hD hsep hM0 hM
    (show knotAt knots D ≤ knotAt knots D + w * ((i : ℝ) / n) by
      linarith [mul_nonneg w0 x1.1])
    (by linarith [mul_le_mul_of_nonneg_left step w0]) hl hin hp hq (by
      rw [← hr, e, ex]
      congr 1
      ring)).trans ?_
  have hd : (knotAt knots D + w * (((i : ℝ) + 1) / n) - (knotAt knots D + w * ((i : ℝ) / n))) ^ 2
      = w ^ 2 / n ^ 2 := by
    field_simp
    ring
  rw [hd]
  have := mul_le_mul_of_nonneg_right (quarter hl).2 (show 0 ≤ w ^ 2 / (n : ℝ) ^ 2 by positivity)
  refine (mul_le_mul_of_nonneg_left this (by linarith)).trans (le_of_eq ?_)
  field_simp
  ring

/-- **C150** with the calls of this version: the points of the detour of C136. -/
theorem C150_detour (v : ValidSpline C D knots) (hc : FrontClamped D knots ∨ BackClamped D knots)
    (ps : Arr P C) (hD : 2 ≤ D) (hsep : ∀ i, 1 ≤ i → i < C → knotAt knots i < knotAt knots (i + D))
    {M : ℝ} (hM0 : 0 ≤ M) (hM : BendsAtMost D knots ps M) :
    ∃ f : ℝ → P,
      (∀ (t : ℝ) (k : ℕ) (_ : D ≤ k) (hkC : k < C), knotAt knots k ≤ t → t < knotAt knots (k + 1) →
        (∀ i : Fin K, knots i < t → eps ≤ t - knots i) →
        ∃ (b : BSpline ℝ P K C D) (q : P),
          BSpline.new knots (fun i => ps i - ps ⟨k, hkC⟩) = .ok b ∧ b.eval t = .ok q ∧
          q + ps ⟨k, hkC⟩ = f t) ∧
      ∀ s t l : ℝ, knotAt knots D ≤ s → s ≤ t → t < knotAt knots C → 0 ≤ l → l ≤ 1 →
        pdist (f ((1 - l) * s + l * t)) (f s * (1 - l) + f t * l)
          ≤ M / 2 * (l * (1 - l) * (t - s) ^ 2) := by
  obtain ⟨b, hb⟩ := (C43_accepts (D := D) _ ps).2 v
  obtain ⟨v1, v2, v3⟩ := id v
  have hm := fun i j (hij : i ≤ j) (hj : j < K) => mono_knotAt v3 hij hj
  have ex : ∀ t : ℝ, ∃ q : P, knotAt knots D ≤ t → t < knotAt knots C → b.evalFixed t = .ok q ∧
      ∀ c, coord q c = splineCoord D knots ps t c := by
    intro t
    by_cases ht : knotAt knots D ≤ t ∧ t < knotAt knots C
    · obtain ⟨q, hq⟩ := C121_bspline hb ht.1 ht.2
      exact ⟨q, fun _ _ => hq⟩
    · exact ⟨Point.default, fun h1 h2 => absurd ⟨h1, h2⟩ ht⟩
  choose f hf using ex
  refine ⟨f, ?_, ?_⟩
  · intro t k hDk hkC k1 k2 heps
    obtain ⟨b', q, hb', hq, hqc⟩ := C136_bspline v hc ps hDk hkC k1 k2 heps
    refine ⟨b', q, hb', hq, point_ext fun c => ?_⟩
    rw [hqc, (hf t ((hm D k hDk (by omega)).trans k1) (k2.trans_le (hm (k + 1) C hkC (by omega)))).2]
  · intro s t l h1 hst h2 l0 l1
    have m1 : s ≤ (1 - l) * s + l * t := by nlinarith
    have m2 : (1 - l) * s + l * t ≤ t := by nlinarith
    exact C150_repaired_chord hb hD hsep hM0 hM h1 hst ⟨l0, l1⟩ (.inl h2) (hf s h1 (hst.trans_lt h2)).1
      (hf t (h1.trans hst) h2).1 (hf _ (h1.trans m1) (m2.trans_lt h2)).1

/-- **C150**, the part that holds of `eval` itself: between two knots, with the origin in place of the
last control point of the span. -/
theorem C150_partial (h : BSpline.new knots ps = .ok b) (hc : FrontClamped D knots ∨ BackClamped D knots)
    (hD : 2 ≤ D) {M : ℝ} (hM0 : 0 ≤ M) {k : ℕ} (hDk : D ≤ k) (hkC : k < C)
    (hM : ∀ i, k ≤ i + D → i + 2 ≤ k →
      (D - 1 : ℕ) * pdist
          (legVector D knots (fun i : Fin C => if i.val = k then Point.default else ps i) i)
          (legVector D knots (fun i : Fin C => if i.val = k then Point.default else ps i) (i + 1))
        ≤ M * (knotAt knots (i + 1 + D) - knotAt knots (i + 2)))
    {s t l : ℝ} (s1 : knotAt knots k + eps ≤ s) (hst : s ≤ t) (t2 : t < knotAt knots (k + 1))
    (hl : l ∈ Set.Icc (0 : ℝ) 1) :
    ∃ p q r, b.eval s = .ok p ∧ b.eval t = .ok q ∧ b.eval ((1 - l) * s + l * t) = .ok r ∧
      pdist r (p * (1 - l) + q * l) ≤ M / 2 * (l * (1 - l) * (t - s) ^ 2) := by
  have v := ((new_ok_iff _ _ _).1 h).1
  obtain ⟨v1, v2, v3⟩ := id v
  have hm := fun i j (hij : i ≤ j) (hj : j < K) => mono_knotAt v3 hij hj
  have m1 : s ≤ (1 - l) * s + l * t := by nlinarith [hl.1]
  have m2 : (1 - l) * s + l * t ≤ t := by nlinarith [hl.2]
  have ev := eps_pos
  have heps : ∀ x, s ≤ x → x ≤ t → ∀ i : Fin K, knots i < x → eps ≤ x - knots i := by
    intro x x1 x2 i hi
    have hk : knots i = knotAt knots i.val := by rw [knotAt_lt _ i.isLt]
    by_cases hik : i.val ≤ k
    · have := hm i.val k hik (by omega)
      linarith
    · have := hm (k + 1) i.val (by omega) i.isLt
      linarith
  have s1' : knotAt knots k ≤ s := by linarith
  obtain ⟨p, hp, hp'⟩ := isLegSum_eval h hc hDk hkC s1' (hst.trans_lt t2) (heps s le_rfl hst)
  obtain ⟨q, hq, hq'⟩ := isLegSum_eval h hc hDk hkC (s1'.trans hst) t2 (heps t hst le_rfl)
  obtain ⟨r, hr, hr'⟩ := isLegSum_eval h hc hDk hkC (s1'.trans m1) (m2.trans_lt t2) (heps _ m1 m2)
  refine ⟨p, q, r, hp, hq, hr, chord_legSum v hD hM0 ((hm D k hDk (by omega)).trans s1') hst hl
    (.inl (t2.trans_le (hm (k + 1) C hkC (by omega)))) (fun i i1 i2 i3 i4 => ?_)
    (fun i hi i3 i4 => hM i ?_ ?_) hp' hq' hr'⟩
  · exfalso
    by_cases hik : i ≤ k
    · have := hm i k hik (by omega)
      linarith
    · have := hm (k + 1) i (by omega) (by omega)
      linarith
  · by_contra hcon
    have := hm (i + 1 + D) k (by omega) (by omega)
    linarith
  · by_contra hcon
    have := hm (k + 1) (i + 2) (by omega) (by omega)
    linarith

end Splines

/-- The straight spline from 1 to 3 of degree 2 with knots 0 0 0 1 2 2 2 does not bend. -/
theorem bends_0001222 : BendsAtMost 2 (![0, 0, 0, 1, 2, 2, 2] : Fin 7 → ℝ)
    ![p1 1, p1 (3 / 2), p1 (5 / 2), p1 3] 0 := by
  intro i hi
  have : i < 2 := by omega
  have e : ∀ x y z w c d : ℝ, (x - y) * c = (z - w) * d →
      pdist ((p1 x - p1 y) * c : PointN ℝ 1) ((p1 z - p1 w) * d) = 0 := by
    intro x y z w c d h
    rw [pdist, Real.sqrt_eq_zero']
    refine (Finset.sum_nonpos fun i hi => ?_)
    rw [coord_mul, coord_mul, coord_sub, coord_sub]
    have hi : i = 0 := by have := Finset.mem_range.1 hi; change i < 1 at this; omega
    subst hi
    rw [coord_p1, coord_p1, coord_p1, coord_p1, h]
    simp
  interval_cases i <;> simp <;> rw [e] <;>
    norm_num [greville, Finset.sum_range_succ, knotAt]

/-- **C150** is false of the code: the points of the straight spline from 1 to 3 are not on a straight
line. -/
theorem C150_false : ∃ (b : BSpline ℝ (PointN ℝ 1) 7 4 2) (p q r : PointN ℝ 1),
    BSpline.new ![0, 0, 0, 1, 2, 2, 2] ![p1 1, p1 (3 / 2), p1 (5 / 2), p1 3] = .ok b ∧
    BendsAtMost 2 (![0, 0, 0, 1, 2, 2, 2] : Fin 7 → ℝ) ![p1 1, p1 (3 / 2), p1 (5 / 2), p1 3] 0 ∧
    b.eval (1 / 4 : ℝ) = .ok p ∧ b.eval (3 / 4 : ℝ) = .ok q ∧ b.eval (1 / 2 : ℝ) = .ok r ∧
    0 < pdist r (p * (1 / 2 : ℝ) + q * (1 / 2 : ℝ)) := by
  obtain ⟨b, hb⟩ := (C43_accepts (D := 2) _ ![p1 1, p1 (3 / 2), p1 (5 / 2), p1 3]).2 valid_0001222
  have e4 := eps_le_quarter
  have ev : ∀ x : ℝ, 1 / 4 ≤ x → x ≤ 3 / 4 → ∃ q, b.eval x = .ok q ∧
      ∀ c, coord q c = splineCoord 2 (![0, 0, 0, 1, 2, 2, 2] : Fin 7 → ℝ)
          ![p1 1, p1 (3 / 2), p1 (5 / 2), p1 3] x c
        - coxDeBoor (knotAt (![0, 0, 0, 1, 2, 2, 2] : Fin 7 → ℝ)) 2 2 x * coord (p1 (5 / 2)) c := by
    intro x x1 x2
    refine C48_partial hb (.inl front_0001222) (k := 2) le_rfl (by norm_num) (by simp [knotAt]; linarith)
      (by simp [knotAt]; linarith) fun i => ?_
    fin_cases i <;> simp <;> intros <;> linarith
  obtain ⟨p, hp, pc⟩ := ev (1 / 4) le_rfl (by norm_num)
  obtain ⟨q, hq, qc⟩ := ev (3 / 4) (by norm_num) le_rfl
  obtain ⟨r, hr, rc⟩ := ev (1 / 2) (by norm_num) (by norm_num)
  refine ⟨b, p, q, r, hb, bends_0001222, hp, hq, hr, Real.sqrt_pos.2 ?_⟩
  change 0 < ∑ i ∈ Finset.range 1, _
  rw [Finset.sum_range_one, coord_add, coord_mul, coord_mul, pc, qc, rc]
  have e2 : (![p1 1, p1 (3 / 2), p1 (5 / 2), p1 3] : Fin 4 → PointN ℝ 1) 2 = p1 (5 / 2) := rfl
  norm_num [splineCoord, Fin.sum_univ_four, coxDeBoor, knotAt, coord_p1, e2]

/-- The hypotheses are met, with `M = 8`: degree 2, knots 0 0 0 1 2 2 2, control points 4, 0, 0, 4; the
slopes of the legs are -8, 0, 8. -/
example : (∀ i, 1 ≤ i → i < 4 → knotAt (![0, 0, 0, 1, 2, 2, 2] : Fin 7 → ℝ) i
      < knotAt (![0, 0, 0, 1, 2, 2, 2] : Fin 7 → ℝ) (i + 2)) ∧
    BendsAtMost 2 (![0, 0, 0, 1, 2, 2, 2] : Fin 7 → ℝ) ![p1 4, p1 0, p1 0, p1 4] 8 ∧
    knotAt (![0, 0, 0, 1, 2, 2, 2] : Fin 7 → ℝ) (4 + 2 - 1) = knotAt (![0, 0, 0, 1, 2, 2, 2] : Fin 7 → ℝ) 4 := by
  refine ⟨fun i h1 h2 => ?_, fun i hi => ?_, by simp [knotAt]⟩
  · interval_cases i <;> simp [knotAt]
  · have : i < 2 := by omega
    have e : ∀ x y z w c d : ℝ, |(x - y) * c - (z - w) * d| ≤ 8 →
        pdist ((p1 x - p1 y) * c : PointN ℝ 1) ((p1 z - p1 w) * d) ≤ 8 := by
      intro x y z w c d h
      rw [pdist]
      change Real.sqrt (∑ i ∈ Finset.range 1, _) ≤ 8
      rw [Finset.sum_range_one, coord_mul, coord_mul, coord_sub, coord_sub, coord_p1, coord_p1, coord_p1,
        coord_p1, Real.sqrt_sq_eq_abs]
      simpa using h
    interval_cases i <;> simp [knotAt] <;> refine (e _ _ _ _ _ _ ?_).trans ?_ <;>
      norm_num [greville, Finset.sum_range_succ, knotAt, abs_le]

/-- And those of `C150_partial`, on the span of `k = 2`, with `M = 6`: from 4 to 1 and from 1 to the
origin, with slopes -6 and -1. -/
example (i : ℕ) (h1 : 2 ≤ i + 2) (h2 : i + 2 ≤ 2) :
    ((2 - 1 : ℕ) : ℝ) * pdist
        (legVector 2 (![0, 0, 0, 1, 2, 2, 2] : Fin 7 → ℝ) (fun i : Fin 4 => if i.val = 2 then Point.default
          else (![p1 4, p1 1, p1 7, p1 9] : Fin 4 → PointN ℝ 1) i) i)
        (legVector 2 (![0, 0, 0, 1, 2, 2, 2] : Fin 7 → ℝ) (fun i : Fin 4 => if i.val = 2 then Point.default
          else (![p1 4, p1 1, p1 7, p1 9] : Fin 4 → PointN ℝ 1) i) (i + 1))
      ≤ 6 * (knotAt (![0, 0, 0, 1, 2, 2, 2] : Fin 7 → ℝ) (i + 1 + 2)
        - knotAt (![0, 0, 0, 1, 2, 2, 2] : Fin 7 → ℝ) (i + 2)) := by
  have : i = 0 := by omega
  subst this
  rw [pdist]
  change _ * Real.sqrt (∑ i ∈ Finset.range 1, _) ≤ _
  rw [Finset.sum_range_one, coord_legVector, coord_legVector, Real.sqrt_sq_eq_abs]
  simp [legSlope, knotAt, extend, coord_p1]
  norm_num [abs_le]

end Stroke
