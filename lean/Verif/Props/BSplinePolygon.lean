import Verif.Props.BSplineChord

set_option linter.unusedSectionVars false

/-!
# How far a B-spline is from its control polygon (C151)

Users draw the control polygon with the curve, pick control points near where the curve should go, and
test the polygon in place of the curve.  Put each control point at the average of the `D` knots after
its own.  At the same parameter curve and polygon are no further apart than `M W² / (8 (D - 1))`, where
`M` bounds the second differences of the control polygon (as in C150) and `W` the length of `D`
consecutive knots.

The bound is reached by the parabola with second derivative `M` (`C151_repaired_sharp`); and
`M x² / 2` minus the curve has a convex control polygon in every direction (C149).

`evalFixed` (Verif/Repaired/Model.lean) has the property; for the code's `eval` see the partial, detour
and negated versions.
-/

namespace Stroke

section Basis
variable {u : ℕ → ℝ} {K C D : ℕ}

/-- The control points of the parabola `x²`: the average of the products of two of the `D` knots after
knot `i`. -/
noncomputable def knotSquare (u : ℕ → ℝ) (D i : ℕ) : ℝ :=
  ((∑ m ∈ Finset.range D, u (i + 1 + m)) ^ 2 - ∑ m ∈ Finset.range D, u (i + 1 + m) ^ 2)
    / (D * (D - 1))

theorem basis_square (hm : ∀ i j, i ≤ j → j < K → u i ≤ u j) (hK : K = C + D + 1) (hD : 2 ≤ D)
    (hDC : D < C) {t : ℝ} (h1 : u D ≤ t) (h2 : t < u C) :
    ∑ j ∈ Finset.range C, coxDeBoor u D j t * knotSquare u D j = t ^ 2 := by
  obtain ⟨k, hDk, hkC, k1, k2⟩ := exists_basis_span hDC h1 h2
  have D2 : (2 : ℝ) ≤ D := by exact_mod_cast hD
  have D0 : (D : ℝ) * (D - 1) ≠ 0 := by
    have : (0 : ℝ) < D * (D - 1) := mul_pos (by linarith) (by linarith)
    exact this.ne'
  -- after some rounds of de Boor's algorithm
  have key : ∀ r ≤ D, ∑ m ∈ Finset.range (D - r + 1),
      (((∑ l ∈ Finset.range (D - r), u (k - D + r + m + 1 + l)) + r * t) ^ 2
        - ((∑ l ∈ Finset.range (D - r), u (k - D + r + m + 1 + l) ^ 2) + r * t ^ 2)) / (D * (D - 1))
        * coxDeBoor u (D - r) (k - D + r + m) t
      = ∑ j ∈ Finset.range C, coxDeBoor u D j t * knotSquare u D j := by
    intro r
    induction r with
    | zero =>
      intro _
      rw [coxDeBoor_sum_span hm hDk hkC hK k1 k2]
      simp [knotSquare]
    | succ r ih =>
      intro hr
      rw [← ih (by omega)]
      obtain ⟨p, hp⟩ : ∃ p, D - r = p + 1 := ⟨D - r - 1, by omega⟩
      have hp' : D - (r + 1) = p := by omega
      rw [hp, hp']
      have := coxDeBoor_step hm (p := p) (a := k - D + r) (by omega) (by omega) k1 k2
        (fun i => (((∑ l ∈ Finset.range (p + 1), u (i + 1 + l)) + r * t) ^ 2
          - ((∑ l ∈ Finset.range (p + 1), u (i + 1 + l) ^ 2) + r * t ^ 2)) / (D * (D - 1)))
      rw [this]
      refine Finset.sum_congr rfl fun m hmr => ?_
      have hmr := Finset.mem_range.1 hmr
      rw [show k - D + (r + 1) + m = k - D + r + m + 1 by omega]
      set i := k - D + r + m with hi
      have hlt : u (i + 1) < u (i + 1 + p + 1) := by
        have := hm (i + 1) k (by omega) (by omega)
        have := hm (k + 1) (i + 1 + p + 1) (by omega) (by omega)
        linarith
      have hne : u (i + 1 + p + 1) - u (i + 1) ≠ 0 := by linarith [sub_pos.2 hlt]
      congr 1
      have s1 : ∀ g : ℝ → ℝ, ∑ l ∈ Finset.range (p + 1), g (u (i + 1 + l))
          = g (u (i + 1)) + ∑ l ∈ Finset.range p, g (u (i + 1 + 1 + l)) := by
        intro g
        rw [Finset.sum_range_succ', Nat.add_zero, add_comm]
        congr 1
        exact Finset.sum_congr rfl fun l _ => by rw [show i + 1 + (l + 1) = i + 1 + 1 + l by omega]
      have s2 : ∀ g : ℝ → ℝ, ∑ l ∈ Finset.range (p + 1), g (u (i + 1 + 1 + l))
          = ∑ l ∈ Finset.range p, g (u (i + 1 + 1 + l)) + g (u (i + 1 + p + 1)) := by
        intro g
        rw [Finset.sum_range_succ, show i + 1 + 1 + p = i + 1 + p + 1 by omega]
      have a1 := s1 fun x => x
      have a2 := s2 fun x => x
      have a3 := s1 fun x => x ^ 2
      have a4 := s2 fun x => x ^ 2
      rw [a1, a2, a3, a4]
      push_cast
      generalize ∑ l ∈ Finset.range p, u (i + 1 + 1 + l) = X
      generalize ∑ l ∈ Finset.range p, u (i + 1 + 1 + l) ^ 2 = Y
      generalize (D : ℝ) * (D - 1) = Z at D0 ⊢
      field_simp
      ring
  have := key D le_rfl
  rw [← this, Nat.sub_self, Nat.sub_add_cancel hDk]
  simp only [zero_add, Finset.sum_range_one, Finset.range_zero, Finset.sum_empty, Nat.add_zero]
  simp only [coxDeBoor]
  rw [if_pos ⟨k1, k2⟩, mul_one, div_eq_iff D0]
  ring

/-- The slopes of the control polygon of the parabola. -/
theorem legSlope_square (hD : 2 ≤ D) {i : ℕ} (hne : u (i + 1) < u (i + 1 + D)) :
    legSlope u D (knotSquare u D) (i + 1) = 2 * (∑ m ∈ Finset.range (D - 1), u (i + 2 + m)) / (D - 1) := by
  obtain ⟨d, rfl⟩ : ∃ d, D = d + 1 := ⟨D - 1, by omega⟩
  have d0 : (0 : ℝ) < d := by exact_mod_cast (by omega : 0 < d)
  have hne' : u (i + 1 + (d + 1)) - u (i + 1) ≠ 0 := (sub_pos.2 hne).ne'
  have s1 : ∀ g : ℝ → ℝ, ∑ l ∈ Finset.range (d + 1), g (u (i + 1 + l))
      = g (u (i + 1)) + ∑ l ∈ Finset.range d, g (u (i + 2 + l)) := by
    intro g
    rw [Finset.sum_range_succ', Nat.add_zero, add_comm]
    congr 1
    exact Finset.sum_congr rfl fun l _ => by rw [show i + 1 + (l + 1) = i + 2 + l by omega]
  have s2 : ∀ g : ℝ → ℝ, ∑ l ∈ Finset.range (d + 1), g (u (i + 2 + l))
      = ∑ l ∈ Finset.range d, g (u (i + 2 + l)) + g (u (i + 1 + (d + 1))) := by
    intro g
    rw [Finset.sum_range_succ, show i + 2 + d = i + 1 + (d + 1) by omega]
  unfold legSlope knotSquare
  have a1 := s1 fun x => x
  have a2 := s2 fun x => x
  have a3 := s1 fun x => x ^ 2
  have a4 := s2 fun x => x ^ 2
  rw [Nat.add_sub_cancel, a1, a3, show i + 1 + 1 = i + 2 from rfl, a2, a4, Nat.add_sub_cancel]
  push_cast
  rw [add_sub_cancel_right]
  field_simp
  ring

theorem legSlope_square_step (hD : 2 ≤ D) {i : ℕ} (h1 : u (i + 1) < u (i + 1 + D))
    (h2 : u (i + 2) < u (i + 2 + D)) :
    (D - 1 : ℕ) * (legSlope u D (knotSquare u D) (i + 2) - legSlope u D (knotSquare u D) (i + 1))
      = 2 * (u (i + 1 + D) - u (i + 2)) := by
  rw [legSlope_square hD h1, show i + 2 = i + 1 + 1 from rfl, legSlope_square (i := i + 1) hD h2]
  obtain ⟨d, rfl⟩ : ∃ d, D = d + 1 := ⟨D - 1, by omega⟩
  have d0 : (0 : ℝ) < d := by exact_mod_cast (by omega : 0 < d)
  rw [Nat.add_sub_cancel]
  push_cast
  rw [add_sub_cancel_right]
  obtain ⟨e, rfl⟩ : ∃ e, d = e + 1 := ⟨d - 1, by omega⟩
  have s1 : ∑ l ∈ Finset.range (e + 1), u (i + 2 + l)
      = u (i + 2) + ∑ l ∈ Finset.range e, u (i + 3 + l) := by
    rw [Finset.sum_range_succ', Nat.add_zero, add_comm]
    congr 1
    exact Finset.sum_congr rfl fun l _ => by rw [show i + 2 + (l + 1) = i + 3 + l by omega]
  have s2 : ∑ l ∈ Finset.range (e + 1), u (i + 1 + 2 + l)
      = ∑ l ∈ Finset.range e, u (i + 3 + l) + u (i + 1 + (e + 1 + 1)) := by
    rw [Finset.sum_range_succ, show i + 1 + 2 + e = i + 1 + (e + 1 + 1) by omega]
  rw [s1, s2]
  field_simp
  ring

/-- How much the squared average of the knots exceeds the average product: the variance of the `D` knots,
divided by `D - 1`. -/
noncomputable def knotVariance (u : ℕ → ℝ) (D i : ℕ) : ℝ :=
  (∑ m ∈ Finset.range D, (u (i + 1 + m) - greville u D i) ^ 2) / D / (D - 1)

theorem knotVariance_eq (hD : 2 ≤ D) (i : ℕ) :
    knotVariance u D i = greville u D i ^ 2 - knotSquare u D i := by
  have D2 : (2 : ℝ) ≤ D := by exact_mod_cast hD
  have D0 : (D : ℝ) ≠ 0 := by linarith
  have D1 : (D : ℝ) - 1 ≠ 0 := by linarith
  have e : ∑ m ∈ Finset.range D, (u (i + 1 + m) - greville u D i) ^ 2
      = ∑ m ∈ Finset.range D, u (i + 1 + m) ^ 2
        - 2 * greville u D i * ∑ m ∈ Finset.range D, u (i + 1 + m) + D * greville u D i ^ 2 := by
    simp only [sub_sq, Finset.sum_add_distrib, Finset.sum_sub_distrib, Finset.sum_const, Finset.card_range,
      nsmul_eq_mul, Finset.mul_sum]
    congr 2
    exact Finset.sum_congr rfl fun m _ => by ring
  unfold knotVariance
  rw [e]
  unfold knotSquare greville
  field_simp
  ring

/-- The variance of knots in an interval of length `W`. -/
theorem knotVariance_le (hD : 2 ≤ D) {i : ℕ} {W c : ℝ}
    (h : ∀ m < D, c ≤ u (i + 1 + m) ∧ u (i + 1 + m) ≤ c + W) :
    knotVariance u D i ≤ W ^ 2 / (4 * (D - 1)) := by
  have D2 : (2 : ℝ) ≤ D := by exact_mod_cast hD
  have D0 : (0 : ℝ) < D := by linarith
  have D1 : (0 : ℝ) < (D : ℝ) - 1 := by linarith
  set g := greville u D i with hg
  have hS : ∑ m ∈ Finset.range D, u (i + 1 + m) = D * g := by rw [hg, greville]; field_simp
  -- `(x - c) (c + W - x)` is not negative
  have key : ∑ m ∈ Finset.range D, (u (i + 1 + m) - g) ^ 2 ≤ D * (W ^ 2 / 4) := by
    have a1 : ∀ m ∈ Finset.range D, (u (i + 1 + m) - g) ^ 2
        ≤ (2 * c + W - 2 * g) * (u (i + 1 + m) - g) + (g - c) * (c + W - g) := by
      intro m hmD
      obtain ⟨b1, b2⟩ := h m (Finset.mem_range.1 hmD)
      nlinarith [mul_nonneg (sub_nonneg.2 b1) (sub_nonneg.2 b2)]
    refine (Finset.sum_le_sum a1).trans ?_
    rw [Finset.sum_add_distrib, ← Finset.mul_sum, Finset.sum_sub_distrib, hS]
    simp only [Finset.sum_const, Finset.card_range, nsmul_eq_mul]
    rw [sub_self, mul_zero, zero_add]
    refine mul_le_mul_of_nonneg_left ?_ D0.le
    nlinarith [sq_nonneg (2 * g - 2 * c - W)]
  unfold knotVariance
  rw [← hg, div_div, div_le_div_iff₀ (by positivity) (by positivity)]
  nlinarith [mul_le_mul_of_nonneg_right key (mul_nonneg (by norm_num : (0:ℝ) ≤ 4) D1.le)]

end Basis

section Splines
variable {P : Type} [Point ℝ P] [LawfulPoint P] {K C D : ℕ}
variable {knots : Arr ℝ K} {ps : Arr P C} {b : BSpline ℝ P K C D}

/-- The shares of the parabola. -/
theorem legShare_square (v : ValidSpline C D knots) (hD : 2 ≤ D) {x : ℝ} (h1 : knotAt knots D ≤ x)
    (h2 : BeforeOrClamped C D knots x) : x ^ 2 = knotSquare (knotAt knots) D 0
      + ∑ i ∈ Finset.Ico 1 C, (knotSquare (knotAt knots) D i - knotSquare (knotAt knots) D (i - 1))
        * legShare D C (knotAt knots) i x := by
  obtain ⟨v1, v2, v3⟩ := v
  have hm := fun i j (hij : i ≤ j) (hj : j < K) => mono_knotAt v3 hij hj
  rcases h2 with x2 | ⟨x2, hcl⟩
  · have g := basis_square hm v2 hD v1 h1 x2
    rw [sum_by_tails _ _ C (by omega), basis_sum_one hm v2 v1 h1 x2, mul_one] at g
    conv_lhs => rw [← g]
    simp only [legShare, if_pos x2]
    rfl
  · simp only [legShare, if_neg (show ¬ x < knotAt knots C by rw [x2]; exact lt_irrefl _), mul_one]
    rw [Finset.sum_Ico_eq_sum_range]
    have e : ∑ i ∈ Finset.range (C - 1), (knotSquare (knotAt knots) D (1 + i)
          - knotSquare (knotAt knots) D (1 + i - 1))
        = knotSquare (knotAt knots) D (C - 1) - knotSquare (knotAt knots) D 0 := by
      rw [← Finset.sum_range_sub (fun i => knotSquare (knotAt knots) D i) (C - 1)]
      exact Finset.sum_congr rfl fun i _ => by rw [Nat.add_comm 1 i, Nat.add_sub_cancel]
    rw [e, add_sub_cancel]
    unfold knotSquare
    have e2 : ∀ m ∈ Finset.range D, knotAt knots (C - 1 + 1 + m) = x := by
      intro m hmD
      have hmD := Finset.mem_range.1 hmD
      rw [Nat.sub_add_cancel (by omega)]
      have a1 := hm C (C + m) (by omega) (by omega)
      have a2 := hm (C + m) (C + D - 1) (by omega) (by omega)
      linarith
    have e3 : ∑ m ∈ Finset.range D, knotAt knots (C - 1 + 1 + m) ^ 2 = ∑ m ∈ Finset.range D, x ^ 2 :=
      Finset.sum_congr rfl fun m hmD => by rw [e2 m hmD]
    rw [Finset.sum_congr rfl e2, e3]
    simp only [Finset.sum_const, Finset.card_range, nsmul_eq_mul]
    have D2 : (2 : ℝ) ≤ D := by exact_mod_cast hD
    have D0 : (D : ℝ) * (D - 1) ≠ 0 := (mul_pos (by linarith) (by linarith)).ne'
    rw [eq_div_iff D0]
    ring

/-- If the second differences are at most `M`, the parabola with second derivative `M` minus the polygon
is convex in every direction. -/
theorem bends_convex (hD : 2 ≤ D)
    (hsep : ∀ i, 1 ≤ i → i < C → knotAt knots i < knotAt knots (i + D)) {M : ℝ}
    (hM : BendsAtMost D knots ps M) {a : ℕ → ℝ} {R : ℝ}
    (hRn : R = Real.sqrt (∑ c ∈ Finset.range (Point.dim P), a c ^ 2)) (j : ℕ) (j1 : 1 ≤ j) (j2 : j + 1 < C) :
    legSlope (knotAt knots) D
        (fun n => R * M / 2 * knotSquare (knotAt knots) D n - side a 0 (extend ps n)) j
      ≤ legSlope (knotAt knots) D
        (fun n => R * M / 2 * knotSquare (knotAt knots) D n - side a 0 (extend ps n)) (j + 1) := by
  set q := knotSquare (knotAt knots) D with hq
  have D1 : (0 : ℝ) < (D - 1 : ℕ) := by exact_mod_cast (by omega : 0 < D - 1)
  have R0 : 0 ≤ R := by rw [hRn]; exact Real.sqrt_nonneg _
  have slope : ∀ (k : ℝ) (y y' : ℕ → ℝ) (j : ℕ), legSlope (knotAt knots) D (fun n => k * y n - y' n) j
      = k * legSlope (knotAt knots) D y j - legSlope (knotAt knots) D y' j := by
    intro k y y' j
    unfold legSlope
    ring
  obtain ⟨n, rfl⟩ : ∃ n, j = n + 1 := ⟨j - 1, by omega⟩
  rw [slope, slope]
  have cs := Real.sum_mul_le_sqrt_mul_sqrt (Finset.range (Point.dim P)) a
    (fun c => coord (legVector D knots ps (n + 1)) c - coord (legVector D knots ps n) c)
  rw [← hRn] at cs
  change _ ≤ R * pdist (legVector D knots ps (n + 1)) (legVector D knots ps n) at cs
  rw [pdist_comm] at cs
  simp only [mul_sub, Finset.sum_sub_distrib] at cs
  rw [← legSlope_side, ← legSlope_side] at cs
  have hb := mul_le_mul_of_nonneg_left (hM.legVector n j2) R0
  have s := legSlope_square_step (u := knotAt knots) (i := n) hD
    (hsep (n + 1) (by omega) (by omega)) (hsep (n + 2) (by omega) j2)
  rw [← hq] at s
  have e : ((D - 1 : ℕ) : ℝ) * (legSlope (knotAt knots) D (fun j => side a 0 (extend ps j)) (n + 1 + 1)
        - legSlope (knotAt knots) D (fun j => side a 0 (extend ps j)) (n + 1))
      ≤ (D - 1 : ℕ) * (R * M / 2 * (legSlope (knotAt knots) D q (n + 1 + 1)
        - legSlope (knotAt knots) D q (n + 1))) := by
    calc _ ≤ ((D - 1 : ℕ) : ℝ) * (R * pdist (legVector D knots ps n) (legVector D knots ps (n + 1))) :=
          mul_le_mul_of_nonneg_left cs D1.le
      _ = R * ((D - 1 : ℕ) * pdist (legVector D knots ps n) (legVector D knots ps (n + 1))) := by ring
      _ ≤ _ := hb
      _ = R * M / 2 * (2 * (knotAt knots (n + 1 + D) - knotAt knots (n + 2))) := by ring
      _ = R * M / 2 * ((D - 1 : ℕ) * (legSlope (knotAt knots) D q (n + 2)
          - legSlope (knotAt knots) D q (n + 1))) := by rw [s]
      _ = _ := by ring
  have := le_of_mul_le_mul_left e D1
  linarith

/-- Distance of a point with leg shares from the line through leg `i`. -/
theorem polygon_legSum (v : ValidSpline C D knots) (hD : 2 ≤ D)
    (hsep : ∀ i, 1 ≤ i → i < C → knotAt knots i < knotAt knots (i + D)) {M : ℝ} (hM0 : 0 ≤ M)
    (hM : BendsAtMost D knots ps M) {t l : ℝ} (h1 : knotAt knots D ≤ t) (h2 : BeforeOrClamped C D knots t)
    {i : ℕ} (hi : i + 1 < C)
    (ht : t = (1 - l) * greville (knotAt knots) D i + l * greville (knotAt knots) D (i + 1))
    {p : P} (hp : IsLegSum D knots ps t p) :
    pdist p (extend ps i * (1 - l) + extend ps (i + 1) * l)
      ≤ M / 2 * ((1 - l) * knotVariance (knotAt knots) D i + l * knotVariance (knotAt knots) D (i + 1)
        - l * (1 - l) * (greville (knotAt knots) D (i + 1) - greville (knotAt knots) D i) ^ 2) := by
  set ξ := greville (knotAt knots) D with hξ
  set q := knotSquare (knotAt knots) D with hq
  have D0 : (0 : ℝ) < D := by exact_mod_cast (by omega : 0 < D)
  have D1 : (0 : ℝ) < (D - 1 : ℕ) := by exact_mod_cast (by omega : 0 < D - 1)
  have wid : 0 < ξ (i + 1) - ξ i := by
    rw [hξ, greville_sub]
    exact div_pos (sub_pos.2 (hsep (i + 1) (by omega) hi)) D0
  have hfrac : t - ξ i = l * (ξ (i + 1) - ξ i) := by rw [ht]; ring
  have line : ∀ y : ℕ → ℝ, y i + legSlope (knotAt knots) D y (i + 1) * (t - ξ i)
      = (1 - l) * y i + l * y (i + 1) := by
    intro y
    have : legSlope (knotAt knots) D y (i + 1) * (ξ (i + 1) - ξ i) = y (i + 1) - y i := by
      have hne := sub_pos.2 (hsep (i + 1) (by omega) hi)
      rw [hξ, greville_sub, legSlope, Nat.add_sub_cancel]
      field_simp
    rw [hfrac, ← mul_assoc, mul_comm _ l, mul_assoc, this]
    ring
  have sq := legShare_square v hD h1 h2
  have bound : (1 - l) * knotVariance (knotAt knots) D i + l * knotVariance (knotAt knots) D (i + 1)
        - l * (1 - l) * (ξ (i + 1) - ξ i) ^ 2 = t ^ 2 - ((1 - l) * q i + l * q (i + 1)) := by
    rw [knotVariance_eq hD, knotVariance_eq hD, ← hξ, ← hq, ht]
    ring
  rw [bound]
  have step := fun j (j1 : j + 2 < C) => legSlope_square_step (u := knotAt knots) (i := j) hD
    (hsep (j + 1) (by omega) (by omega)) (hsep (j + 2) (by omega) j1)
  have hm := fun i j (hij : i ≤ j) (hj : j < K) => mono_knotAt v.2.2 hij hj
  have v2 := v.2.1
  -- the parabola is above the lines through its legs
  have B0 : (1 - l) * q i + l * q (i + 1) ≤ t ^ 2 := by
    have := above_legShares v (by omega : 1 ≤ D) q h1 h2 hsep (fun j j1 j2 => by
      obtain ⟨n, rfl⟩ : ∃ n, j = n + 1 := ⟨j - 1, by omega⟩
      have s := step n j2
      have := hm (n + 2) (n + 1 + D) (by omega) (by omega)
      have : 0 ≤ ((D - 1 : ℕ) : ℝ) * (legSlope (knotAt knots) D q (n + 2)
          - legSlope (knotAt knots) D q (n + 1)) := by rw [s]; linarith
      exact sub_nonneg.1 (nonneg_of_mul_nonneg_right this D1)) (i := i + 1) (by omega) hi
    rw [Nat.add_sub_cancel, line q, ← sq] at this
    exact this
  -- the direction from the polygon to the curve
  set r : P := extend ps i * (1 - l) + extend ps (i + 1) * l with hr
  set a : ℕ → ℝ := fun c => coord p c - coord r c with ha
  set R := pdist p r with hR
  have R0 : 0 ≤ R := pdist_nonneg _ _
  have hRn : R = Real.sqrt (∑ c ∈ Finset.range (Point.dim P), a c ^ 2) := rfl
  have hRsq : R * R = ∑ c ∈ Finset.range (Point.dim P), a c ^ 2 := by
    rw [hRn, Real.mul_self_sqrt (Finset.sum_nonneg fun c _ => sq_nonneg _)]
  have key := above_legShares v (by omega : 1 ≤ D) (fun n => R * M / 2 * q n - side a 0 (extend ps n))
    h1 h2 hsep (bends_convex hD hsep hM hRn) (i := i + 1) (by omega) hi
  have e1 := side_legSum_eq hp a
  have split : R * M / 2 * q 0 - side a 0 (extend ps 0)
      + ∑ j ∈ Finset.Ico 1 C, (R * M / 2 * q j - side a 0 (extend ps j)
        - (R * M / 2 * q (j - 1) - side a 0 (extend ps (j - 1)))) * legShare D C (knotAt knots) j t
      = R * M / 2 * t ^ 2 - side a 0 p := by
    rw [e1, sq, mul_add, Finset.mul_sum]
    have : ∀ j, (R * M / 2 * q j - side a 0 (extend ps j)
        - (R * M / 2 * q (j - 1) - side a 0 (extend ps (j - 1)))) * legShare D C (knotAt knots) j t
        = R * M / 2 * ((q j - q (j - 1)) * legShare D C (knotAt knots) j t)
          - (side a 0 (extend ps j) - side a 0 (extend ps (j - 1))) * legShare D C (knotAt knots) j t :=
      fun j => by ring
    simp only [this, Finset.sum_sub_distrib]
    ring
  have hl' := line fun n => R * M / 2 * q n - side a 0 (extend ps n)
  rw [split, Nat.add_sub_cancel, ← hξ, hl'] at key
  have e3 : R * R = side a 0 p - ((1 - l) * side a 0 (extend ps i) + l * side a 0 (extend ps (i + 1))) := by
    rw [hRsq]
    unfold side
    simp only [sub_zero, Finset.mul_sum, ← Finset.sum_add_distrib, ← Finset.sum_sub_distrib]
    refine Finset.sum_congr rfl fun c _ => ?_
    have : a c = coord p c - (coord (extend ps i) c * (1 - l) + coord (extend ps (i + 1)) c * l) := by
      rw [ha, hr]; simp only [coord_add, coord_mul]
    rw [pow_two]
    nth_rewrite 2 [this]
    ring
  have fin : R * R ≤ R * (M / 2 * (t ^ 2 - ((1 - l) * q i + l * q (i + 1)))) := by
    rw [e3]
    linarith
  rcases eq_or_lt_of_le R0 with e | hR'
  · rw [← e]
    exact mul_nonneg (by linarith) (by linarith)
  · exact le_of_mul_le_mul_left fin hR'

/-- Every parameter of the domain is between the parameters of two control points that follow each
other. -/
theorem exists_leg (v : ValidSpline C D knots) (hD : 1 ≤ D) {t : ℝ} (h1 : knotAt knots D ≤ t)
    (h2 : t ≤ knotAt knots C) : ∃ (i : ℕ) (l : ℝ), i + 1 < C ∧ 0 ≤ l ∧ l ≤ 1 ∧
      t = (1 - l) * greville (knotAt knots) D i + l * greville (knotAt knots) D (i + 1) := by
  obtain ⟨v1, v2, v3⟩ := id v
  have hm := fun i j (hij : i ≤ j) (hj : j < K) => mono_knotAt v3 hij hj
  have D0 : (0 : ℝ) < D := by exact_mod_cast hD
  set ξ := greville (knotAt knots) D with hξ
  have first : ξ 0 ≤ t := by
    refine le_trans ?_ h1
    rw [hξ, greville, div_le_iff₀ D0, mul_comm]
    calc _ ≤ ∑ m ∈ Finset.range D, knotAt knots D := Finset.sum_le_sum fun m hmD =>
          hm _ _ (by have := Finset.mem_range.1 hmD; omega) (by omega)
      _ = _ := by simp
  have last : t ≤ ξ (C - 1) := by
    refine le_trans h2 ?_
    rw [hξ, greville, le_div_iff₀ D0, mul_comm]
    calc D * knotAt knots C = ∑ m ∈ Finset.range D, knotAt knots C := by simp
      _ ≤ _ := Finset.sum_le_sum fun m hmD =>
          hm _ _ (by omega) (by have := Finset.mem_range.1 hmD; omega)
  have hex : ∃ n, t ≤ ξ (n + 1) := ⟨C - 2, by rw [show C - 2 + 1 = C - 1 by omega]; exact last⟩
  classical
  set i := Nat.find hex with hi
  have i2 : t ≤ ξ (i + 1) := Nat.find_spec hex
  have iC : i + 1 < C := by
    have : i ≤ C - 2 := Nat.find_min' hex (by rw [show C - 2 + 1 = C - 1 by omega]; exact last)
    omega
  have i1 : ξ i ≤ t := by
    rcases Nat.eq_zero_or_pos i with e | e
    · rw [e]; exact first
    · have := Nat.find_min hex (show i - 1 < i by omega)
      rw [Nat.sub_add_cancel e] at this
      exact (not_le.1 this).le
  rcases eq_or_lt_of_le (i1.trans i2) with e | e
  · exact ⟨i, 0, iC, le_rfl, zero_le_one, by rw [sub_zero, one_mul, zero_mul, add_zero]; linarith⟩
  · have w := sub_pos.2 e
    refine ⟨i, (t - ξ i) / (ξ (i + 1) - ξ i), iC, div_nonneg (by linarith) w.le, ?_, ?_⟩
    · rw [div_le_one w]; linarith
    · field_simp
      ring

/-- No more than `W` from the first to the last of any `D` consecutive knots (the first knot and the last
one left aside). -/
def KnotsWithin (C D : ℕ) (knots : Arr ℝ K) (W : ℝ) : Prop :=
  ∀ i < C, knotAt knots (i + D) - knotAt knots (i + 1) ≤ W

theorem KnotsWithin.variance (v : ValidSpline C D knots) (hD : 2 ≤ D) {W : ℝ} (hW : KnotsWithin C D knots W)
    {i : ℕ} (hi : i < C) : knotVariance (knotAt knots) D i ≤ W ^ 2 / (4 * (D - 1)) := by
  obtain ⟨v1, v2, v3⟩ := id v
  have hm := fun i j (hij : i ≤ j) (hj : j < K) => mono_knotAt v3 hij hj
  refine knotVariance_le hD (c := knotAt knots (i + 1)) fun m hmD => ⟨hm _ _ (by omega) (by omega), ?_⟩
  have := hm (i + 1 + m) (i + D) (by omega) (by omega)
  have := hW i hi
  linarith

/-- The bound with the widths of the knots. -/
theorem polygon_bound (v : ValidSpline C D knots) (hD : 2 ≤ D) {M W l : ℝ} (hM0 : 0 ≤ M)
    (hW : KnotsWithin C D knots W) (l0 : 0 ≤ l) (l1 : l ≤ 1) {i : ℕ} (hi : i + 1 < C) :
    M / 2 * ((1 - l) * knotVariance (knotAt knots) D i + l * knotVariance (knotAt knots) D (i + 1)
        - l * (1 - l) * (greville (knotAt knots) D (i + 1) - greville (knotAt knots) D i) ^ 2)
      ≤ M * W ^ 2 / (8 * (D - 1)) := by
  have D2 : (2 : ℝ) ≤ D := by exact_mod_cast hD
  have D1 : (0 : ℝ) < (D : ℝ) - 1 := by linarith
  have a1 := mul_le_mul_of_nonneg_left (hW.variance v hD (by omega : i < C)) (sub_nonneg.2 l1)
  have a2 := mul_le_mul_of_nonneg_left (hW.variance v hD hi) l0
  have a3 := mul_nonneg (mul_nonneg l0 (sub_nonneg.2 l1))
    (sq_nonneg (greville (knotAt knots) D (i + 1) - greville (knotAt knots) D i))
  calc _ ≤ M / 2 * (W ^ 2 / (4 * (D - 1))) := mul_le_mul_of_nonneg_left (by linarith) (by linarith)
    _ = _ := by field_simp; ring

/-- **C151** for the repaired program, at the parameter of a point of the polygon: the curve is within
`M / 2` times the variance of the knots of that point. -/
theorem C151_repaired (h : BSpline.new knots ps = .ok b) (hD : 2 ≤ D)
    (hsep : ∀ i, 1 ≤ i → i < C → knotAt knots i < knotAt knots (i + D)) {M : ℝ} (hM0 : 0 ≤ M)
    (hM : BendsAtMost D knots ps M) {t l : ℝ} (h1 : knotAt knots D ≤ t) (h2 : BeforeOrClamped C D knots t)
    {i : ℕ} (hi : i + 1 < C)
    (ht : t = (1 - l) * greville (knotAt knots) D i + l * greville (knotAt knots) D (i + 1))
    {p : P} (hp : b.evalFixed t = .ok p) :
    pdist p (ps ⟨i, by omega⟩ * (1 - l) + ps ⟨i + 1, hi⟩ * l)
      ≤ M / 2 * ((1 - l) * knotVariance (knotAt knots) D i + l * knotVariance (knotAt knots) D (i + 1)
        - l * (1 - l) * (greville (knotAt knots) D (i + 1) - greville (knotAt knots) D i) ^ 2) := by
  have v := ((new_ok_iff _ _ _).1 h).1
  have tC : t ≤ knotAt knots C := by
    rcases h2 with h2 | h2
    · exact h2.le
    · exact h2.1.le
  have := polygon_legSum v hD hsep hM0 hM h1 h2 hi ht (isLegSum_fixed h h1 tC hp)
  rwa [extend_lt ps (by omega : i < C), extend_lt ps hi] at this

/-- **C151** for the repaired program: every point of the curve is within `M W² / (8 (D - 1))` of the
control polygon, and every point of the polygon that belongs to a parameter of the domain is that close
to the curve; if the spline is clamped at both ends these are all its points. -/
theorem C151_repaired_hausdorff (h : BSpline.new knots ps = .ok b) (hD : 2 ≤ D)
    (hsep : ∀ i, 1 ≤ i → i < C → knotAt knots i < knotAt knots (i + D)) {M W : ℝ} (hM0 : 0 ≤ M)
    (hM : BendsAtMost D knots ps M) (hW : KnotsWithin C D knots W)
    (hend : knotAt knots (C + D - 1) = knotAt knots C) :
    (∀ t, knotAt knots D ≤ t → t ≤ knotAt knots C → ∃ p, b.evalFixed t = .ok p ∧
      ∃ (i : ℕ) (hi : i + 1 < C),
        NearSegment (ps ⟨i, by omega⟩) (ps ⟨i + 1, hi⟩) p (M * W ^ 2 / (8 * (D - 1)))) ∧
    (∀ (i : ℕ) (hi : i + 1 < C) (l : ℝ), 0 ≤ l → l ≤ 1 →
      (knotAt knots 1 = knotAt knots D ∨
        knotAt knots D ≤ (1 - l) * greville (knotAt knots) D i + l * greville (knotAt knots) D (i + 1)) →
      ∃ t p, knotAt knots D ≤ t ∧ t ≤ knotAt knots C ∧ b.evalFixed t = .ok p ∧
        pdist p (ps ⟨i, by omega⟩ * (1 - l) + ps ⟨i + 1, hi⟩ * l) ≤ M * W ^ 2 / (8 * (D - 1))) := by
  have v := ((new_ok_iff _ _ _).1 h).1
  obtain ⟨v1, v2, v3⟩ := id v
  have hm := fun i j (hij : i ≤ j) (hj : j < K) => mono_knotAt v3 hij hj
  have D0 : (0 : ℝ) < D := by exact_mod_cast (by omega : 0 < D)
  have ok : ∀ t, knotAt knots D ≤ t → t ≤ knotAt knots C → ∃ p, b.evalFixed t = .ok p := by
    intro t h1 h2
    rcases eq_or_lt_of_le h2 with e | lt
    · rw [e]; exact ⟨_, C121_bspline_end h⟩
    · obtain ⟨p, hp, _⟩ := C121_bspline h h1 lt
      exact ⟨p, hp⟩
  have inn : ∀ t, t ≤ knotAt knots C → BeforeOrClamped C D knots t := fun t ht =>
    (eq_or_lt_of_le ht).elim (fun e => .inr ⟨e, hend⟩) .inl
  refine ⟨fun t h1 h2 => ?_, fun i hi l l0 l1 hfront => ?_⟩
  · obtain ⟨p, hp⟩ := ok t h1 h2
    obtain ⟨i, l, hi, l0, l1, ht⟩ := exists_leg v (by omega) h1 h2
    exact ⟨p, hp, i, hi, nearSegment_of_chord ⟨l0, l1⟩ ((C151_repaired h hD hsep hM0 hM h1 (inn t h2) hi ht
      hp).trans (polygon_bound v hD hM0 hW l0 l1 hi))⟩
  · -- the averages of the knots are in the domain
    have hi2 : ∀ j < C, greville (knotAt knots) D j ≤ knotAt knots C := by
      intro j hj
      rw [greville, div_le_iff₀ D0, mul_comm]
      calc _ ≤ ∑ m ∈ Finset.range D, knotAt knots C := Finset.sum_le_sum fun m hmD => by
            have hmD := Finset.mem_range.1 hmD
            have := hm (j + 1 + m) (C + D - 1) (by omega) (by omega)
            linarith
        _ = _ := by simp
    have lo2 : knotAt knots 1 = knotAt knots D → ∀ j < C, knotAt knots D ≤ greville (knotAt knots) D j := by
      intro e j hj
      rw [greville, le_div_iff₀ D0, mul_comm]
      calc D * knotAt knots D = ∑ m ∈ Finset.range D, knotAt knots D := by simp
        _ ≤ _ := Finset.sum_le_sum fun m hmD => by
            have hmD := Finset.mem_range.1 hmD
            have := hm 1 (j + 1 + m) (by omega) (by omega)
            linarith
    set t := (1 - l) * greville (knotAt knots) D i + l * greville (knotAt knots) D (i + 1) with ht
    have t1 : knotAt knots D ≤ t := by
      rcases hfront with e | e
      · have a1 := mul_le_mul_of_nonneg_left (lo2 e i (by omega)) (sub_nonneg.2 l1)
        have a2 := mul_le_mul_of_nonneg_left (lo2 e (i + 1) hi) l0
        rw [ht]
        linarith
      · exact e
    have t2 : t ≤ knotAt knots C := by
      have a1 := mul_le_mul_of_nonneg_left (hi2 i (by omega)) (sub_nonneg.2 l1)
      have a2 := mul_le_mul_of_nonneg_left (hi2 (i + 1) hi) l0
      rw [ht]
      linarith
    obtain ⟨p, hp⟩ := ok t t1 t2
    exact ⟨t, p, t1, t2, hp, (C151_repaired h hD hsep hM0 hM t1 (inn t t2) hi ht hp).trans
      (polygon_bound v hD hM0 hW l0 l1 hi)⟩

/-- **C151** with the calls of this version: the points of the detour of C136. -/
theorem C151_detour (v : ValidSpline C D knots) (hc : FrontClamped D knots ∨ BackClamped D knots)
    (ps : Arr P C) (hD : 2 ≤ D) (hsep : ∀ i, 1 ≤ i → i < C → knotAt knots i < knotAt knots (i + D))
    {M W : ℝ} (hM0 : 0 ≤ M) (hM : BendsAtMost D knots ps M) (hW : KnotsWithin C D knots W) {t : ℝ} {k : ℕ}
    (hDk : D ≤ k) (hkC : k < C) (k1 : knotAt knots k ≤ t) (k2 : t < knotAt knots (k + 1))
    (heps : ∀ i : Fin K, knots i < t → eps ≤ t - knots i) :
    ∃ (b : BSpline ℝ P K C D) (q : P),
      BSpline.new knots (fun i => ps i - ps ⟨k, hkC⟩) = .ok b ∧ b.eval t = .ok q ∧
      ∃ (i : ℕ) (hi : i + 1 < C), NearSegment (ps ⟨i, by omega⟩) (ps ⟨i + 1, hi⟩) (q + ps ⟨k, hkC⟩)
        (M * W ^ 2 / (8 * (D - 1))) := by
  obtain ⟨v1, v2, v3⟩ := id v
  have hm := fun i j (hij : i ≤ j) (hj : j < K) => mono_knotAt v3 hij hj
  obtain ⟨b, q, hb, hq, hqc⟩ := C136_bspline v hc ps hDk hkC k1 k2 heps
  have h1 := (hm D k hDk (by omega)).trans k1
  have h2 := k2.trans_le (hm (k + 1) C hkC (by omega))
  obtain ⟨i, l, hi, l0, l1, ht⟩ := exists_leg v (by omega) h1 h2.le
  refine ⟨b, q, hb, hq, i, hi, nearSegment_of_chord ⟨l0, l1⟩ ?_⟩
  have := polygon_legSum v hD hsep hM0 hM h1 (.inl h2) hi ht (isLegSum_of_spline v h1 h2 hqc)
  rw [extend_lt ps (by omega : i < C), extend_lt ps hi] at this
  exact this.trans (polygon_bound v hD hM0 hW l0 l1 hi)

/-- **C151**, the part that holds of `eval` itself: the polygon with the origin in place of the last
control point of the span. -/
theorem C151_partial (h : BSpline.new knots ps = .ok b) (hc : FrontClamped D knots ∨ BackClamped D knots)
    (hD : 2 ≤ D) (hsep : ∀ i, 1 ≤ i → i < C → knotAt knots i < knotAt knots (i + D)) {M W : ℝ}
    (hM0 : 0 ≤ M) (hW : KnotsWithin C D knots W) {t : ℝ} {k : ℕ} (hDk : D ≤ k) (hkC : k < C)
    (hM : BendsAtMost D knots (fun i : Fin C => if i.val = k then Point.default else ps i) M)
    (k1 : knotAt knots k ≤ t) (k2 : t < knotAt knots (k + 1))
    (heps : ∀ i : Fin K, knots i < t → eps ≤ t - knots i) :
    ∃ q, b.eval t = .ok q ∧ ∃ (i : ℕ) (hi : i + 1 < C),
      NearSegment (if i = k then Point.default else ps ⟨i, by omega⟩)
        (if i + 1 = k then Point.default else ps ⟨i + 1, hi⟩) q (M * W ^ 2 / (8 * (D - 1))) := by
  have v := ((new_ok_iff _ _ _).1 h).1
  obtain ⟨v1, v2, v3⟩ := id v
  have hm := fun i j (hij : i ≤ j) (hj : j < K) => mono_knotAt v3 hij hj
  obtain ⟨q, hq, hqs⟩ := isLegSum_eval h hc hDk hkC k1 k2 heps
  have h1 := (hm D k hDk (by omega)).trans k1
  have h2 := k2.trans_le (hm (k + 1) C hkC (by omega))
  obtain ⟨i, l, hi, l0, l1, ht⟩ := exists_leg v (by omega) h1 h2.le
  refine ⟨q, hq, i, hi, nearSegment_of_chord ⟨l0, l1⟩ ?_⟩
  have := polygon_legSum v hD hsep hM0 hM h1 (.inl h2) hi ht hqs
  rw [extend_lt _ (by omega : i < C), extend_lt _ hi] at this
  exact this.trans (polygon_bound v hD hM0 hW l0 l1 hi)

end Splines

/-- The bound of `C151_repaired` cannot be improved: the parabola reaches it at every point of the
polygon. -/
theorem C151_repaired_sharp {K C D : ℕ} {knots : Arr ℝ K} (v : ValidSpline C D knots) (hD : 2 ≤ D)
    (hsep : ∀ i, 1 ≤ i → i < C → knotAt knots i < knotAt knots (i + D)) {M : ℝ} (hM0 : 0 ≤ M) :
    ∃ (ps : Arr (PointN ℝ 1) C) (b : BSpline ℝ (PointN ℝ 1) K C D),
      BSpline.new knots ps = .ok b ∧ BendsAtMost D knots ps M ∧
      ∀ (t l : ℝ) (i : ℕ) (hi : i + 1 < C) (p : PointN ℝ 1), knotAt knots D ≤ t →
        BeforeOrClamped C D knots t →
        t = (1 - l) * greville (knotAt knots) D i + l * greville (knotAt knots) D (i + 1) →
        b.evalFixed t = .ok p →
        pdist p (ps ⟨i, by omega⟩ * (1 - l) + ps ⟨i + 1, hi⟩ * l)
          = M / 2 * ((1 - l) * knotVariance (knotAt knots) D i + l * knotVariance (knotAt knots) D (i + 1)
            - l * (1 - l) * (greville (knotAt knots) D (i + 1) - greville (knotAt knots) D i) ^ 2) := by
  obtain ⟨v1, v2, v3⟩ := id v
  have hm := fun i j (hij : i ≤ j) (hj : j < K) => mono_knotAt v3 hij hj
  set ps : Arr (PointN ℝ 1) C := fun i => p1 (M / 2 * knotSquare (knotAt knots) D i) with hps
  obtain ⟨b, hb⟩ := (C43_accepts (D := D) _ ps).2 v
  have D1 : (0 : ℝ) < (D - 1 : ℕ) := by exact_mod_cast (by omega : 0 < D - 1)
  have D0 : (0 : ℝ) < D := by exact_mod_cast (by omega : 0 < D)
  have dist : ∀ p q : PointN ℝ 1, pdist p q = |coord p 0 - coord q 0| := by
    intro p q
    rw [pdist]
    change Real.sqrt (∑ i ∈ Finset.range 1, _) = _
    rw [Finset.sum_range_one, Real.sqrt_sq_eq_abs]
  have ec : ∀ j < C, coord (extend ps j) 0 = M / 2 * knotSquare (knotAt knots) D j := fun j hj => by
    rw [extend_lt ps hj, hps, coord_p1]
  have hbend : BendsAtMost D knots ps M := by
    intro i hi
    have s := legSlope_square_step (u := knotAt knots) (i := i) hD (hsep (i + 1) (by omega) (by omega))
      (hsep (i + 2) (by omega) hi)
    have w := hm (i + 2) (i + 1 + D) (by omega) (by omega)
    have e : ∀ j (hj : j + 1 < C), coord ((ps ⟨j + 1, hj⟩ - ps ⟨j, by omega⟩)
        * ((greville (knotAt knots) D (j + 1) - greville (knotAt knots) D j)⁻¹ : ℝ) : PointN ℝ 1) 0
        = M / 2 * legSlope (knotAt knots) D (knotSquare (knotAt knots) D) (j + 1) := by
      intro j hj
      rw [coord_mul, coord_sub, hps]
      simp only
      rw [coord_p1, coord_p1, greville_sub, legSlope, Nat.add_sub_cancel, inv_div, div_eq_mul_inv]
      ring
    rw [dist, e i (by omega), e (i + 1) hi, abs_sub_comm, ← mul_sub, abs_mul, abs_of_nonneg (by linarith)]
    have pos : 0 ≤ legSlope (knotAt knots) D (knotSquare (knotAt knots) D) (i + 2)
        - legSlope (knotAt knots) D (knotSquare (knotAt knots) D) (i + 1) := by
      have : 0 ≤ ((D - 1 : ℕ) : ℝ) * (legSlope (knotAt knots) D (knotSquare (knotAt knots) D) (i + 2)
        - legSlope (knotAt knots) D (knotSquare (knotAt knots) D) (i + 1)) := by rw [s]; linarith
      exact nonneg_of_mul_nonneg_right this D1
    rw [abs_of_nonneg pos]
    refine le_of_eq ?_
    calc _ = M / 2 * (((D - 1 : ℕ) : ℝ) * (legSlope (knotAt knots) D (knotSquare (knotAt knots) D) (i + 2)
        - legSlope (knotAt knots) D (knotSquare (knotAt knots) D) (i + 1))) := by ring
      _ = _ := by rw [s]; ring
  refine ⟨ps, b, hb, hbend, fun t l i hi p h1 h2 ht hp => le_antisymm
    (C151_repaired hb hD hsep hM0 hbend h1 h2 hi ht hp) ?_⟩
  have tC : t ≤ knotAt knots C := by
    rcases h2 with h2 | h2
    · exact h2.le
    · exact h2.1.le
  have hp0 : coord p 0 = M / 2 * t ^ 2 := by
    rw [isLegSum_fixed hb h1 tC hp 0, legShare_square v hD h1 h2, mul_add, Finset.mul_sum,
      ec 0 (by omega)]
    congr 1
    refine Finset.sum_congr rfl fun j hj => ?_
    have hj := (Finset.mem_Ico.1 hj).2
    rw [ec j hj, ec (j - 1) (by omega)]
    ring
  rw [dist, hp0, coord_add, coord_mul, coord_mul, hps]
  simp only
  rw [coord_p1, coord_p1]
  refine le_trans (le_of_eq ?_) (le_abs_self _)
  rw [knotVariance_eq hD, knotVariance_eq hD, ht]
  ring

/-- **C151** is false of the code: the control points of the straight spline from 1 to 3 do not bend, but
at the parameter 1/2 of the second one `eval` does not return it. -/
theorem C151_false : ∃ (b : BSpline ℝ (PointN ℝ 1) 7 4 2) (r : PointN ℝ 1),
    BSpline.new ![0, 0, 0, 1, 2, 2, 2] ![p1 1, p1 (3 / 2), p1 (5 / 2), p1 3] = .ok b ∧
    BendsAtMost 2 (![0, 0, 0, 1, 2, 2, 2] : Fin 7 → ℝ) ![p1 1, p1 (3 / 2), p1 (5 / 2), p1 3] 0 ∧
    greville (knotAt (![0, 0, 0, 1, 2, 2, 2] : Fin 7 → ℝ)) 2 1 = 1 / 2 ∧
    b.eval (1 / 2 : ℝ) = .ok r ∧ 0 < pdist r (p1 (3 / 2)) := by
  obtain ⟨b, hb⟩ := (C43_accepts (D := 2) _ ![p1 1, p1 (3 / 2), p1 (5 / 2), p1 3]).2 valid_0001222
  have e4 := eps_le_quarter
  obtain ⟨r, hr, rc⟩ := C48_partial hb (.inl front_0001222) (t := 1 / 2) (k := 2) le_rfl (by norm_num)
    (by simp [knotAt]) (by simp [knotAt]; norm_num) fun i => by
      fin_cases i <;> simp <;> intros <;> linarith
  refine ⟨b, r, hb, bends_0001222, by norm_num [greville, Finset.sum_range_succ, knotAt], hr,
    Real.sqrt_pos.2 ?_⟩
  change 0 < ∑ i ∈ Finset.range 1, _
  rw [Finset.sum_range_one, rc]
  have e2 : (![p1 1, p1 (3 / 2), p1 (5 / 2), p1 3] : Fin 4 → PointN ℝ 1) 2 = p1 (5 / 2) := rfl
  norm_num [splineCoord, Fin.sum_univ_four, coxDeBoor, knotAt, coord_p1, e2]

/-- The hypotheses are met (for `BendsAtMost` and the separate knots see C150): any two consecutive inner
knots of 0 0 0 1 2 2 2 are within 1, and 1/2 belongs to control point 1. -/
example : KnotsWithin 4 2 (![0, 0, 0, 1, 2, 2, 2] : Fin 7 → ℝ) 1 ∧
    knotAt (![0, 0, 0, 1, 2, 2, 2] : Fin 7 → ℝ) 1 = knotAt (![0, 0, 0, 1, 2, 2, 2] : Fin 7 → ℝ) 2 ∧
    (1 / 2 : ℝ) = (1 - 0) * greville (knotAt (![0, 0, 0, 1, 2, 2, 2] : Fin 7 → ℝ)) 2 1
      + 0 * greville (knotAt (![0, 0, 0, 1, 2, 2, 2] : Fin 7 → ℝ)) 2 (1 + 1) := by
  refine ⟨fun i hi => ?_, by simp [knotAt], by norm_num [greville, Finset.sum_range_succ, knotAt]⟩
  interval_cases i <;> norm_num [knotAt]

end Stroke
