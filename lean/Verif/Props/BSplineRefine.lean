import Verif.Props.BSplinePolygon
import Verif.Props.BSplineInsert

set_option linter.unusedSectionVars false

/-!
# Inserting knots makes the control polygon converge to the curve (C152)

Inserting knots (C146) is how B-splines are subdivided, drawn and intersected: the curve stays the same
and its control polygon moves towards it.  The second differences of the polygon do not grow, so after
inserting knots until any `D` consecutive ones are within `W` the new polygon is within
`M W² / (8 (D - 1))` of the curve, with the `M` of the polygon at the start (C151); and for a clamped
spline `W` can be made as small as wanted.

A polygon that is convex in a direction stays convex: its new corners are points of the old polygon.
-/

namespace Stroke

section Basis
variable {u : ℕ → ℝ} {K C D k : ℕ} {ξ : ℝ}

/-- A sum over the `D` new knots after knot `j`. -/
theorem sum_insertKnot (g : ℝ → ℝ) (j : ℕ) (hj : j ≤ k) : ∀ n : ℕ,
    (j + n ≤ k → ∑ m ∈ Finset.range n, g (insertKnot u k ξ (j + 1 + m)) = ∑ m ∈ Finset.range n, g (u (j + 1 + m))) ∧
    (k < j + n → ∑ m ∈ Finset.range n, g (insertKnot u k ξ (j + 1 + m))
      = ∑ m ∈ Finset.range n, g (u (j + m)) - g (u j) + g ξ) := by
  intro n
  induction n with
  | zero => exact ⟨fun _ => by simp, fun h => absurd h (by omega)⟩
  | succ n ih =>
    refine ⟨fun h => ?_, fun h => ?_⟩
    · rw [Finset.sum_range_succ, Finset.sum_range_succ, ih.1 (by omega), insertKnot_le (by omega)]
    · rcases Nat.lt_or_ge k (j + n) with h' | h'
      · rw [Finset.sum_range_succ, Finset.sum_range_succ, ih.2 h', show j + 1 + n = j + n + 1 by omega,
          insertKnot_gt h']
        ring
      · have e : j + 1 + n = k + 1 := by omega
        rw [Finset.sum_range_succ, ih.1 h', e, insertKnot_new, Finset.sum_range_succ' (fun m => g (u (j + m)))]
        have : ∑ m ∈ Finset.range n, g (u (j + (m + 1))) = ∑ m ∈ Finset.range n, g (u (j + 1 + m)) :=
          Finset.sum_congr rfl fun m _ => by rw [show j + (m + 1) = j + 1 + m by omega]
        rw [this, show j + 0 = j from rfl]
        ring

theorem sum_insertKnot_gt (g : ℝ → ℝ) {j : ℕ} (hj : k < j) (n : ℕ) :
    ∑ m ∈ Finset.range n, g (insertKnot u k ξ (j + 1 + m)) = ∑ m ∈ Finset.range n, g (u (j + m)) :=
  Finset.sum_congr rfl fun m _ => by
    rw [show j + 1 + m = j + m + 1 by omega, insertKnot_gt (by omega)]

theorem sum_shift (g : ℝ → ℝ) (j n : ℕ) : ∑ m ∈ Finset.range n, g (u (j + 1 + m))
    = ∑ m ∈ Finset.range n, g (u (j + m)) - g (u j) + g (u (j + n)) := by
  have h1 := Finset.sum_range_succ (fun m => g (u (j + m))) n
  rw [Finset.sum_range_succ'] at h1
  have : ∑ m ∈ Finset.range n, g (u (j + (m + 1))) = ∑ m ∈ Finset.range n, g (u (j + 1 + m)) :=
    Finset.sum_congr rfl fun m _ => by rw [show j + (m + 1) = j + 1 + m by omega]
  rw [this, show j + 0 = j from rfl] at h1
  linarith

/-- The weights are between 0 and 1. -/
theorem insertWeight_mem (hm : ∀ i j, i ≤ j → j < K → u i ≤ u j) (h1 : u k ≤ ξ) (h2 : ξ < u (k + 1))
    {i : ℕ} (hi : i + D < K) : 0 ≤ insertWeight u k ξ D i ∧ insertWeight u k ξ D i ≤ 1 := by
  unfold insertWeight
  split_ifs with a b
  · exact ⟨zero_le_one, le_rfl⟩
  · exact ⟨le_rfl, zero_le_one⟩
  · have a1 := hm i k (by omega) (by omega)
    have a2 := hm (k + 1) (i + D) (by omega) hi
    have : 0 < u (i + D) - u i := by linarith
    exact ⟨div_nonneg (by linarith) this.le, by rw [div_le_one this]; linarith⟩

/-- The parameters of the new control points. -/
theorem insertValue_greville (hm : ∀ i j, i ≤ j → j < K → u i ≤ u j) (h1 : u k ≤ ξ) (h2 : ξ < u (k + 1))
    (hD : 1 ≤ D) (hDk : D ≤ k) {j : ℕ} (hj : j + D < K) :
    insertValue u k ξ D (greville u D) j = greville (insertKnot u k ξ) D j := by
  have D0 : (0 : ℝ) < D := by exact_mod_cast hD
  unfold insertValue greville
  rcases Nat.lt_or_ge k j with a | a
  · have := sum_insertKnot_gt (u := u) (ξ := ξ) (fun x => x) a D
    rw [insertWeight_zero a, this, Nat.sub_add_cancel (by omega)]
    ring
  rcases Nat.lt_or_ge k (j + D) with b | b
  · have := (sum_insertKnot (u := u) (ξ := ξ) (fun x => x) j a D).2 b
    have s := sum_shift (u := u) (fun x => x) j D
    have a1 := hm j k a (by omega)
    have a2 := hm (k + 1) (j + D) (by omega) hj
    have w : u (j + D) - u j ≠ 0 := by linarith
    rw [insertWeight_mid a b, this, s, Nat.sub_add_cancel (by omega)]
    field_simp
    ring
  · have := (sum_insertKnot (u := u) (ξ := ξ) (fun x => x) j a D).1 b
    rw [insertWeight_one b, this]
    ring

/-- The new control points of the parabola. -/
theorem insertValue_square (hm : ∀ i j, i ≤ j → j < K → u i ≤ u j) (h1 : u k ≤ ξ) (h2 : ξ < u (k + 1))
    (hD : 2 ≤ D) (hDk : D ≤ k) {j : ℕ} (hj : j + D < K) :
    insertValue u k ξ D (knotSquare u D) j = knotSquare (insertKnot u k ξ) D j := by
  have D2 : (2 : ℝ) ≤ D := by exact_mod_cast hD
  have D0 : (D : ℝ) * (D - 1) ≠ 0 := (mul_pos (by linarith) (by linarith)).ne'
  unfold insertValue knotSquare
  generalize (D : ℝ) * (D - 1) = Z at D0 ⊢
  rcases Nat.lt_or_ge k j with a | a
  · have e1 := sum_insertKnot_gt (u := u) (ξ := ξ) (fun x => x) a D
    have e2 := sum_insertKnot_gt (u := u) (ξ := ξ) (fun x => x ^ 2) a D
    rw [insertWeight_zero a, e1, e2, Nat.sub_add_cancel (by omega)]
    ring
  rcases Nat.lt_or_ge k (j + D) with b | b
  · have e1 := (sum_insertKnot (u := u) (ξ := ξ) (fun x => x) j a D).2 b
    have e2 := (sum_insertKnot (u := u) (ξ := ξ) (fun x => x ^ 2) j a D).2 b
    have s1 := sum_shift (u := u) (fun x => x) j D
    have s2 := sum_shift (u := u) (fun x => x ^ 2) j D
    have a1 := hm j k a (by omega)
    have a2 := hm (k + 1) (j + D) (by omega) hj
    have w : u (j + D) - u j ≠ 0 := by linarith
    rw [insertWeight_mid a b, e1, e2, s1, s2, Nat.sub_add_cancel (by omega)]
    generalize ∑ m ∈ Finset.range D, u (j + m) = X
    generalize ∑ m ∈ Finset.range D, u (j + m) ^ 2 = Y
    field_simp
    ring
  · have e1 := (sum_insertKnot (u := u) (ξ := ξ) (fun x => x) j a D).1 b
    have e2 := (sum_insertKnot (u := u) (ξ := ξ) (fun x => x ^ 2) j a D).1 b
    rw [insertWeight_one b, e1, e2]
    ring

/-- A convex polygon stays convex. -/
theorem insert_convex (hm : ∀ i j, i ≤ j → j < K → u i ≤ u j) (hK : K = C + D + 1) (hD : 1 ≤ D)
    (hDk : D ≤ k) (hkC : k < C) (h1 : u k ≤ ξ) (h2 : ξ < u (k + 1))
    (hsep : ∀ i, 1 ≤ i → i < C → u i < u (i + D))
    (hsep' : ∀ i, 1 ≤ i → i < C + 1 → insertKnot u k ξ i < insertKnot u k ξ (i + D)) (y : ℕ → ℝ)
    (hy : ∀ i, 1 ≤ i → i + 1 < C → legSlope u D y i ≤ legSlope u D y (i + 1)) {i : ℕ} (i1 : 1 ≤ i)
    (i2 : i + 1 < C + 1) :
    legSlope (insertKnot u k ξ) D (insertValue u k ξ D y) i
      ≤ legSlope (insertKnot u k ξ) D (insertValue u k ξ D y) (i + 1) := by
  have D0 : (0 : ℝ) < D := by exact_mod_cast hD
  set α := insertWeight u k ξ D with hα
  -- the widths of the legs
  set w : ℕ → ℝ := fun j => (u (j + D) - u j) / D with hw
  have wpos : ∀ j, 1 ≤ j → j < C → 0 < w j := fun j j1 j2 => div_pos (sub_pos.2 (hsep j j1 j2)) D0
  have leg : ∀ j, 1 ≤ j → j < C → y j - y (j - 1) = legSlope u D y j * w j := by
    intro j j1 j2
    have := (sub_pos.2 (hsep j j1 j2)).ne'
    rw [legSlope, hw]
    field_simp
  have mem := fun j (hj : j + D < K) => insertWeight_mem (D := D) hm h1 h2 hj
  rw [← hα] at mem
  have α0 : α 0 = 1 := insertWeight_one (by omega)
  have αC : α C = 0 := insertWeight_zero hkC
  -- leg `j + 1` of the new polygon goes around corner `j` of the old one
  have diff : ∀ (z : ℕ → ℝ) (j : ℕ), insertValue u k ξ D z (j + 1) - insertValue u k ξ D z j
      = α (j + 1) * (z (j + 1) - z j) + (1 - α j) * (z j - z (j - 1)) := by
    intro z j
    unfold insertValue
    rw [← hα, Nat.add_sub_cancel]
    ring
  have wid : ∀ j, j < C → (insertKnot u k ξ (j + 1 + D) - insertKnot u k ξ (j + 1)) / D
      = α (j + 1) * (greville u D (j + 1) - greville u D j)
        + (1 - α j) * (greville u D j - greville u D (j - 1)) := by
    intro j hj
    rw [← greville_sub, ← insertValue_greville hm h1 h2 hD hDk (j := j + 1) (by omega),
      ← insertValue_greville hm h1 h2 hD hDk (j := j) (by omega), diff]
  have slope : ∀ j, j < C → legSlope (insertKnot u k ξ) D (insertValue u k ξ D y) (j + 1)
      * ((insertKnot u k ξ (j + 1 + D) - insertKnot u k ξ (j + 1)) / D)
      = insertValue u k ξ D y (j + 1) - insertValue u k ξ D y j := by
    intro j hj
    have := (sub_pos.2 (hsep' (j + 1) (by omega) (by omega))).ne'
    rw [legSlope, Nat.add_sub_cancel]
    field_simp
  have gw : ∀ j, greville u D (j + 1) - greville u D j = w (j + 1) := fun j => greville_sub D j
  have pos : ∀ j, j < C → 0 < (insertKnot u k ξ (j + 1 + D) - insertKnot u k ξ (j + 1)) / D := fun j hj =>
    div_pos (sub_pos.2 (hsep' (j + 1) (by omega) (by omega))) D0
  obtain ⟨n, rfl⟩ : ∃ n, i = n + 1 := ⟨i - 1, by omega⟩
  have mid : n + 1 < C := by omega
  refine le_trans (b := legSlope u D y (n + 1)) ?_ ?_
  · refine le_of_mul_le_mul_right ?_ (pos n (by omega))
    rw [slope n (by omega), diff, wid n (by omega), gw, ← sub_nonneg]
    have l1 := leg (n + 1) (by omega) mid
    rw [Nat.add_sub_cancel] at l1
    rcases Nat.eq_zero_or_pos n with e | e
    · subst e
      rw [α0, l1]
      refine le_of_eq ?_
      ring
    · have l0 := leg n e (by omega)
      have g0 := gw (n - 1)
      rw [Nat.sub_add_cancel e] at g0
      rw [l1, l0, g0]
      have := mul_nonneg (mul_nonneg (sub_nonneg.2 (mem n (by omega)).2) (wpos n e (by omega)).le)
        (sub_nonneg.2 (hy n e mid))
      nlinarith
  · refine le_of_mul_le_mul_right ?_ (pos (n + 1) mid)
    rw [slope (n + 1) mid, diff, wid (n + 1) mid, gw, Nat.add_sub_cancel, gw, ← sub_nonneg]
    have l1 := leg (n + 1) (by omega) mid
    rw [Nat.add_sub_cancel] at l1
    rcases Nat.lt_or_ge (n + 1 + 1) C with e | e
    · have l2 := leg (n + 1 + 1) (by omega) e
      rw [Nat.add_sub_cancel] at l2
      rw [l1, l2]
      have := mul_nonneg (mul_nonneg (mem (n + 1 + 1) (by omega)).1 (wpos (n + 1 + 1) (by omega) e).le)
        (sub_nonneg.2 (hy (n + 1) (by omega) e))
      nlinarith
    · have e : n + 1 + 1 = C := by omega
      rw [e, αC, l1]
      refine le_of_eq ?_
      ring

/-- Strictly between two knots a new one keeps the knots apart. -/
theorem insert_separate (hm : ∀ i j, i ≤ j → j < K → u i ≤ u j) (hK : K = C + D + 1) (hD : 1 ≤ D)
    (hkC : k < C) (h1 : u k < ξ) (h2 : ξ < u (k + 1)) (hsep : ∀ i, 1 ≤ i → i < C → u i < u (i + D))
    (i : ℕ) (i1 : 1 ≤ i) (i2 : i < C + 1) : insertKnot u k ξ i < insertKnot u k ξ (i + D) := by
  rcases Nat.lt_or_ge k i with a | a
  · obtain ⟨n, rfl⟩ : ∃ n, i = n + 1 := ⟨i - 1, by omega⟩
    rw [show n + 1 + D = n + D + 1 by omega, insertKnot_gt (show k < n + D by omega)]
    rcases Nat.lt_or_ge k n with b | b
    · rw [insertKnot_gt b]
      exact hsep n (by omega) (by omega)
    · have : n = k := by omega
      subst this
      rw [insertKnot_new]
      exact h2.trans_le (hm _ _ (by omega) (by omega))
  · rw [insertKnot_le a]
    have a1 := hm i k a (by omega)
    rcases Nat.lt_or_ge k (i + D) with b | b
    · rcases Nat.eq_or_lt_of_le (show k + 1 ≤ i + D by omega) with c | c
      · rw [← c, insertKnot_new]
        linarith
      · obtain ⟨n, hn⟩ : ∃ n, i + D = n + 1 := ⟨i + D - 1, by omega⟩
        rw [hn, insertKnot_gt (by omega)]
        have := hm (k + 1) n (by omega) (by omega)
        linarith
    · rw [insertKnot_le b]
      exact hsep i i1 (by omega)

end Basis

section Splines
variable {P : Type} [Point ℝ P] [LawfulPoint P] {K C D : ℕ}
variable {knots : Arr ℝ K} {ps : Arr P C} {b : BSpline ℝ P K C D}

theorem legSlope_congr {u u' : ℕ → ℝ} {y y' : ℕ → ℝ} {i : ℕ} (h1 : u (i + D) = u' (i + D)) (h2 : u i = u' i)
    (h3 : y i = y' i) (h4 : y (i - 1) = y' (i - 1)) : legSlope u D y i = legSlope u' D y' i := by
  unfold legSlope
  rw [h1, h2, h3, h4]

/-- The second differences do not grow. -/
theorem bends_inserted (v : ValidSpline C D knots) (hD : 2 ≤ D)
    (hsep : ∀ i, 1 ≤ i → i < C → knotAt knots i < knotAt knots (i + D)) {M : ℝ} (hM0 : 0 ≤ M)
    (hM : BendsAtMost D knots ps M) {k : ℕ} {ξ : ℝ} (hDk : D ≤ k) (hkC : k < C) (h1 : knotAt knots k < ξ)
    (h2 : ξ < knotAt knots (k + 1)) :
    BendsAtMost D (insertedKnots knots k ξ) (insertedPoints D knots ps k ξ) M := by
  obtain ⟨v1, v2, v3⟩ := id v
  have hm := fun i j (hij : i ≤ j) (hj : j < K) => mono_knotAt v3 hij hj
  have D1 : (0 : ℝ) < (D - 1 : ℕ) := by exact_mod_cast (by omega : 0 < D - 1)
  have hsep' := insert_separate hm v2 (by omega) hkC h1 h2 hsep
  set ps' := insertedPoints D knots ps k ξ with hps'
  set knots' := insertedKnots knots k ξ with hk'
  have ek : ∀ j, j < K + 1 → knotAt knots' j = insertKnot (knotAt knots) k ξ j := fun j hj =>
    knotAt_inserted k ξ hj
  intro i hi
  have back : ∀ (j : ℕ) (hj : j + 1 < C + 1), ((ps' ⟨j + 1, hj⟩ - ps' ⟨j, by omega⟩)
      * ((greville (knotAt knots') D (j + 1) - greville (knotAt knots') D j)⁻¹ : ℝ) : P)
      = legVector D knots' ps' j := by
    intro j hj
    rw [legVector, extend_lt ps' hj, extend_lt ps' (by omega : j < C + 1)]
  rw [back i (by omega), back (i + 1) hi]
  -- the direction of the second difference
  set a : ℕ → ℝ := fun c => coord (legVector D knots' ps' (i + 1)) c - coord (legVector D knots' ps' i) c
    with ha
  set R := pdist (legVector D knots' ps' i) (legVector D knots' ps' (i + 1)) with hR
  have R0 : 0 ≤ R := pdist_nonneg _ _
  have hRn : R = Real.sqrt (∑ c ∈ Finset.range (Point.dim P), a c ^ 2) := by
    rw [hR, pdist_comm]
    rfl
  have hRsq : R * R = ∑ c ∈ Finset.range (Point.dim P), a c ^ 2 := by
    rw [hRn, Real.mul_self_sqrt (Finset.sum_nonneg fun c _ => sq_nonneg _)]
  set q := knotSquare (knotAt knots) D with hq
  have key := insert_convex (ξ := ξ) hm v2 (by omega) hDk hkC h1.le h2 hsep hsep'
    (fun n => R * M / 2 * q n - side a 0 (extend ps n)) (bends_convex hD hsep hM hRn) (i := i + 1)
    (by omega) (by omega)
  -- the new values
  have val : ∀ j, j < C + 1 → insertValue (knotAt knots) k ξ D
      (fun n => R * M / 2 * q n - side a 0 (extend ps n)) j
      = R * M / 2 * knotSquare (knotAt knots') D j - side a 0 (extend ps' j) := by
    intro j hj
    have e1 := insertValue_square (ξ := ξ) hm h1.le h2 hD hDk (j := j) (by omega)
    have e2 : knotSquare (knotAt knots') D j = knotSquare (insertKnot (knotAt knots) k ξ) D j := by
      unfold knotSquare
      have : ∀ m ∈ Finset.range D, knotAt knots' (j + 1 + m) = insertKnot (knotAt knots) k ξ (j + 1 + m) :=
        fun m hmD => ek _ (by have := Finset.mem_range.1 hmD; omega)
      rw [Finset.sum_congr rfl this, Finset.sum_congr rfl fun m hmD => congrArg (· ^ 2) (this m hmD)]
    have e3 : side a 0 (extend ps' j) = insertValue (knotAt knots) k ξ D (fun n => side a 0 (extend ps n)) j := by
      rw [extend_lt ps' hj]
      unfold side
      simp only [sub_zero, hps', coord_inserted]
      unfold insertValue
      simp only [Finset.mul_sum, ← Finset.sum_add_distrib]
      exact Finset.sum_congr rfl fun c _ => by ring
    rw [e2, ← e1, e3]
    unfold insertValue
    ring
  have new : ∀ j, 1 ≤ j → j < C + 1 → legSlope (insertKnot (knotAt knots) k ξ) D
      (insertValue (knotAt knots) k ξ D (fun n => R * M / 2 * q n - side a 0 (extend ps n))) j
      = R * M / 2 * legSlope (knotAt knots') D (knotSquare (knotAt knots') D) j
        - legSlope (knotAt knots') D (fun n => side a 0 (extend ps' n)) j := by
    intro j j1 j2
    unfold legSlope
    rw [val j j2, val (j - 1) (by omega), ek (j + D) (by omega), ek j (by omega)]
    ring
  rw [new (i + 1) (by omega) (by omega), new (i + 1 + 1) (by omega) (by omega), legSlope_side, legSlope_side]
    at key
  have s := legSlope_square_step (u := knotAt knots') (i := i) hD
    (by rw [ek _ (by omega), ek _ (by omega)]; exact hsep' _ (by omega) (by omega))
    (by rw [ek _ (by omega), ek _ (by omega)]; exact hsep' _ (by omega) (by omega))
  have e3 : R * R = ∑ c ∈ Finset.range (Point.dim P), a c * coord (legVector D knots' ps' (i + 1)) c
      - ∑ c ∈ Finset.range (Point.dim P), a c * coord (legVector D knots' ps' i) c := by
    rw [hRsq, ← Finset.sum_sub_distrib]
    refine Finset.sum_congr rfl fun c _ => ?_
    rw [← mul_sub, pow_two]
  have fin : R * ((D - 1 : ℕ) * R) ≤ R * (M * (knotAt knots' (i + 1 + D) - knotAt knots' (i + 2))) := by
    have : R * R ≤ R * M / 2 * (legSlope (knotAt knots') D (knotSquare (knotAt knots') D) (i + 1 + 1)
        - legSlope (knotAt knots') D (knotSquare (knotAt knots') D) (i + 1)) := by
      rw [e3]
      linarith
    calc R * ((D - 1 : ℕ) * R) = (D - 1 : ℕ) * (R * R) := by ring
      _ ≤ (D - 1 : ℕ) * (R * M / 2 * (legSlope (knotAt knots') D (knotSquare (knotAt knots') D) (i + 1 + 1)
        - legSlope (knotAt knots') D (knotSquare (knotAt knots') D) (i + 1))) :=
          mul_le_mul_of_nonneg_left this D1.le
      _ = R * M / 2 * ((D - 1 : ℕ) * (legSlope (knotAt knots') D (knotSquare (knotAt knots') D) (i + 2)
        - legSlope (knotAt knots') D (knotSquare (knotAt knots') D) (i + 1))) := by ring
      _ = _ := by rw [s]; ring
  rcases eq_or_lt_of_le R0 with e | hR'
  · rw [← e, mul_zero]
    refine mul_nonneg ?_ ?_
    · exact hM0
    · exact sub_nonneg.2 (by
        rw [ek _ (by omega), ek _ (by omega)]
        exact insertKnot_mono (K := K) hm (by omega) h1.le h2.le _ _ (by omega) (by omega))
  · exact le_of_mul_le_mul_left fin hR'

/-! ### Inserting many knots -/

/-- `knots'` and `ps'` come from `knots` and `ps` by inserting knots (C146), each strictly between two
neighbours in the domain. -/
inductive Refines (D : ℕ) (knots : Arr ℝ K) (ps : Arr P C) :
    ∀ {K' C' : ℕ}, Arr ℝ K' → Arr P C' → Prop
  | refl : Refines D knots ps knots ps
  | insert {K' C' : ℕ} {knots' : Arr ℝ K'} {ps' : Arr P C'} {k : ℕ} {ξ : ℝ} (h : Refines D knots ps knots' ps')
      (hDk : D ≤ k) (hkC : k < C') (h1 : knotAt knots' k < ξ) (h2 : ξ < knotAt knots' (k + 1)) :
      Refines D knots ps (insertedKnots knots' k ξ) (insertedPoints D knots' ps' k ξ)

/-- What stays the same. -/
theorem Refines.keeps {K' C' : ℕ} {knots' : Arr ℝ K'} {ps' : Arr P C'} (h : Refines D knots ps knots' ps')
    (v : ValidSpline C D knots) (hD : 2 ≤ D)
    (hsep : ∀ i, 1 ≤ i → i < C → knotAt knots i < knotAt knots (i + D)) :
    ValidSpline C' D knots' ∧ (∀ i, 1 ≤ i → i < C' → knotAt knots' i < knotAt knots' (i + D)) ∧
    (∀ i ≤ D, knotAt knots' i = knotAt knots i) ∧
    (∀ i ≤ D, knotAt knots' (C' + i) = knotAt knots (C + i)) ∧
    ∀ t c, splineCoord D knots' ps' t c = splineCoord D knots ps t c := by
  induction h with
  | refl => exact ⟨v, hsep, fun _ _ => rfl, fun _ _ => rfl, fun _ _ => rfl⟩
  | @insert K' C' knots' ps' k ξ _ hDk hkC h1 h2 ih =>
    obtain ⟨w, s, f, l, e⟩ := ih
    obtain ⟨w1, w2, w3⟩ := id w
    have hm := fun i j (hij : i ≤ j) (hj : j < K') => mono_knotAt w3 hij hj
    refine ⟨valid_inserted w hkC h1.le h2.le, fun i i1 i2 => ?_, fun i hi => ?_,
      fun i hi => ?_, fun t c => ?_⟩
    · rw [knotAt_inserted k ξ (by omega), knotAt_inserted k ξ (by omega)]
      exact insert_separate hm w2 (by omega) hkC h1 h2 s i i1 i2
    · rw [knotAt_inserted k ξ (by omega), insertKnot_le (by omega), f i hi]
    · rw [knotAt_inserted k ξ (by omega), show C' + 1 + i = C' + i + 1 by omega, insertKnot_gt (by omega), l i hi]
    · rw [splineCoord_inserted w hDk hkC h1.le h2, e]

/-- The second differences do not grow. -/
theorem Refines.bends {K' C' : ℕ} {knots' : Arr ℝ K'} {ps' : Arr P C'} (h : Refines D knots ps knots' ps')
    (v : ValidSpline C D knots) (hD : 2 ≤ D)
    (hsep : ∀ i, 1 ≤ i → i < C → knotAt knots i < knotAt knots (i + D)) {M : ℝ} (hM0 : 0 ≤ M)
    (hM : BendsAtMost D knots ps M) : BendsAtMost D knots' ps' M := by
  induction h with
  | refl => exact hM
  | @insert K' C' knots' ps' k ξ r hDk hkC h1 h2 ih =>
    obtain ⟨w, s, -⟩ := r.keeps v hD hsep
    exact bends_inserted w hD s hM0 ih hDk hkC h1 h2

/-- The curve stays the same, also at the end. -/
theorem Refines.curve {K' C' : ℕ} {knots' : Arr ℝ K'} {ps' : Arr P C'} (h : Refines D knots ps knots' ps')
    (hb : BSpline.new knots ps = .ok b) :
    ∃ b' : BSpline ℝ P K' C' D, BSpline.new knots' ps' = .ok b' ∧
      knotAt knots' D = knotAt knots D ∧ knotAt knots' C' = knotAt knots C ∧
      ∀ t, knotAt knots D ≤ t → t ≤ knotAt knots C → ∃ q, b.evalFixed t = .ok q ∧ b'.evalFixed t = .ok q := by
  induction h with
  | refl =>
    refine ⟨b, hb, rfl, rfl, fun t h1 h2 => ?_⟩
    rcases eq_or_lt_of_le h2 with e | lt
    · rw [e]; exact ⟨_, C121_bspline_end hb, C121_bspline_end hb⟩
    · obtain ⟨p, hp, _⟩ := C121_bspline hb h1 lt
      exact ⟨p, hp, hp⟩
  | @insert K' C' knots' ps' k ξ _ hDk hkC h1 h2 ih =>
    obtain ⟨b', hb', eD, eC, ev⟩ := ih
    have w := ((new_ok_iff _ _ _).1 hb').1
    obtain ⟨w1, w2, w3⟩ := id w
    obtain ⟨b2, hb2, ev2⟩ := C146_repaired hb' hDk hkC h1.le h2
    refine ⟨b2, hb2, ?_, ?_, fun t t1 t2 => ?_⟩
    · rw [knotAt_inserted k ξ (by omega), insertKnot_le hDk, eD]
    · rw [knotAt_inserted k ξ (by omega), insertKnot_gt hkC, eC]
    · obtain ⟨q, hq, hq'⟩ := ev t t1 t2
      obtain ⟨q2, a, a'⟩ := ev2 t (by rw [eD]; exact t1) (by rw [eC]; exact t2)
      rw [hq'] at a
      cases a
      exact ⟨q, hq, a'⟩

/-- Splitting one span, from its end. -/
theorem split_span {δ : ℝ} (hδ : 0 < δ) : ∀ (n : ℕ) {K' C' : ℕ} {knots' : Arr ℝ K'} {ps' : Arr P C'},
    Refines D knots ps knots' ps' → ValidSpline C' D knots' → ∀ {k : ℕ}, D ≤ k → k < C' →
    knotAt knots' (k + 1) - knotAt knots' k ≤ n * δ →
    (∀ j, k < j → j < C' → knotAt knots' (j + 1) - knotAt knots' j ≤ δ) →
    ∃ (K2 C2 : ℕ) (knots2 : Arr ℝ K2) (ps2 : Arr P C2), Refines D knots ps knots2 ps2 ∧
      ValidSpline C2 D knots2 ∧ k < C2 ∧
      (∀ j ≤ k, knotAt knots2 j = knotAt knots' j) ∧
      ∀ j, k ≤ j → j < C2 → knotAt knots2 (j + 1) - knotAt knots2 j ≤ δ := by
  intro n
  induction n with
  | zero =>
    intro K' C' knots' ps' r w k hDk hkC hn hj
    refine ⟨K', C', knots', ps', r, w, hkC, fun _ _ => rfl, fun j h1 h2 => ?_⟩
    rcases Nat.eq_or_lt_of_le h1 with e | lt
    · subst e
      push_cast at hn
      linarith
    · exact hj j lt h2
  | succ n ih =>
    intro K' C' knots' ps' r w k hDk hkC hn hj
    obtain ⟨w1, w2, w3⟩ := id w
    rcases le_or_gt (knotAt knots' (k + 1) - knotAt knots' k) δ with small | big
    · refine ⟨K', C', knots', ps', r, w, hkC, fun _ _ => rfl, fun j h1 h2 => ?_⟩
      rcases Nat.eq_or_lt_of_le h1 with e | lt
      · subst e
        exact small
      · exact hj j lt h2
    · set ξ := knotAt knots' (k + 1) - δ with hξ
      have x1 : knotAt knots' k < ξ := by rw [hξ]; linarith
      have x2 : ξ < knotAt knots' (k + 1) := by rw [hξ]; linarith
      have e1 : knotAt (insertedKnots knots' k ξ) (k + 1) = ξ := by
        rw [knotAt_inserted k ξ (by omega), insertKnot_new]
      have e0 : ∀ j ≤ k, knotAt (insertedKnots knots' k ξ) j = knotAt knots' j := fun j hj => by
        rw [knotAt_inserted k ξ (by omega), insertKnot_le hj]
      have e2 : ∀ j, k < j → j < K' → knotAt (insertedKnots knots' k ξ) (j + 1) = knotAt knots' j :=
        fun j h1 h2 => by rw [knotAt_inserted k ξ (by omega), insertKnot_gt h1]
      obtain ⟨K2, C2, knots2, ps2, r2, v2, c2, f2, s2⟩ := ih (r.insert hDk hkC x1 x2)
        (valid_inserted w hkC x1.le x2.le) hDk (by omega : k < C' + 1)
        (by rw [e1, e0 k le_rfl, hξ]; push_cast at hn; linarith)
        (fun j h1 h2 => by
          obtain ⟨i, rfl⟩ : ∃ i, j = i + 1 := ⟨j - 1, by omega⟩
          rcases Nat.eq_or_lt_of_le (show k ≤ i by omega) with e | lt
          · subst e
            rw [e1, e2 _ (by omega) (by omega), hξ]
            linarith
          · rw [e2 _ lt (by omega), e2 _ (by omega) (by omega)]
            exact hj i lt (by omega))
      exact ⟨K2, C2, knots2, ps2, r2, v2, c2, fun j hj => (f2 j hj).trans (e0 j hj), s2⟩

/-- All spans of the domain can be made short. -/
theorem split_spans (v : ValidSpline C D knots) {δ : ℝ} (hδ : 0 < δ) : ∀ n, n ≤ C - D →
    ∃ (K' C' : ℕ) (knots' : Arr ℝ K') (ps' : Arr P C'), Refines D knots ps knots' ps' ∧
      ValidSpline C' D knots' ∧ C - n ≤ C' ∧
      ∀ j, C - n ≤ j → j < C' → knotAt knots' (j + 1) - knotAt knots' j ≤ δ := by
  intro n
  induction n with
  | zero => exact fun _ => ⟨K, C, knots, ps, .refl, v, by omega, fun j h1 h2 => absurd h2 (by omega)⟩
  | succ n ih =>
    intro hn
    obtain ⟨K', C', knots', ps', r, w, c, s⟩ := ih (by omega)
    obtain ⟨m, hm⟩ := exists_nat_ge ((knotAt knots' (C - (n + 1) + 1) - knotAt knots' (C - (n + 1))) / δ)
    rw [div_le_iff₀ hδ] at hm
    obtain ⟨K2, C2, knots2, ps2, r2, v2, c2, _, s2⟩ := split_span hδ m r w (k := C - (n + 1)) (by omega)
      (by omega) hm fun j h1 h2 => s j (by omega) h2
    exact ⟨K2, C2, knots2, ps2, r2, v2, c2.le, s2⟩

/-- The knots `j ≤ ... ≤ j + n` of short spans are close together. -/
theorem knots_close {δ : ℝ} {u : ℕ → ℝ} {j : ℕ} : ∀ n, (∀ i, j ≤ i → i < j + n → u (i + 1) - u i ≤ δ) →
    u (j + n) - u j ≤ n * δ := by
  intro n
  induction n with
  | zero => intro _; simp
  | succ n ih =>
    intro h
    have a := ih fun i h1 h2 => h i h1 (by omega)
    have b := h (j + n) (by omega) (by omega)
    rw [show j + (n + 1) = j + n + 1 by omega]
    push_cast
    linarith

/-- **C152**: inserting knots, however many, does not make the second differences of the control polygon
larger. -/
theorem C152_second_differences (v : ValidSpline C D knots) (hD : 2 ≤ D)
    (hsep : ∀ i, 1 ≤ i → i < C → knotAt knots i < knotAt knots (i + D)) {M : ℝ} (hM0 : 0 ≤ M)
    (hM : BendsAtMost D knots ps M) {K' C' : ℕ} {knots' : Arr ℝ K'} {ps' : Arr P C'}
    (r : Refines D knots ps knots' ps') : BendsAtMost D knots' ps' M :=
  r.bends v hD hsep hM0 hM

/-- **C152** (how far): a spline clamped at both ends can be refined until any `D` consecutive inner knots
are as close together as wanted. -/
theorem C152_refine (v : ValidSpline C D knots) (ps : Arr P C) (hD : 2 ≤ D)
    (hsep : ∀ i, 1 ≤ i → i < C → knotAt knots i < knotAt knots (i + D))
    (hfront : knotAt knots 1 = knotAt knots D) (hend : knotAt knots (C + D - 1) = knotAt knots C) {W : ℝ}
    (hW : 0 < W) : ∃ (K' C' : ℕ) (knots' : Arr ℝ K') (ps' : Arr P C'), Refines D knots ps knots' ps' ∧
      KnotsWithin C' D knots' W := by
  obtain ⟨v1, v2, v3⟩ := id v
  have D0 : (0 : ℝ) < (D : ℝ) := by exact_mod_cast (by omega : 0 < D)
  have hδ : 0 < W / D := div_pos hW D0
  obtain ⟨K', C', knots', ps', r, w, _, s⟩ := split_spans (ps := ps) v hδ (C - D) le_rfl
  refine ⟨K', C', knots', ps', r, fun i hi => ?_⟩
  obtain ⟨w1, w2, w3⟩ := id w
  have hm := fun i j (hij : i ≤ j) (hj : j < K') => mono_knotAt w3 hij hj
  obtain ⟨-, -, f, l, -⟩ := r.keeps v hD hsep
  have short : ∀ j, 1 ≤ j → j < C' + D - 1 → knotAt knots' (j + 1) - knotAt knots' j ≤ W / D := by
    intro j j1 j2
    rcases Nat.lt_or_ge j D with a | a
    · have a1 := hm 1 j j1 (by omega)
      have a2 := hm (j + 1) D (by omega) (by omega)
      have := f 1 (by omega)
      have := f D le_rfl
      linarith
    · rcases Nat.lt_or_ge j C' with b | b
      · exact s j (by omega) b
      · have a1 := hm C' j b (by omega)
        have a2 := hm (j + 1) (C' + D - 1) (by omega) (by omega)
        have := l 0 (by omega)
        have := l (D - 1) (by omega)
        rw [show C + (D - 1) = C + D - 1 by omega, show C' + (D - 1) = C' + D - 1 by omega] at this
        simp only [Nat.add_zero] at *
        linarith
  have := knots_close (u := knotAt knots') (j := i + 1) (δ := W / D) (D - 1)
    fun j h1 h2 => short j (by omega) (by omega)
  rw [show i + 1 + (D - 1) = i + D by omega] at this
  refine this.trans ?_
  have : ((D - 1 : ℕ) : ℝ) ≤ D := by exact_mod_cast Nat.sub_le D 1
  calc _ ≤ (D : ℝ) * (W / D) := mul_le_mul_of_nonneg_right this hδ.le
    _ = W := by field_simp

/-- If no knot between the ends is repeated `D` times, the second differences are bounded. -/
theorem exists_bends (ps : Arr P C)
    (hrep : ∀ i, 2 ≤ i → i < C → knotAt knots i < knotAt knots (i + D - 1)) :
    ∃ M, 0 ≤ M ∧ BendsAtMost D knots ps M := by
  set f : ℕ → ℝ := fun i => (D - 1 : ℕ) * pdist (legVector D knots ps i) (legVector D knots ps (i + 1))
    / (knotAt knots (i + 1 + D) - knotAt knots (i + 2)) with hf
  have w : ∀ i, i + 2 < C → 0 < knotAt knots (i + 1 + D) - knotAt knots (i + 2) := fun i hi => by
    have := hrep (i + 2) (by omega) hi
    rw [show i + 2 + D - 1 = i + 1 + D by omega] at this
    exact sub_pos.2 this
  have f0 : ∀ i ∈ Finset.range (C - 2), 0 ≤ f i := fun i hi => by
    have := Finset.mem_range.1 hi
    exact div_nonneg (mul_nonneg (Nat.cast_nonneg _) (pdist_nonneg _ _)) (w i (by omega)).le
  refine ⟨∑ i ∈ Finset.range (C - 2), f i, Finset.sum_nonneg f0, fun i hi => ?_⟩
  have := Finset.single_le_sum f0 (Finset.mem_range.2 (by omega : i < C - 2))
  rw [hf, div_le_iff₀ (w i hi)] at this
  unfold legVector at this
  rw [extend_lt ps (by omega : i < C), extend_lt ps (by omega : i + 1 < C),
    extend_lt ps (by omega : i + 1 + 1 < C)] at this
  exact this

/-- **C152** for the repaired program: the curve is as close to the control polygon after inserting knots
as C151 says, with the second differences of the control polygon before. -/
theorem C152_repaired (h : BSpline.new knots ps = .ok b) (hD : 2 ≤ D)
    (hsep : ∀ i, 1 ≤ i → i < C → knotAt knots i < knotAt knots (i + D)) {M W : ℝ} (hM0 : 0 ≤ M)
    (hM : BendsAtMost D knots ps M) (hend : knotAt knots (C + D - 1) = knotAt knots C)
    {K' C' : ℕ} {knots' : Arr ℝ K'} {ps' : Arr P C'} (r : Refines D knots ps knots' ps')
    (hW : KnotsWithin C' D knots' W) :
    (∀ t, knotAt knots D ≤ t → t ≤ knotAt knots C → ∃ p, b.evalFixed t = .ok p ∧
      ∃ (i : ℕ) (hi : i + 1 < C'),
        NearSegment (ps' ⟨i, by omega⟩) (ps' ⟨i + 1, hi⟩) p (M * W ^ 2 / (8 * (D - 1)))) ∧
    (knotAt knots 1 = knotAt knots D → ∀ (i : ℕ) (hi : i + 1 < C') (l : ℝ), 0 ≤ l → l ≤ 1 →
      ∃ t p, knotAt knots D ≤ t ∧ t ≤ knotAt knots C ∧ b.evalFixed t = .ok p ∧
        pdist p (ps' ⟨i, by omega⟩ * (1 - l) + ps' ⟨i + 1, hi⟩ * l) ≤ M * W ^ 2 / (8 * (D - 1))) := by
  have v := ((new_ok_iff _ _ _).1 h).1
  obtain ⟨w, s, f, l, -⟩ := r.keeps v hD hsep
  obtain ⟨b', hb', eD, eC, ev⟩ := r.curve h
  have hend' : knotAt knots' (C' + D - 1) = knotAt knots' C' := by
    rw [eC, show C' + D - 1 = C' + (D - 1) by omega, l _ (by omega), show C + (D - 1) = C + D - 1 by omega, hend]
  obtain ⟨A, B⟩ := C151_repaired_hausdorff hb' hD s hM0 (r.bends v hD hsep hM0 hM) hW hend'
  rw [eD, eC] at A B
  have same : ∀ t p, knotAt knots D ≤ t → t ≤ knotAt knots C → b'.evalFixed t = .ok p →
      b.evalFixed t = .ok p := by
    intro t p h1 h2 hp
    obtain ⟨q, hq, hq'⟩ := ev t h1 h2
    rw [hp] at hq'
    cases hq'
    exact hq
  refine ⟨fun t h1 h2 => ?_, fun hfront i hi x x0 x1 => ?_⟩
  · obtain ⟨p, hp, near⟩ := A t h1 h2
    exact ⟨p, same t p h1 h2 hp, near⟩
  · obtain ⟨t, p, h1, h2, hp, near⟩ := B i hi x x0 x1 (.inl (by rw [f 1 (by omega), hfront]))
    exact ⟨t, p, h1, h2, same t p h1 h2 hp, near⟩

/-- **C152** for the repaired program: the control polygon of a spline clamped at both ends comes as close
to the curve as wanted when knots are inserted, in both directions. -/
theorem C152_repaired_converges (h : BSpline.new knots ps = .ok b) (hD : 2 ≤ D)
    (hrep : ∀ i, 2 ≤ i → i < C → knotAt knots i < knotAt knots (i + D - 1))
    (hfront : knotAt knots 1 = knotAt knots D) (hend : knotAt knots (C + D - 1) = knotAt knots C)
    {e : ℝ} (he : 0 < e) :
    ∃ (K' C' : ℕ) (knots' : Arr ℝ K') (ps' : Arr P C'), Refines D knots ps knots' ps' ∧
    (∀ t, knotAt knots D ≤ t → t ≤ knotAt knots C → ∃ p, b.evalFixed t = .ok p ∧
      ∃ (i : ℕ) (hi : i + 1 < C'), NearSegment (ps' ⟨i, by omega⟩) (ps' ⟨i + 1, hi⟩) p e) ∧
    (∀ (i : ℕ) (hi : i + 1 < C') (l : ℝ), 0 ≤ l → l ≤ 1 →
      ∃ t p, knotAt knots D ≤ t ∧ t ≤ knotAt knots C ∧ b.evalFixed t = .ok p ∧
        pdist p (ps' ⟨i, by omega⟩ * (1 - l) + ps' ⟨i + 1, hi⟩ * l) ≤ e) := by
  have v := ((new_ok_iff _ _ _).1 h).1
  obtain ⟨v1, v2, v3⟩ := id v
  have hm := fun i j (hij : i ≤ j) (hj : j < K) => mono_knotAt v3 hij hj
  have D2 : (2 : ℝ) ≤ D := by exact_mod_cast hD
  have hsep : ∀ i, 1 ≤ i → i < C → knotAt knots i < knotAt knots (i + D) := by
    intro i i1 i2
    rcases Nat.eq_or_lt_of_le i1 with e | lt
    · rw [← e, hfront]
      rcases Nat.lt_or_ge 2 C with c | c
      · have a := hrep 2 le_rfl c
        have := hm 2 D (by omega) (by omega)
        have := hm 1 2 (by omega) (by omega)
        rw [show 2 + D - 1 = 1 + D by omega] at a
        linarith
      · omega
    · have := hrep i lt i2
      have := hm (i + D - 1) (i + D) (by omega) (by omega)
      linarith
  obtain ⟨M, hM0, hM⟩ := exists_bends ps hrep
  -- a width that is small enough
  set W := min 1 (e / (M + 1)) with hWd
  have W0 : 0 < W := lt_min one_pos (div_pos he (by linarith))
  have W1 : W ≤ 1 := min_le_left _ _
  have W2 : W * (M + 1) ≤ e := by
    have := min_le_right 1 (e / (M + 1))
    rw [← hWd, le_div_iff₀ (by linarith)] at this
    exact this
  have small : M * W ^ 2 / (8 * (D - 1)) ≤ e := by
    rw [div_le_iff₀ (by linarith)]
    have a1 : M * W ^ 2 ≤ e := by nlinarith
    nlinarith
  obtain ⟨K', C', knots', ps', r, hW⟩ := C152_refine v ps hD hsep hfront hend W0
  obtain ⟨A, B⟩ := C152_repaired h hD hsep hM0 hM hend r hW
  refine ⟨K', C', knots', ps', r, fun t h1 h2 => ?_, fun i hi l l0 l1 => ?_⟩
  · obtain ⟨p, hp, i, hi, d, hd, hd'⟩ := A t h1 h2
    exact ⟨p, hp, i, hi, d, hd, hd'.trans small⟩
  · obtain ⟨t, p, h1, h2, hp, hd⟩ := B hfront i hi l l0 l1
    exact ⟨t, p, h1, h2, hp, hd.trans small⟩

/-- A point with the coordinates of the spline is near the refined polygon. -/
theorem refined_near (v : ValidSpline C D knots) (hD : 2 ≤ D)
    (hsep : ∀ i, 1 ≤ i → i < C → knotAt knots i < knotAt knots (i + D)) {M W : ℝ} (hM0 : 0 ≤ M)
    (hM : BendsAtMost D knots ps M) {K' C' : ℕ} {knots' : Arr ℝ K'} {ps' : Arr P C'}
    (r : Refines D knots ps knots' ps') (hW : KnotsWithin C' D knots' W) {t : ℝ} (h1 : knotAt knots D ≤ t)
    (h2 : t < knotAt knots C) {p : P} (hp : ∀ c, coord p c = splineCoord D knots ps t c) :
    ∃ (i : ℕ) (hi : i + 1 < C'),
      NearSegment (ps' ⟨i, by omega⟩) (ps' ⟨i + 1, hi⟩) p (M * W ^ 2 / (8 * (D - 1))) := by
  obtain ⟨w, s, f, l, e⟩ := r.keeps v hD hsep
  have h1' : knotAt knots' D ≤ t := by rw [f D le_rfl]; exact h1
  have h2' : t < knotAt knots' C' := by
    have := l 0 (by omega)
    rw [show C' + 0 = C' from rfl, show C + 0 = C from rfl] at this
    rw [this]
    exact h2
  obtain ⟨i, x, hi, x0, x1, ht⟩ := exists_leg w (by omega) h1' h2'.le
  refine ⟨i, hi, nearSegment_of_chord ⟨x0, x1⟩ ?_⟩
  have := polygon_legSum w hD s hM0 (r.bends v hD hsep hM0 hM) h1' (.inl h2') hi ht
    (isLegSum_of_spline w h1' h2' fun c => (hp c).trans (e t c).symm)
  rw [extend_lt ps' (by omega : i < C'), extend_lt ps' hi] at this
  exact this.trans (polygon_bound w hD hM0 hW x0 x1 hi)

/-- **C152** with the calls of this version: the points of the detour of C136. -/
theorem C152_detour (v : ValidSpline C D knots) (hc : FrontClamped D knots ∨ BackClamped D knots)
    (ps : Arr P C) (hD : 2 ≤ D) (hsep : ∀ i, 1 ≤ i → i < C → knotAt knots i < knotAt knots (i + D))
    {M W : ℝ} (hM0 : 0 ≤ M) (hM : BendsAtMost D knots ps M) {K' C' : ℕ} {knots' : Arr ℝ K'} {ps' : Arr P C'}
    (r : Refines D knots ps knots' ps') (hW : KnotsWithin C' D knots' W) {t : ℝ} {k : ℕ}
    (hDk : D ≤ k) (hkC : k < C) (k1 : knotAt knots k ≤ t) (k2 : t < knotAt knots (k + 1))
    (heps : ∀ i : Fin K, knots i < t → eps ≤ t - knots i) :
    ∃ (b : BSpline ℝ P K C D) (q : P),
      BSpline.new knots (fun i => ps i - ps ⟨k, hkC⟩) = .ok b ∧ b.eval t = .ok q ∧
      ∃ (i : ℕ) (hi : i + 1 < C'), NearSegment (ps' ⟨i, by omega⟩) (ps' ⟨i + 1, hi⟩) (q + ps ⟨k, hkC⟩)
        (M * W ^ 2 / (8 * (D - 1))) := by
  obtain ⟨v1, v2, v3⟩ := id v
  have hm := fun i j (hij : i ≤ j) (hj : j < K) => mono_knotAt v3 hij hj
  obtain ⟨b, q, hb, hq, hqc⟩ := C136_bspline v hc ps hDk hkC k1 k2 heps
  exact ⟨b, q, hb, hq, refined_near v hD hsep hM0 hM r hW ((hm D k hDk (by omega)).trans k1)
    (k2.trans_le (hm (k + 1) C hkC (by omega))) hqc⟩

/-- **C152**, the part that holds of `eval` itself: refine the polygon with the origin in place of the last
control point of the span. -/
theorem C152_partial (h : BSpline.new knots ps = .ok b) (hc : FrontClamped D knots ∨ BackClamped D knots)
    (hD : 2 ≤ D) (hsep : ∀ i, 1 ≤ i → i < C → knotAt knots i < knotAt knots (i + D)) {M W : ℝ}
    (hM0 : 0 ≤ M) {t : ℝ} {k : ℕ} (hDk : D ≤ k) (hkC : k < C)
    (hM : BendsAtMost D knots (fun i : Fin C => if i.val = k then Point.default else ps i) M)
    {K' C' : ℕ} {knots' : Arr ℝ K'} {ps' : Arr P C'}
    (r : Refines D knots (fun i : Fin C => if i.val = k then Point.default else ps i) knots' ps')
    (hW : KnotsWithin C' D knots' W)
    (k1 : knotAt knots k ≤ t) (k2 : t < knotAt knots (k + 1))
    (heps : ∀ i : Fin K, knots i < t → eps ≤ t - knots i) :
    ∃ q, b.eval t = .ok q ∧ ∃ (i : ℕ) (hi : i + 1 < C'),
      NearSegment (ps' ⟨i, by omega⟩) (ps' ⟨i + 1, hi⟩) q (M * W ^ 2 / (8 * (D - 1))) := by
  have v := ((new_ok_iff _ _ _).1 h).1
  obtain ⟨v1, v2, v3⟩ := id v
  have hm := fun i j (hij : i ≤ j) (hj : j < K) => mono_knotAt v3 hij hj
  obtain ⟨q, hq, hqs⟩ := isLegSum_eval h hc hDk hkC k1 k2 heps
  have h1 := (hm D k hDk (by omega)).trans k1
  have h2 := k2.trans_le (hm (k + 1) C hkC (by omega))
  obtain ⟨b0, hb0⟩ := (C43_accepts (D := D) knots
    (fun i : Fin C => if i.val = k then Point.default else ps i)).2 v
  obtain ⟨p0, hp0, ec⟩ := C121_bspline hb0 h1 h2
  have hl := isLegSum_fixed hb0 h1 h2.le hp0
  exact ⟨q, hq, refined_near v hD hsep hM0 hM r hW h1 h2 fun c => by rw [hqs c, ← hl c, ec c]⟩

/-- A polygon that is one point stays one point. -/
theorem Refines.point {x : P} {K' C' : ℕ} {knots' : Arr ℝ K'} {ps' : Arr P C'}
    (h : Refines D knots (fun _ : Fin C => x) knots' ps') (i : Fin C') : ps' i = x := by
  induction h with
  | refl => rfl
  | @insert K' C' knots' ps' k ξ r hDk hkC h1 h2 ih =>
    apply point_ext
    intro c
    rw [coord_inserted, insertValue]
    rcases Nat.lt_or_ge i.val C' with a | a
    · rw [extend_lt ps' a, extend_lt ps' (by omega : i.val - 1 < C'), ih, ih]
      ring
    · rw [insertWeight_zero (by omega), extend_lt ps' (by have := i.isLt; omega : i.val - 1 < C'), ih]
      ring

end Splines

/-- **C152** is false of the code: all control points are 1 and stay 1 however many knots are inserted,
but at 1/2 `eval` returns a point 1/8 away. -/
theorem C152_false : ∃ (b : BSpline ℝ (PointN ℝ 1) 7 4 2) (q : PointN ℝ 1),
    BSpline.new ![0, 0, 0, 1, 2, 2, 2] (fun _ => p1 1) = .ok b ∧
    BendsAtMost 2 (![0, 0, 0, 1, 2, 2, 2] : Fin 7 → ℝ) (fun _ : Fin 4 => p1 1) 0 ∧
    b.eval (1 / 2 : ℝ) = .ok q ∧
    ∀ (K' C' : ℕ) (knots' : Arr ℝ K') (ps' : Arr (PointN ℝ 1) C'),
      Refines 2 (![0, 0, 0, 1, 2, 2, 2] : Fin 7 → ℝ) (fun _ : Fin 4 => p1 1) knots' ps' →
      ∀ (i : ℕ) (hi : i + 1 < C') (e : ℝ), NearSegment (ps' ⟨i, by omega⟩) (ps' ⟨i + 1, hi⟩) q e →
        1 / 8 ≤ e := by
  obtain ⟨b, hb⟩ := (C43_accepts (D := 2) _ (fun _ : Fin 4 => p1 1)).2 valid_0001222
  have e4 := eps_le_quarter
  obtain ⟨r, hr, rc⟩ := C48_partial hb (.inl front_0001222) (t := 1 / 2) (k := 2) le_rfl (by norm_num)
    (by simp [knotAt]) (by simp [knotAt]; norm_num) fun i => by
      fin_cases i <;> simp <;> intros <;> linarith
  have r0 : coord r 0 = 7 / 8 := by
    rw [rc]
    norm_num [splineCoord, Fin.sum_univ_four, coxDeBoor, knotAt, coord_p1]
  refine ⟨b, r, hb, fun i hi => ?_, hr, fun K' C' knots' ps' ref i hi e he => ?_⟩
  · rw [zero_mul]
    refine le_of_eq ?_
    refine mul_eq_zero_of_right _ ?_
    rw [pdist, Real.sqrt_eq_zero']
    refine Finset.sum_nonpos fun c _ => ?_
    rw [coord_mul, coord_mul, coord_sub]
    simp
  · rw [ref.point, ref.point] at he
    obtain ⟨d, ⟨x, x0, x1, hx⟩, hd⟩ := he
    refine le_trans ?_ hd
    rw [hx]
    refine Real.le_sqrt_of_sq_le ?_
    change _ ≤ ∑ c ∈ Finset.range 1, _
    rw [Finset.sum_range_one, r0, coord_p1]
    ring_nf
    norm_num

theorem simple_0001222 (i : ℕ) (h1 : 2 ≤ i) (h2 : i < 4) :
    knotAt (![0, 0, 0, 1, 2, 2, 2] : Fin 7 → ℝ) i < knotAt (![0, 0, 0, 1, 2, 2, 2] : Fin 7 → ℝ) (i + 2 - 1) := by
  interval_cases i <;> norm_num [knotAt]

/-- The hypotheses of `C152_repaired_converges` are met by the spline with knots 0 0 0 1 2 2 2. -/
example (ps : Arr (PointN ℝ 2) 4) {e : ℝ} (he : 0 < e) : ∃ b : BSpline ℝ (PointN ℝ 2) 7 4 2,
    BSpline.new ![0, 0, 0, 1, 2, 2, 2] ps = .ok b ∧
    ∃ (K' C' : ℕ) (knots' : Arr ℝ K') (ps' : Arr (PointN ℝ 2) C'),
      Refines 2 (![0, 0, 0, 1, 2, 2, 2] : Fin 7 → ℝ) ps knots' ps' ∧
      ∀ t, 0 ≤ t → t ≤ 2 → ∃ p, b.evalFixed t = .ok p ∧
        ∃ (i : ℕ) (hi : i + 1 < C'), NearSegment (ps' ⟨i, by omega⟩) (ps' ⟨i + 1, hi⟩) p e := by
  obtain ⟨b, hb⟩ := (C43_accepts (D := 2) _ ps).2 valid_0001222
  obtain ⟨K', C', knots', ps', r, A, -⟩ := C152_repaired_converges hb le_rfl simple_0001222
    (by simp [knotAt]) (by simp [knotAt]) he
  exact ⟨b, hb, K', C', knots', ps', r, fun t h1 h2 => A t (by simpa [knotAt] using h1)
    (by simpa [knotAt] using h2)⟩

/-- And those of the other theorems: after inserting 1/2 any two consecutive inner knots are within 1. -/
example (ps : Arr (PointN ℝ 2) 4) :
    ValidSpline 4 2 (![0, 0, 0, 1, 2, 2, 2] : Fin 7 → ℝ) ∧ FrontClamped 2 (![0, 0, 0, 1, 2, 2, 2] : Fin 7 → ℝ) ∧
    (∃ M, 0 ≤ M ∧ BendsAtMost 2 (![0, 0, 0, 1, 2, 2, 2] : Fin 7 → ℝ) ps M) ∧
    Refines 2 (![0, 0, 0, 1, 2, 2, 2] : Fin 7 → ℝ) ps
      (insertedKnots (![0, 0, 0, 1, 2, 2, 2] : Fin 7 → ℝ) 2 (1 / 2))
      (insertedPoints 2 (![0, 0, 0, 1, 2, 2, 2] : Fin 7 → ℝ) ps 2 (1 / 2)) ∧
    KnotsWithin 5 2 (insertedKnots (![0, 0, 0, 1, 2, 2, 2] : Fin 7 → ℝ) 2 (1 / 2)) 1 := by
  refine ⟨valid_0001222, front_0001222, exists_bends ps simple_0001222,
    Refines.refl.insert le_rfl (by norm_num) (by simp [knotAt]) (by norm_num [knotAt]), fun i hi => ?_⟩
  rw [knotAt_inserted _ _ (by omega), knotAt_inserted _ _ (by omega)]
  interval_cases i <;> norm_num [knotAt, insertKnot]

end Stroke
