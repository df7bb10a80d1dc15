import Verif.Props.BSplineMonotone
import Verif.Props.Variation

/-!
# Knot insertion for B-splines (C146)
-/

set_option linter.unusedSectionVars false

namespace Stroke

/-- The knots with `ξ` inserted after knot `k`. -/
def insertKnot (u : ℕ → ℝ) (k : ℕ) (ξ : ℝ) (j : ℕ) : ℝ :=
  if j ≤ k then u j else if j = k + 1 then ξ else u (j - 1)

/-- Boehm's weight: new control point `i` is `α_i P_i + (1 - α_i) P_{i-1}`. -/
noncomputable def insertWeight (u : ℕ → ℝ) (k : ℕ) (ξ : ℝ) (D i : ℕ) : ℝ :=
  if i + D ≤ k then 1 else if k < i then 0 else (ξ - u i) / (u (i + D) - u i)

section Insert
variable {u : ℕ → ℝ} {K k : ℕ} {ξ : ℝ}

theorem insertKnot_le {j : ℕ} (h : j ≤ k) : insertKnot u k ξ j = u j := if_pos h

theorem insertKnot_new : insertKnot u k ξ (k + 1) = ξ := by simp [insertKnot]

theorem insertKnot_gt {j : ℕ} (h : k < j) : insertKnot u k ξ (j + 1) = u j := by
  unfold insertKnot
  rw [if_neg (by omega), if_neg (by omega), Nat.add_sub_cancel]

theorem insertKnot_mono (hm : ∀ i j, i ≤ j → j < K → u i ≤ u j) (hk : k + 1 < K) (h1 : u k ≤ ξ)
    (h2 : ξ ≤ u (k + 1)) :
    ∀ i j, i ≤ j → j < K + 1 → insertKnot u k ξ i ≤ insertKnot u k ξ j := by
  intro i j hij hj
  unfold insertKnot
  split_ifs with a b c d e f g
  · exact hm i j hij (by omega)
  · exact (hm i k a (by omega)).trans h1
  · exact hm i (j - 1) (by omega) (by omega)
  · omega
  · rfl
  · exact h2.trans (hm (k + 1) (j - 1) (by omega) (by omega))
  · omega
  · omega
  · exact hm (i - 1) (j - 1) (by omega) (by omega)

theorem insertWeight_one {D i : ℕ} (h : i + D ≤ k) : insertWeight u k ξ D i = 1 := if_pos h

theorem insertWeight_zero {D i : ℕ} (h : k < i) : insertWeight u k ξ D i = 0 := by
  unfold insertWeight
  rw [if_neg (by omega), if_pos h]

theorem insertWeight_mid {D i : ℕ} (h : i ≤ k) (h' : k < i + D) :
    insertWeight u k ξ D i = (ξ - u i) / (u (i + D) - u i) := by
  unfold insertWeight
  rw [if_neg (by omega), if_neg (by omega)]

/-- Inserting a knot: each basis function is a combination of two new ones. -/
theorem coxDeBoor_insert (hm : ∀ i j, i ≤ j → j < K → u i ≤ u j) (h1 : u k ≤ ξ) (h2 : ξ < u (k + 1))
    (t : ℝ) : ∀ d i, i + d + 1 < K → k + 1 < K →
    coxDeBoor u d i t = insertWeight u k ξ d i * coxDeBoor (insertKnot u k ξ) d i t
      + (1 - insertWeight u k ξ d (i + 1)) * coxDeBoor (insertKnot u k ξ) d (i + 1) t := by
  intro d
  induction d with
  | zero =>
    intro i hi hk
    simp only [coxDeBoor]
    rcases lt_trichotomy i k with h | h | h
    · rw [insertWeight_one (show i + 0 ≤ k from h.le), insertWeight_one (show i + 1 + 0 ≤ k from h), insertKnot_le h.le, insertKnot_le h]
      simp
    · subst h
      rw [insertWeight_one (show i + 0 ≤ i from le_rfl), insertWeight_zero (by omega), insertKnot_le le_rfl, insertKnot_new,
        insertKnot_gt (Nat.lt_succ_self i)]
      by_cases a : t < ξ
      · have : t < u (i + 1) := a.trans h2
        simp [a, this, not_le.2 a]
      · have b : ξ ≤ t := not_lt.1 a
        simp [a, b, h1.trans b]
    · rw [insertWeight_zero h, insertWeight_zero (by omega), insertKnot_gt h,
        insertKnot_gt (by omega)]
      simp
  | succ d ih =>
    intro i hi hk
    have hm' := insertKnot_mono (ξ := ξ) hm hk h1 h2.le
    have z : ∀ j, j + d + 1 < K + 1 → insertKnot u k ξ (j + d + 1) = insertKnot u k ξ j →
        coxDeBoor (insertKnot u k ξ) d j t = 0 := by
      intro j hj e
      refine coxDeBoor_support hm' d j hj fun hs => ?_
      rw [e] at hs
      exact absurd hs.2 (not_lt.2 hs.1)
    have gt : ∀ j, k < j → j < K → ξ < u j := fun j hj hjK => h2.trans_le (hm (k + 1) j hj hjK)
    have le : ∀ j, j ≤ k → u j ≤ ξ := fun j hj => (hm j k hj (by omega)).trans h1
    have hA : (t - u i) * (u (i + d + 1) - u i)⁻¹ * insertWeight u k ξ d i
          * coxDeBoor (insertKnot u k ξ) d i t
        = insertWeight u k ξ (d + 1) i * ((t - insertKnot u k ξ i)
          * (insertKnot u k ξ (i + d + 1) - insertKnot u k ξ i)⁻¹)
          * coxDeBoor (insertKnot u k ξ) d i t := by
      have zi := z i (by omega)
      rcases Nat.lt_or_ge k i with c | c
      · rw [insertWeight_zero c, insertWeight_zero c]
        ring
      rcases Nat.lt_or_ge k (i + d + 1) with c' | c'
      · have b1 := gt (i + d + 1) c' (by omega)
        have b2 := le i c
        rw [insertWeight_mid (D := d + 1) c (by omega)]
        rcases Nat.lt_or_ge k (i + d) with e | e
        · have b3 := gt (i + d) e (by omega)
          rw [insertWeight_mid c e, insertKnot_le c, insertKnot_gt e, ← Nat.add_assoc]
          have n1 : u (i + d + 1) - u i ≠ 0 := by linarith
          have n2 : u (i + d) - u i ≠ 0 := by linarith
          field_simp
        · have ek : i + d = k := by omega
          rw [insertWeight_one e]
          rw [insertKnot_le c, show i + d + 1 = k + 1 by omega, insertKnot_new] at zi ⊢
          rw [show i + (d + 1) = k + 1 by omega]
          by_cases hx : ξ = u i
          · rw [zi hx]
            ring
          · have n1 : u (k + 1) - u i ≠ 0 := by
              rw [show i + d + 1 = k + 1 by omega] at b1
              linarith
            have n2 : ξ - u i ≠ 0 := sub_ne_zero.2 hx
            field_simp
      · rw [insertWeight_one (by omega), insertWeight_one (by omega), insertKnot_le c, insertKnot_le c']
        ring
    have hC : (u (i + d + 2) - t) * (u (i + d + 2) - u (i + 1))⁻¹ * (1 - insertWeight u k ξ d (i + 2))
          * coxDeBoor (insertKnot u k ξ) d (i + 2) t
        = (1 - insertWeight u k ξ (d + 1) (i + 1)) * ((insertKnot u k ξ (i + d + 3) - t)
          * (insertKnot u k ξ (i + d + 3) - insertKnot u k ξ (i + 2))⁻¹)
          * coxDeBoor (insertKnot u k ξ) d (i + 2) t := by
      congr 1
      rcases Nat.lt_or_ge k (i + 1) with c | c
      · rw [insertWeight_zero (by omega), insertWeight_zero (by omega),
          insertKnot_gt (show k < i + d + 2 by omega), insertKnot_gt (show k < i + 1 by omega)]
        ring
      rcases Nat.lt_or_ge k (i + d + 2) with c' | c'
      · have b1 := gt (i + d + 2) c' (by omega)
        have b2 := le (i + 1) c
        rw [insertWeight_mid (D := d + 1) c (by omega), insertKnot_gt (show k < i + d + 2 by omega),
          show i + 1 + (d + 1) = i + d + 2 by omega]
        have n1 : u (i + d + 2) - u (i + 1) ≠ 0 := by linarith
        rcases Nat.lt_or_ge k (i + 2) with e | e
        · rw [insertWeight_zero e, show i + 2 = k + 1 by omega, insertKnot_new]
          have n2 : u (i + d + 2) - ξ ≠ 0 := by linarith
          field_simp
          ring
        · have b3 := le (i + 2) e
          rw [insertWeight_mid e (by omega), insertKnot_le e, show i + 2 + d = i + d + 2 by omega]
          have n2 : u (i + d + 2) - u (i + 2) ≠ 0 := by linarith
          field_simp
          ring
      · rw [insertWeight_one (by omega), insertWeight_one (by omega)]
        ring
    have hB : ((t - u i) * (u (i + d + 1) - u i)⁻¹ * (1 - insertWeight u k ξ d (i + 1))
          + (u (i + d + 2) - t) * (u (i + d + 2) - u (i + 1))⁻¹ * insertWeight u k ξ d (i + 1))
          * coxDeBoor (insertKnot u k ξ) d (i + 1) t
        = (insertWeight u k ξ (d + 1) i * ((insertKnot u k ξ (i + d + 2) - t)
            * (insertKnot u k ξ (i + d + 2) - insertKnot u k ξ (i + 1))⁻¹)
          + (1 - insertWeight u k ξ (d + 1) (i + 1)) * ((t - insertKnot u k ξ (i + 1))
            * (insertKnot u k ξ (i + d + 2) - insertKnot u k ξ (i + 1))⁻¹))
          * coxDeBoor (insertKnot u k ξ) d (i + 1) t := by
      have zi := z (i + 1) (by omega)
      rw [show i + 1 + d + 1 = i + d + 2 by omega] at zi
      have e1 : i + 1 + d = i + d + 1 := by omega
      have e2 : i + 1 + (d + 1) = i + d + 2 := by omega
      have e3 : i + (d + 1) = i + d + 1 := by omega
      by_cases c1 : i + d + 2 ≤ k
      · rw [insertWeight_one (D := d) (i := i + 1) (by omega),
          insertWeight_one (D := d + 1) (i := i) (by omega),
          insertWeight_one (D := d + 1) (i := i + 1) (by omega), insertKnot_le c1, insertKnot_le (by omega)]
        ring
      by_cases c2 : i + d + 1 = k
      · rw [insertWeight_one (D := d) (i := i + 1) (by omega),
          insertWeight_one (D := d + 1) (i := i) (by omega),
          insertWeight_mid (D := d + 1) (i := i + 1) (by omega) (by omega), e2]
        have b1 := gt (i + d + 2) (by omega) (by omega)
        have b2 := le (i + 1) (by omega)
        have e4 : insertKnot u k ξ (i + d + 2) = ξ := by
          rw [show i + d + 2 = k + 1 by omega]; exact insertKnot_new
        rw [e4, insertKnot_le (by omega : i + 1 ≤ k)] at zi ⊢
        by_cases hx : ξ = u (i + 1)
        · rw [zi hx]
          ring
        · have n1 : u (i + d + 2) - u (i + 1) ≠ 0 := by linarith
          have n2 : ξ - u (i + 1) ≠ 0 := sub_ne_zero.2 hx
          congr 1
          field_simp
          ring
      by_cases c3 : k < i
      · rw [insertWeight_zero (D := d) (i := i + 1) (by omega),
          insertWeight_zero (D := d + 1) (i := i) (by omega),
          insertWeight_zero (D := d + 1) (i := i + 1) (by omega),
          insertKnot_gt (by omega : k < i + d + 1), insertKnot_gt c3]
        ring
      by_cases c4 : i = k
      · subst c4
        have b1 := gt (i + d + 1) (by omega) (by omega)
        rw [insertWeight_zero (D := d) (i := i + 1) (by omega),
          insertWeight_mid (D := d + 1) (i := i) (by omega) (by omega),
          insertWeight_zero (D := d + 1) (i := i + 1) (by omega),
          insertKnot_gt (by omega : i < i + d + 1), insertKnot_new, e3]
        have n1 : u (i + d + 1) - u i ≠ 0 := by linarith
        have n2 : u (i + d + 1) - ξ ≠ 0 := by linarith
        congr 1
        field_simp
        ring
      · have b1 := gt (i + d + 1) (by omega) (by omega)
        have b2 := gt (i + d + 2) (by omega) (by omega)
        have b3 := le i (by omega)
        have b4 := le (i + 1) (by omega)
        rw [insertWeight_mid (D := d) (i := i + 1) (by omega) (by omega),
          insertWeight_mid (D := d + 1) (i := i) (by omega) (by omega),
          insertWeight_mid (D := d + 1) (i := i + 1) (by omega) (by omega),
          insertKnot_gt (by omega : k < i + d + 1), insertKnot_le (by omega : i + 1 ≤ k), e1, e2, e3]
        have n1 : u (i + d + 1) - u i ≠ 0 := by linarith
        have n2 : u (i + d + 1) - u (i + 1) ≠ 0 := by linarith
        have n3 : u (i + d + 2) - u (i + 1) ≠ 0 := by linarith
        congr 1
        field_simp
        ring
    rw [coxDeBoor_succ, coxDeBoor_succ, coxDeBoor_succ, ih i (by omega) hk, ih (i + 1) (by omega) hk]
    rw [show i + 1 + d + 1 = i + d + 2 by omega, show i + 1 + d + 2 = i + d + 3 by omega,
      show i + 1 + 1 = i + 2 by omega]
    linear_combination hA + hB + hC

/-- The values at the new control points. -/
noncomputable def insertValue (u : ℕ → ℝ) (k : ℕ) (ξ : ℝ) (D : ℕ) (y : ℕ → ℝ) (j : ℕ) : ℝ :=
  insertWeight u k ξ D j * y j + (1 - insertWeight u k ξ D j) * y (j - 1)

/-- Inserting a knot does not change the sum. -/
theorem sum_insert {C D : ℕ} (hm : ∀ i j, i ≤ j → j < K → u i ≤ u j) (hK : K = C + D + 1)
    (hDk : D ≤ k) (hkC : k < C) (h1 : u k ≤ ξ) (h2 : ξ < u (k + 1)) (y : ℕ → ℝ) (t : ℝ) :
    ∑ i ∈ Finset.range C, coxDeBoor u D i t * y i
      = ∑ j ∈ Finset.range (C + 1), coxDeBoor (insertKnot u k ξ) D j t * insertValue u k ξ D y j := by
  have e : ∀ i ∈ Finset.range C, coxDeBoor u D i t * y i
      = coxDeBoor (insertKnot u k ξ) D i t * (insertWeight u k ξ D i * y i)
        + coxDeBoor (insertKnot u k ξ) D (i + 1) t * ((1 - insertWeight u k ξ D (i + 1)) * y i) := by
    intro i hi
    have hi := Finset.mem_range.1 hi
    rw [coxDeBoor_insert hm h1 h2 t D i (by omega) (by omega)]
    ring
  rw [Finset.sum_congr rfl e, Finset.sum_add_distrib]
  simp only [insertValue, mul_add, Finset.sum_add_distrib]
  congr 1
  · rw [Finset.sum_range_succ, insertWeight_zero hkC]
    ring
  · rw [Finset.sum_range_succ', insertWeight_one (show 0 + D ≤ k by omega)]
    simp

end Insert

section Splines
variable {P : Type} [Point ℝ P] [LawfulPoint P] {K C D : ℕ} {knots : Arr ℝ K} {ps : Arr P C}
  {b : BSpline ℝ P K C D}

/-- The knot vector with `ξ` inserted after knot `k`. -/
noncomputable def insertedKnots (knots : Arr ℝ K) (k : ℕ) (ξ : ℝ) : Arr ℝ (K + 1) :=
  fun j => insertKnot (knotAt knots) k ξ j.val

/-- The control points for it: `α_j P_j + (1 - α_j) P_{j-1}`. -/
noncomputable def insertedPoints (D : ℕ) (knots : Arr ℝ K) (ps : Arr P C) (k : ℕ) (ξ : ℝ) :
    Arr P (C + 1) := fun j =>
  extend ps j.val * insertWeight (knotAt knots) k ξ D j.val
    + extend ps (j.val - 1) * (1 - insertWeight (knotAt knots) k ξ D j.val)

theorem knotAt_inserted (k : ℕ) (ξ : ℝ) {i : ℕ} (h : i < K + 1) :
    knotAt (insertedKnots knots k ξ) i = insertKnot (knotAt knots) k ξ i := by
  rw [knotAt_lt _ h]
  rfl

theorem valid_inserted (v : ValidSpline C D knots) {k : ℕ} (hkC : k < C) {ξ : ℝ}
    (h1 : knotAt knots k ≤ ξ) (h2 : ξ ≤ knotAt knots (k + 1)) :
    ValidSpline (C + 1) D (insertedKnots knots k ξ) := by
  obtain ⟨v1, v2, v3⟩ := v
  refine ⟨by omega, by omega, fun i j hij => ?_⟩
  exact insertKnot_mono (K := K) (fun i j hij hj => mono_knotAt v3 hij hj) (by omega) h1 h2 i j hij j.isLt

theorem coord_inserted (k : ℕ) (ξ : ℝ) (c : ℕ) (j : Fin (C + 1)) :
    coord (insertedPoints D knots ps k ξ j) c
      = insertValue (knotAt knots) k ξ D (fun i => coord (extend ps i) c) j.val := by
  unfold insertedPoints insertValue
  rw [coord_add, coord_mul, coord_mul]
  ring

theorem splineCoord_extend (t : ℝ) (c : ℕ) : splineCoord D knots ps t c
    = ∑ i ∈ Finset.range C, coxDeBoor (knotAt knots) D i t * coord (extend ps i) c := by
  rw [splineCoord, ← Fin.sum_univ_eq_sum_range (fun i => coxDeBoor (knotAt knots) D i t
    * coord (extend ps i) c) C]
  exact Finset.sum_congr rfl fun i _ => by rw [extend_lt ps i.isLt]

/-- Inserting a knot does not change the spline. -/
theorem splineCoord_inserted (v : ValidSpline C D knots) {k : ℕ} (hDk : D ≤ k) (hkC : k < C) {ξ : ℝ}
    (h1 : knotAt knots k ≤ ξ) (h2 : ξ < knotAt knots (k + 1)) (t : ℝ) (c : ℕ) :
    splineCoord D (insertedKnots knots k ξ) (insertedPoints D knots ps k ξ) t c
      = splineCoord D knots ps t c := by
  obtain ⟨v1, v2, v3⟩ := id v
  have hm := fun i j (hij : i ≤ j) (hj : j < K) => mono_knotAt v3 hij hj
  rw [splineCoord_extend (ps := ps), sum_insert hm v2 hDk hkC h1 h2, splineCoord,
    ← Fin.sum_univ_eq_sum_range (fun j => coxDeBoor (insertKnot (knotAt knots) k ξ) D j t
      * insertValue (knotAt knots) k ξ D (fun i => coord (extend ps i) c) j) (C + 1)]
  refine Finset.sum_congr rfl fun j _ => ?_
  rw [coord_inserted, coxDeBoor_congr (K := K + 1) (fun i hi => knotAt_inserted k ξ hi) D j.val
    (by have := j.isLt; omega)]

theorem insertedPoints_last {k : ℕ} (hkC : k < C) (ξ : ℝ) :
    insertedPoints D knots ps k ξ ⟨C, by omega⟩ = ps ⟨C - 1, by omega⟩ := by
  apply point_ext
  intro c
  rw [coord_inserted, insertValue, insertWeight_zero hkC, extend_lt ps (by omega : C - 1 < C)]
  ring

theorem clamped_inserted (v : ValidSpline C D knots) {k : ℕ} (hDk : D ≤ k) (hkC : k < C) {ξ : ℝ}
    (hc : FrontClamped D knots ∨ BackClamped D knots) :
    FrontClamped D (insertedKnots knots k ξ) ∨ BackClamped D (insertedKnots knots k ξ) := by
  obtain ⟨v1, v2, v3⟩ := v
  refine hc.imp (fun hf i hi => ?_) fun hf i hi => ?_
  · have := hf ⟨i.val, by omega⟩ hi
    rw [← knotAt_lt knots (by omega)] at this
    rw [← knotAt_lt (insertedKnots knots k ξ) i.isLt, knotAt_inserted _ _ (by omega),
      knotAt_inserted _ _ (by omega), insertKnot_le (by omega), insertKnot_le (by omega)]
    exact this
  · obtain ⟨j, hj⟩ : ∃ j, i.val = j + 1 := ⟨i.val - 1, by omega⟩
    have hi' := i.isLt
    have := hf ⟨j, by omega⟩ (by simp only; omega)
    rw [← knotAt_lt knots (by omega)] at this
    rw [← knotAt_lt (insertedKnots knots k ξ) i.isLt, knotAt_inserted _ _ (by omega),
      knotAt_inserted _ _ (by omega), hj, insertKnot_gt (by omega),
      show K + 1 - 1 = K - 1 + 1 by omega, insertKnot_gt (by omega)]
    exact this

theorem eps_inserted (v : ValidSpline C D knots) {k : ℕ} (hkC : k < C) {ξ t : ℝ}
    (ht : ∀ i : Fin K, knots i < t → eps ≤ t - knots i) (htξ : ξ < t → eps ≤ t - ξ) :
    ∀ i : Fin (K + 1), insertedKnots knots k ξ i < t → eps ≤ t - insertedKnots knots k ξ i := by
  obtain ⟨v1, v2, v3⟩ := v
  intro i
  have hi := i.isLt
  unfold insertedKnots insertKnot
  split_ifs with a b
  · rw [knotAt_lt knots (by omega)]
    exact ht _
  · exact htξ
  · rw [knotAt_lt knots (by omega)]
    exact ht _

/-- **C146** for the repaired program: inserting a knot and blending the control points does not
change the curve. -/
theorem C146_repaired (h : BSpline.new knots ps = .ok b) {k : ℕ} (hDk : D ≤ k) (hkC : k < C) {ξ : ℝ}
    (h1 : knotAt knots k ≤ ξ) (h2 : ξ < knotAt knots (k + 1)) :
    ∃ b' : BSpline ℝ P (K + 1) (C + 1) D,
      BSpline.new (insertedKnots knots k ξ) (insertedPoints D knots ps k ξ) = .ok b' ∧
      ∀ t, knotAt knots D ≤ t → t ≤ knotAt knots C → ∃ q, b.evalFixed t = .ok q ∧ b'.evalFixed t = .ok q := by
  have v := ((new_ok_iff _ _ _).1 h).1
  have v' := valid_inserted v hkC h1 h2.le
  obtain ⟨v1, v2, v3⟩ := id v
  obtain ⟨b', hb'⟩ := (C43_accepts (D := D) (insertedKnots knots k ξ) (insertedPoints D knots ps k ξ)).2 v'
  refine ⟨b', hb', fun t t1 t2 => ?_⟩
  have eD : knotAt (insertedKnots knots k ξ) D = knotAt knots D := by
    rw [knotAt_inserted _ _ (by omega), insertKnot_le hDk]
  have eC : knotAt (insertedKnots knots k ξ) (C + 1) = knotAt knots C := by
    rw [knotAt_inserted _ _ (by omega), insertKnot_gt hkC]
  rcases eq_or_lt_of_le t2 with e | l
  · refine ⟨_, by rw [e]; exact C121_bspline_end h, ?_⟩
    have := C121_bspline_end hb'
    rw [eC] at this
    rw [e, this]
    exact congrArg _ (insertedPoints_last hkC ξ)
  · obtain ⟨q, hq, hc⟩ := C121_bspline h t1 l
    obtain ⟨q', hq', hc'⟩ := C121_bspline hb' (eD.trans_le t1) (l.trans_eq eC.symm)
    refine ⟨q, hq, ?_⟩
    rw [hq']
    congr 1
    exact point_ext fun c => by rw [hc', hc, splineCoord_inserted v hDk hkC h1 h2]

/-- **C146** with the calls of this version: the detour of C136 returns the same point for both. -/
theorem C146_detour (v : ValidSpline C D knots) (hc : FrontClamped D knots ∨ BackClamped D knots)
    (ps : Arr P C) {k : ℕ} (hDk : D ≤ k) (hkC : k < C) {ξ : ℝ}
    (h1 : knotAt knots k ≤ ξ) (h2 : ξ < knotAt knots (k + 1)) {t : ℝ}
    {m m' : ℕ} (hDm : D ≤ m) (hmC : m < C) (m1 : knotAt knots m ≤ t) (m2 : t < knotAt knots (m + 1))
    (hDm' : D ≤ m') (hmC' : m' < C + 1) (m1' : knotAt (insertedKnots knots k ξ) m' ≤ t)
    (m2' : t < knotAt (insertedKnots knots k ξ) (m' + 1))
    (ht : ∀ i : Fin K, knots i < t → eps ≤ t - knots i) (htξ : ξ < t → eps ≤ t - ξ) :
    ∃ (b : BSpline ℝ P K C D) (b' : BSpline ℝ P (K + 1) (C + 1) D) (p q : P),
      BSpline.new knots (fun i => ps i - ps ⟨m, hmC⟩) = .ok b ∧ b.eval t = .ok p ∧
      BSpline.new (insertedKnots knots k ξ) (fun i => insertedPoints D knots ps k ξ i
        - insertedPoints D knots ps k ξ ⟨m', hmC'⟩) = .ok b' ∧ b'.eval t = .ok q ∧
      p + ps ⟨m, hmC⟩ = q + insertedPoints D knots ps k ξ ⟨m', hmC'⟩ := by
  obtain ⟨b, p, hb, hp, hpc⟩ := C136_bspline v hc ps hDm hmC m1 m2 ht
  obtain ⟨b', q, hb', hq, hqc⟩ := C136_bspline (valid_inserted v hkC h1 h2.le)
    (clamped_inserted v hDk hkC hc) (insertedPoints D knots ps k ξ) hDm' hmC' m1' m2'
    (eps_inserted v hkC ht htξ)
  refine ⟨b, b', p, q, hb, hp, hb', hq, point_ext fun c => ?_⟩
  rw [hpc, hqc, splineCoord_inserted v hDk hkC h1 h2]

/-- **C146**, the part that holds of `eval` itself: after the span of the new knot, and more than `D`
spans before it. -/
theorem C146_partial (h : BSpline.new knots ps = .ok b) (hc : FrontClamped D knots ∨ BackClamped D knots)
    {k : ℕ} (hDk : D ≤ k) (hkC : k < C) {ξ : ℝ}
    (h1 : knotAt knots k ≤ ξ) (h2 : ξ < knotAt knots (k + 1)) {t : ℝ}
    {m : ℕ} (hDm : D ≤ m) (hmC : m < C) (m1 : knotAt knots m ≤ t) (m2 : t < knotAt knots (m + 1))
    (hfar : k < m ∨ m + D < k)
    (ht : ∀ i : Fin K, knots i < t → eps ≤ t - knots i) (htξ : ξ < t → eps ≤ t - ξ) :
    ∃ (b' : BSpline ℝ P (K + 1) (C + 1) D) (q : P),
      BSpline.new (insertedKnots knots k ξ) (insertedPoints D knots ps k ξ) = .ok b' ∧
      b.eval t = .ok q ∧ b'.eval t = .ok q := by
  have v := ((new_ok_iff _ _ _).1 h).1
  have v' := valid_inserted v hkC h1 h2.le
  obtain ⟨v1, v2, v3⟩ := id v
  have hm := fun i j (hij : i ≤ j) (hj : j < K) => mono_knotAt v3 hij hj
  obtain ⟨b', hb'⟩ := (C43_accepts (D := D) (insertedKnots knots k ξ) (insertedPoints D knots ps k ξ)).2 v'
  obtain ⟨q, hq, hqc⟩ := C48_partial h hc hDm hmC m1 m2 ht
  refine ⟨b', q, hb', hq, ?_⟩
  have hc' := clamped_inserted (ξ := ξ) v hDk hkC hc
  have ht' := eps_inserted v hkC ht htξ
  have hN := coxDeBoor_insert hm h1 h2 t D m (by omega) (by omega)
  have cg : ∀ j, j < C + 1 → coxDeBoor (knotAt (insertedKnots knots k ξ)) D j t
      = coxDeBoor (insertKnot (knotAt knots) k ξ) D j t := fun j hj =>
    coxDeBoor_congr (K := K + 1) (fun i hi => knotAt_inserted k ξ hi) D j (by omega) t
  rcases hfar with hf | hf
  · obtain ⟨q', hq', hqc'⟩ := C48_partial (k := m + 1) hb' hc' (by omega) (by omega)
      (by rw [knotAt_inserted _ _ (by omega), insertKnot_gt hf]; exact m1)
      (by rw [knotAt_inserted _ _ (by omega), insertKnot_gt (by omega)]; exact m2) ht'
    rw [hq']
    congr 1
    refine point_ext fun c => ?_
    rw [hqc', hqc, splineCoord_inserted v hDk hkC h1 h2, cg _ (by omega), coord_inserted, insertValue, hN,
      insertWeight_zero hf, insertWeight_zero (show k < m + 1 by omega), Nat.add_sub_cancel,
      extend_lt ps hmC]
    ring
  · obtain ⟨q', hq', hqc'⟩ := C48_partial (k := m) hb' hc' (by omega) (by omega)
      (by rw [knotAt_inserted _ _ (by omega), insertKnot_le (by omega)]; exact m1)
      (by rw [knotAt_inserted _ _ (by omega), insertKnot_le (by omega)]; exact m2) ht'
    rw [hq']
    congr 1
    refine point_ext fun c => ?_
    rw [hqc', hqc, splineCoord_inserted v hDk hkC h1 h2, cg _ (by omega), coord_inserted, insertValue, hN,
      insertWeight_one (show m + D ≤ k by omega), insertWeight_one (show m + 1 + D ≤ k by omega),
      extend_lt ps hmC]
    ring

/-- **C146** is false of the code: a knot inserted at 1/4 changes the point at 1/2, unless the last
control point is the origin. -/
theorem C146_false (a c : ℝ) (hc : c ≠ 0) :
    ∃ (b : BSpline ℝ (PointN ℝ 1) 4 2 1) (b' : BSpline ℝ (PointN ℝ 1) 5 3 1) (p q : PointN ℝ 1),
      BSpline.new ![0, 0, 1, 1] ![p1 a, p1 c] = .ok b ∧
      BSpline.new (insertedKnots ![0, 0, 1, 1] 1 (1 / 4))
        (insertedPoints 1 ![0, 0, 1, 1] ![p1 a, p1 c] 1 (1 / 4)) = .ok b' ∧
      b.eval (1 / 2 : ℝ) = .ok p ∧ b'.eval (1 / 2 : ℝ) = .ok q ∧ p ≠ q := by
  obtain ⟨b, hb, he⟩ := eval_0011 a c
  have k1 : knotAt (![0, 0, 1, 1] : Fin 4 → ℝ) 1 ≤ 1 / 4 := by simp [knotAt]
  have k2 : 1 / 4 < knotAt (![0, 0, 1, 1] : Fin 4 → ℝ) (1 + 1) := by simp [knotAt]; norm_num
  have ev := eps_le_quarter
  have v' := valid_inserted valid_0011 (by norm_num) k1 k2.le
  obtain ⟨b', hb'⟩ := (C43_accepts (D := 1) (insertedKnots ![0, 0, 1, 1] 1 (1 / 4))
    (insertedPoints 1 ![0, 0, 1, 1] ![p1 a, p1 c] 1 (1 / 4))).2 v'
  have f2 : knotAt (insertedKnots (![0, 0, 1, 1] : Fin 4 → ℝ) 1 (1 / 4)) 2 = 1 / 4 := by
    rw [knotAt_inserted _ _ (by norm_num)]; exact insertKnot_new
  have f3 : knotAt (insertedKnots (![0, 0, 1, 1] : Fin 4 → ℝ) 1 (1 / 4)) 3 = 1 := by
    rw [knotAt_inserted _ _ (by norm_num), insertKnot_gt (by norm_num)]; simp [knotAt]
  have f4 : knotAt (insertedKnots (![0, 0, 1, 1] : Fin 4 → ℝ) 1 (1 / 4)) 4 = 1 := by
    rw [knotAt_inserted _ _ (by norm_num), insertKnot_gt (by norm_num)]; simp [knotAt]
  obtain ⟨q, hq, hqc⟩ := C48_partial (k := 2) (t := 1 / 2) hb'
    (clamped_inserted valid_0011 le_rfl (by norm_num) (.inl front_0011)) (by norm_num) (by norm_num)
    (by rw [f2]; norm_num) (by rw [f3]; norm_num)
    (eps_inserted valid_0011 (by norm_num) (fun i => by
      fin_cases i <;> simp <;> first | (intro; linarith) | linarith) fun _ => by linarith)
  have hN : coxDeBoor (knotAt (insertedKnots (![0, 0, 1, 1] : Fin 4 → ℝ) 1 (1 / 4))) 1 2 (1 / 2) = 1 / 3 := by
    rw [coxDeBoor_succ]
    simp only [coxDeBoor, f2, f3, f4]
    norm_num
  refine ⟨b, b', _, q, hb, hb', he, hq, fun e => ?_⟩
  have h0 := hqc 0
  rw [hN, ← e, coord_p1, splineCoord_inserted valid_0011 le_rfl (by norm_num) k1 k2, coord_inserted, insertValue,
    insertWeight_zero (by norm_num)] at h0
  simp [splineCoord, coxDeBoor, knotAt, extend] at h0
  norm_num at h0
  apply hc
  linarith

/-- `C146_repaired`, `C146_partial`: a knot inserted at 1/2 into a quadratic spline of
two pieces; the new points. -/
example (P0 P1 P2 P3 : ℝ) : ∃ (b : BSpline ℝ (PointN ℝ 1) 7 4 2) (b' : BSpline ℝ (PointN ℝ 1) 8 5 2),
    BSpline.new ![0, 0, 0, 1, 2, 2, 2] ![p1 P0, p1 P1, p1 P2, p1 P3] = .ok b ∧
    BSpline.new ![0, 0, 0, 1 / 2, 1, 2, 2, 2]
      ![p1 P0, p1 (P1 / 2 + P0 / 2), p1 (P2 / 4 + P1 * 3 / 4), p1 P2, p1 P3] = .ok b' ∧
    (∀ t, 0 ≤ t → t ≤ 2 → ∃ q, b.evalFixed t = .ok q ∧ b'.evalFixed t = .ok q) ∧
    ∃ q, b.eval (3 / 2 : ℝ) = .ok q ∧ b'.eval (3 / 2 : ℝ) = .ok q := by
  obtain ⟨b, hb⟩ :=
    (C43_accepts (D := 2) ![0, 0, 0, 1, 2, 2, 2] ![p1 P0, p1 P1, p1 P2, p1 P3]).2 valid_0001222
  have k1 : knotAt (![0, 0, 0, 1, 2, 2, 2] : Fin 7 → ℝ) 2 ≤ 1 / 2 := by simp [knotAt]
  have k2 : 1 / 2 < knotAt (![0, 0, 0, 1, 2, 2, 2] : Fin 7 → ℝ) (2 + 1) := by simp [knotAt]; norm_num
  have e1 : insertedKnots (![0, 0, 0, 1, 2, 2, 2] : Fin 7 → ℝ) 2 (1 / 2) = ![0, 0, 0, 1 / 2, 1, 2, 2, 2] := by
    funext i
    fin_cases i <;> simp [insertedKnots, insertKnot, knotAt]
  have e2 : insertedPoints 2 (![0, 0, 0, 1, 2, 2, 2] : Fin 7 → ℝ)
      (![p1 P0, p1 P1, p1 P2, p1 P3] : Fin 4 → PointN ℝ 1) 2 (1 / 2)
      = ![p1 P0, p1 (P1 / 2 + P0 / 2), p1 (P2 / 4 + P1 * 3 / 4), p1 P2, p1 P3] := by
    funext i
    apply point_ext
    intro c
    rcases Nat.eq_zero_or_pos c with rfl | hc
    · rw [coord_inserted]
      fin_cases i <;> simp [insertValue, insertWeight, knotAt, extend] <;> ring
    · rw [coord_out _ (show ¬ c < 1 by omega), coord_out _ (show ¬ c < 1 by omega)]
  obtain ⟨b', hb', h⟩ := C146_repaired hb le_rfl (by norm_num) k1 k2
  have ev := eps_le_quarter
  obtain ⟨b'', q, hb'', hq, hq'⟩ := C146_partial (m := 3) (t := 3 / 2) hb (.inl front_0001222) le_rfl
    (by norm_num) k1 k2 (by norm_num) (by norm_num) (by simp [knotAt]; norm_num) (by simp [knotAt]; norm_num)
    (.inl (by norm_num))
    (fun i => by fin_cases i <;> simp <;> first | (intro; linarith) | linarith) fun _ => by linarith
  rw [hb'] at hb''
  cases hb''
  rw [e1, e2] at hb'
  exact ⟨b, b', hb, hb', fun t t0 t2 => h t (by simpa [knotAt] using t0) (by simpa [knotAt] using t2),
    q, hq, hq'⟩

/-- `C146_detour`: the same spline at 3/4. -/
example (ps : Arr (PointN ℝ 1) 4) : ∃ (b : BSpline ℝ (PointN ℝ 1) 7 4 2) (b' : BSpline ℝ (PointN ℝ 1) 8 5 2)
    (p q : PointN ℝ 1), BSpline.new ![0, 0, 0, 1, 2, 2, 2] (fun i => ps i - ps 2) = .ok b ∧
      b.eval (3 / 4 : ℝ) = .ok p ∧
      BSpline.new (insertedKnots ![0, 0, 0, 1, 2, 2, 2] 2 (1 / 2))
        (fun i => insertedPoints 2 ![0, 0, 0, 1, 2, 2, 2] ps 2 (1 / 2) i
          - insertedPoints 2 ![0, 0, 0, 1, 2, 2, 2] ps 2 (1 / 2) 3) = .ok b' ∧
      b'.eval (3 / 4 : ℝ) = .ok q ∧
      p + ps 2 = q + insertedPoints 2 ![0, 0, 0, 1, 2, 2, 2] ps 2 (1 / 2) 3 := by
  have ev := eps_le_quarter
  refine C146_detour (k := 2) (ξ := 1 / 2) (t := 3 / 4) (m := 2) (m' := 3) valid_0001222
    (.inl front_0001222) ps le_rfl (by norm_num)
    (by simp [knotAt]) (by simp [knotAt]; norm_num) le_rfl (by norm_num) (by simp [knotAt]; norm_num)
    (by simp [knotAt]; norm_num) (by norm_num) (by norm_num) ?_ ?_
    (fun i => by fin_cases i <;> simp <;> first | (intro; linarith) | linarith) fun _ => by linarith
  · rw [knotAt_inserted _ _ (by norm_num), insertKnot_new]
    norm_num
  · rw [knotAt_inserted _ _ (by norm_num), insertKnot_gt (by norm_num)]
    simp [knotAt]
    norm_num

end Splines
end Stroke
