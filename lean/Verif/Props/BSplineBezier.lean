import Verif.Props.BSplinePieces
import Verif.Props.RepairedBSplineMore
import Verif.Props.Uniqueness

/-!
# The pieces of a B-spline are Bezier curves (C131)
-/

set_option linter.unusedSectionVars false

namespace Stroke

variable {P : Type} [Point ℝ P] [LawfulPoint P] {K C D : ℕ}

/-! ### Products of Bernstein sums with linear functions -/

/-- The Bernstein coefficients of a linear function times a Bernstein sum. -/
theorem bsum_mul_linear (d : ℕ) (x : ℕ → ℝ) (α β s : ℝ) :
    (α * (1 - s) + β * s) * bsum d x s
      = bsum (d + 1) (fun j => (((d : ℝ) + 1 - j) * α * x j + j * β * x (j - 1)) / (d + 1)) s := by
  have hd : ((d : ℝ) + 1) ≠ 0 := by positivity
  have h1 : (1 - s) * bsum d x s
      = ∑ j ∈ Finset.range (d + 2), bernstein (d + 1) j s * (((d : ℝ) + 1 - j) * x j / (d + 1)) := by
    rw [Finset.sum_range_succ]
    have : ((d : ℝ) + 1 - ((d + 1 : ℕ) : ℝ)) = 0 := by push_cast; ring
    rw [this, zero_mul, zero_div, mul_zero, add_zero, bsum, Finset.mul_sum]
    refine Finset.sum_congr rfl fun j hj => ?_
    have hj' : j ≤ d := by have := Finset.mem_range.1 hj; omega
    have hc : ((d + 1).choose j : ℝ) * ((d : ℝ) + 1 - j) = (d.choose j : ℝ) * (d + 1) := by
      have := Nat.choose_mul_succ_eq d j
      have e : ((d.choose j * (d + 1) : ℕ) : ℝ) = (((d + 1).choose j * (d + 1 - j) : ℕ) : ℝ) := by
        rw [this]
      push_cast [Nat.cast_sub (show j ≤ d + 1 by omega)] at e
      exact e.symm
    unfold bernstein
    rw [show d + 1 - j = d - j + 1 by omega, pow_succ]
    field_simp
    linear_combination (-(s ^ j * (1 - s) ^ (d - j) * (1 - s) * x j)) * hc
  have h2 : s * bsum d x s
      = ∑ j ∈ Finset.range (d + 2), bernstein (d + 1) j s * ((j : ℝ) * x (j - 1) / (d + 1)) := by
    rw [Finset.sum_range_succ']
    simp only [Nat.cast_zero, zero_mul, zero_div, mul_zero, add_zero, Nat.add_sub_cancel]
    rw [bsum, Finset.mul_sum]
    refine Finset.sum_congr rfl fun j hj => ?_
    have hc : ((d + 1).choose (j + 1) : ℝ) * ((j : ℝ) + 1) = (d.choose j : ℝ) * (d + 1) := by
      have := Nat.add_one_mul_choose_eq d j
      have e : (((d + 1) * d.choose j : ℕ) : ℝ) = (((d + 1).choose (j + 1) * (j + 1) : ℕ) : ℝ) := by
        rw [this]
      push_cast at e
      linarith
    unfold bernstein
    rw [show d + 1 - (j + 1) = d - j by omega, pow_succ]
    push_cast
    field_simp
    linear_combination (-(s ^ j * s * (1 - s) ^ (d - j) * x j)) * hc
  rw [add_mul, mul_assoc, mul_assoc, h1, h2, bsum, Finset.mul_sum, Finset.mul_sum,
    ← Finset.sum_add_distrib]
  refine Finset.sum_congr rfl fun j _ => ?_
  ring

theorem bsum_zero_fun (d : ℕ) (s : ℝ) : bsum d (fun _ => 0) s = 0 := by
  simp [bsum]

/-- On a knot span every basis function is a Bernstein sum with non-negative coefficients. -/
theorem coxDeBoor_bsum {u : ℕ → ℝ} {k : ℕ} (hm : ∀ i j, i ≤ j → j < K → u i ≤ u j)
    (hk : k + 1 < K) (hlt : u k < u (k + 1)) (p : ℕ) : ∀ i, i + p + 1 < K →
    ∃ x : ℕ → ℝ, (∀ j ≤ p, 0 ≤ x j) ∧ ((k < i ∨ i + p < k) → ∀ j, x j = 0) ∧
      ∀ t, u k ≤ t → t < u (k + 1) →
        coxDeBoor u p i t = bsum p x ((t - u k) / (u (k + 1) - u k)) := by
  have hw : u (k + 1) - u k ≠ 0 := by linarith
  induction p with
  | zero =>
    intro i hi
    by_cases hik : i = k
    · subst hik
      refine ⟨fun _ => 1, fun _ _ => zero_le_one, fun h => by omega, fun t h1 h2 => ?_⟩
      rw [bsum_zero]
      simp only [coxDeBoor]
      rw [if_pos ⟨h1, h2⟩]
    · refine ⟨fun _ => 0, fun _ _ => le_rfl, fun _ _ => rfl, fun t h1 h2 => ?_⟩
      rw [bsum_zero]
      exact coxDeBoor_eq_zero hm hk h1 h2 0 i hi (by omega)
  | succ p ih =>
    intro i hi
    by_cases hout : k < i ∨ i + (p + 1) < k
    · refine ⟨fun _ => 0, fun _ _ => le_rfl, fun _ _ => rfl, fun t h1 h2 => ?_⟩
      rw [bsum_zero_fun]
      exact coxDeBoor_eq_zero hm hk h1 h2 (p + 1) i hi hout
    have prod : ∀ (x : ℕ → ℝ) (α β : ℝ), (∀ j ≤ p, 0 ≤ x j) → 0 ≤ α → 0 ≤ β →
        ∀ j ≤ p + 1, 0 ≤ ((((p : ℝ) + 1 - j) * α * x j + j * β * x (j - 1)) / (p + 1) : ℝ) := by
      intro x α β hx ha hb j hj
      have h1 : (0 : ℝ) ≤ (p : ℝ) + 1 - j := by
        have : (j : ℝ) ≤ ((p + 1 : ℕ) : ℝ) := by exact_mod_cast hj
        push_cast at this
        linarith
      have h2 : 0 ≤ x (j - 1) := hx _ (by omega)
      have h3 : 0 ≤ ((p : ℝ) + 1 - j) * α * x j := by
        rcases Nat.lt_or_ge p j with h | h
        · have : j = p + 1 := by omega
          subst this
          push_cast
          simp
        · exact mul_nonneg (mul_nonneg h1 ha) (hx _ h)
      positivity
    have lin : ∀ t : ℝ, t = u k * (1 - (t - u k) / (u (k + 1) - u k))
        + u (k + 1) * ((t - u k) / (u (k + 1) - u k)) := by
      intro t
      field_simp
      ring
    have left : ∃ x : ℕ → ℝ, (∀ j ≤ p + 1, 0 ≤ x j) ∧ ∀ t, u k ≤ t → t < u (k + 1) →
        (if u (i + p + 1) = u i then 0
          else (t - u i) / (u (i + p + 1) - u i) * coxDeBoor u p i t)
          = bsum (p + 1) x ((t - u k) / (u (k + 1) - u k)) := by
      by_cases hin : k < i ∨ i + p < k
      · refine ⟨fun _ => 0, fun _ _ => le_rfl, fun t h1 h2 => ?_⟩
        rw [bsum_zero_fun, coxDeBoor_eq_zero hm hk h1 h2 p i (by omega) hin, mul_zero, ite_self]
      · obtain ⟨x, hx, -, e⟩ := ih i (by omega)
        have b1 : u i ≤ u k := hm _ _ (by omega) (by omega)
        have b2 : u (k + 1) ≤ u (i + p + 1) := hm _ _ (by omega) (by omega)
        have hne : u (i + p + 1) - u i > 0 := by linarith
        refine ⟨_, prod x ((u k - u i) / (u (i + p + 1) - u i))
          ((u (k + 1) - u i) / (u (i + p + 1) - u i)) hx
          (div_nonneg (by linarith) hne.le) (div_nonneg (by linarith) hne.le), fun t h1 h2 => ?_⟩
        rw [← bsum_mul_linear, if_neg (by linarith), e t h1 h2]
        congr 1
        rw [div_mul_eq_mul_div, div_mul_eq_mul_div, ← add_div]
        congr 1
        have := lin t
        linarith
    have right : ∃ x : ℕ → ℝ, (∀ j ≤ p + 1, 0 ≤ x j) ∧ ∀ t, u k ≤ t → t < u (k + 1) →
        (if u (i + p + 2) = u (i + 1) then 0
          else (u (i + p + 2) - t) / (u (i + p + 2) - u (i + 1)) * coxDeBoor u p (i + 1) t)
          = bsum (p + 1) x ((t - u k) / (u (k + 1) - u k)) := by
      by_cases hin : k < i + 1 ∨ i + 1 + p < k
      · refine ⟨fun _ => 0, fun _ _ => le_rfl, fun t h1 h2 => ?_⟩
        rw [bsum_zero_fun, coxDeBoor_eq_zero hm hk h1 h2 p (i + 1) (by omega) hin, mul_zero, ite_self]
      · obtain ⟨x, hx, -, e⟩ := ih (i + 1) (by omega)
        have b1 : u (i + 1) ≤ u k := hm _ _ (by omega) (by omega)
        have b2 : u (k + 1) ≤ u (i + p + 2) := hm _ _ (by omega) (by omega)
        have hne : u (i + p + 2) - u (i + 1) > 0 := by linarith
        refine ⟨_, prod x ((u (i + p + 2) - u k) / (u (i + p + 2) - u (i + 1)))
          ((u (i + p + 2) - u (k + 1)) / (u (i + p + 2) - u (i + 1))) hx
          (div_nonneg (by linarith) hne.le) (div_nonneg (by linarith) hne.le), fun t h1 h2 => ?_⟩
        rw [← bsum_mul_linear, if_neg (by linarith), e t h1 h2]
        congr 1
        rw [div_mul_eq_mul_div, div_mul_eq_mul_div, ← add_div]
        congr 1
        have := lin t
        linarith
    obtain ⟨x, hx, ex⟩ := left
    obtain ⟨y, hy, ey⟩ := right
    refine ⟨fun j => x j + y j, fun j hj => add_nonneg (hx j hj) (hy j hj), fun h => absurd h hout,
      fun t h1 h2 => ?_⟩
    simp only [coxDeBoor]
    rw [ex t h1 h2, ey t h1 h2, bsum_add]

/-- The coefficients of the basis functions on a span: `w j i` is what control point `i` contributes
to control point `j` of the Bezier curve of the span. -/
theorem span_weights {knots : Fin K → ℝ} (v : ValidSpline C D knots) {k : ℕ} (hDk : D ≤ k)
    (hkC : k < C) (hlt : knotAt knots k < knotAt knots (k + 1)) :
    ∃ w : Fin (D + 1) → Fin C → ℝ, (∀ j i, 0 ≤ w j i) ∧ (∀ j, ∑ i, w j i = 1) ∧
      (∀ j i, (i.val < k - D ∨ k < i.val) → w j i = 0) ∧
      ∀ t, knotAt knots k ≤ t → t < knotAt knots (k + 1) → ∀ i : Fin C,
        coxDeBoor (knotAt knots) D i.val t
          = ∑ j : Fin (D + 1), bernstein D j.val
              ((t - knotAt knots k) / (knotAt knots (k + 1) - knotAt knots k)) * w j i := by
  obtain ⟨v1, v2, v3⟩ := v
  have hm : ∀ i j, i ≤ j → j < K → knotAt knots i ≤ knotAt knots j :=
    fun i j hij hj => mono_knotAt v3 hij hj
  choose x hx1 hx2 hx3 using fun i : Fin C =>
    coxDeBoor_bsum hm (show k + 1 < K by omega) hlt D i.val (by omega)
  refine ⟨fun j i => x i j.val, fun j i => hx1 i _ (by omega), ?_, fun j i h => hx2 i (by omega) _,
    fun t h1 h2 i => ?_⟩
  · -- the weights sum to 1 since the basis functions do
    have hpos : 0 < knotAt knots (k + 1) - knotAt knots k := by linarith
    have hT : ((Finset.range (D + 1)).image fun n : ℕ => (n : ℝ) / (D + 1)).card = D + 1 := by
      rw [Finset.card_image_of_injective, Finset.card_range]
      intro a b hab
      have : ((D : ℝ) + 1) ≠ 0 := by positivity
      simp only at hab
      rw [div_left_inj' this] at hab
      exact_mod_cast hab
    have key := bsum_unique (m := D) (x := fun j => ∑ i, x i j) (y := fun _ => 1) hT.ge (by
      intro s hs
      obtain ⟨n, hn, rfl⟩ := Finset.mem_image.1 hs
      have hn' : (n : ℝ) < D + 1 := by exact_mod_cast Finset.mem_range.1 hn
      have hD0 : (0 : ℝ) < D + 1 := by positivity
      have s0 : (0 : ℝ) ≤ (n : ℝ) / (D + 1) := by positivity
      have s1 : (n : ℝ) / (D + 1) < 1 := by rw [div_lt_one hD0]; exact hn'
      generalize (n : ℝ) / (D + 1) = s at s0 s1
      set t := knotAt knots k + s * (knotAt knots (k + 1) - knotAt knots k) with ht
      have t1 : knotAt knots k ≤ t := by
        rw [ht]; have := mul_nonneg s0 hpos.le; linarith
      have t2 : t < knotAt knots (k + 1) := by
        rw [ht]; have := mul_lt_mul_of_pos_right s1 hpos; linarith
      have hs' : (t - knotAt knots k) / (knotAt knots (k + 1) - knotAt knots k) = s := by
        rw [ht]; field_simp; ring
      have e1 : bsum D (fun j => ∑ i, x i j) s = ∑ i : Fin C, coxDeBoor (knotAt knots) D i.val t := by
        simp only [hx3 _ t t1 t2, hs', bsum, Finset.mul_sum]
        rw [Finset.sum_comm]
      have e2 : bsum D (fun _ => 1) s = 1 := by
        simp only [bsum, mul_one]
        exact bernstein_sum D s
      rw [e1, e2]
      have e3 := coxDeBoor_sum_span hm hDk hkC v2 t1 t2 (fun _ => 1)
      simp only [mul_one, one_mul] at e3
      rw [coxDeBoor_sum hm hDk (by omega) t1 t2] at e3
      rw [Fin.sum_univ_eq_sum_range (fun i => coxDeBoor (knotAt knots) D i t)]
      exact e3)
    exact fun j => key j.val (by omega)
  · rw [hx3 i t h1 h2, bsum, ← Fin.sum_univ_eq_sum_range
      (fun j => bernstein D j ((t - knotAt knots k) / (knotAt knots (k + 1) - knotAt knots k)) * x i j)]

/-- Points can be combined with any weights. -/
theorem exists_combination {C : ℕ} (ps : Fin C → P) (w : Fin C → ℝ) :
    ∃ q : P, ∀ c, coord q c = ∑ i, w i * coord (ps i) c := by
  induction C with
  | zero => exact ⟨Point.default, fun c => by simp⟩
  | succ C ih =>
    obtain ⟨q, hq⟩ := ih (fun i => ps i.succ) (fun i => w i.succ)
    refine ⟨ps 0 * w 0 + q, fun c => ?_⟩
    rw [LawfulPoint.coord_add, LawfulPoint.coord_mul, hq, Fin.sum_univ_succ]
    ring

/-! ### The claims -/

/-- **C131**: on every knot span of a spline clamped on at least one side `eval` is the evaluation of a
Bezier curve with `D + 1` control points at the parameter rescaled to the span (outside the machine
epsilon above a knot).  The control points of that curve are combinations, with non-negative weights of
sum 1 that depend on the knots only, of the control points `k - D, ..., k` of the span, with the origin
in the place of control point `k`, which the code drops. -/
theorem C131_pieces {knots : Arr ℝ K} (v : ValidSpline C D knots)
    (hc : FrontClamped D knots ∨ BackClamped D knots) {k : ℕ} (hDk : D ≤ k) (hkC : k < C)
    (hlt : knotAt knots k < knotAt knots (k + 1)) :
    ∃ w : Fin (D + 1) → Fin C → ℝ, (∀ j i, 0 ≤ w j i) ∧ (∀ j, ∑ i, w j i = 1) ∧
      (∀ j i, (i.val < k - D ∨ k < i.val) → w j i = 0) ∧
      ∀ ps : Arr P C, ∃ (b : BSpline ℝ P K C D) (piece : Bezier P (D + 1)),
        BSpline.new knots ps = .ok b ∧
        (∀ j c, coord (piece.controlPoints j) c
          = ∑ i, w j i * (if i.val = k then 0 else coord (ps i) c)) ∧
        ∀ t, knotAt knots k ≤ t → t < knotAt knots (k + 1) →
          (∀ i, knots i < t → eps ≤ t - knots i) →
          ∃ q, b.eval t = .ok q ∧
            piece.eval ((t - knotAt knots k) / (knotAt knots (k + 1) - knotAt knots k)) = some q := by
  obtain ⟨w, w1, w2, w3, w4⟩ := span_weights v hDk hkC hlt
  refine ⟨w, w1, w2, w3, fun ps => ?_⟩
  obtain ⟨b, hb⟩ := (C43_accepts (D := D) knots ps).2 v
  choose pt hpt using fun j => exists_combination
    (fun i : Fin C => if i.val = k then (Point.default : P) else ps i) (w j)
  refine ⟨b, Bezier.new pt, hb, fun j c => ?_, fun t h1 h2 heps => ?_⟩
  · show coord (pt j) c = _
    rw [hpt]
    refine Finset.sum_congr rfl fun i _ => ?_
    split_ifs
    · rw [LawfulPoint.coord_default]
    · rfl
  · obtain ⟨q, hq, hcoord⟩ := C48_partial hb hc hDk hkC h1 h2 heps
    obtain ⟨q', hq', hc'⟩ := C30_eval (Bezier.new pt) (by omega)
      ((t - knotAt knots k) / (knotAt knots (k + 1) - knotAt knots k))
    refine ⟨q, hq, ?_⟩
    rw [hq']
    congr 1
    refine LawfulPoint.ext _ _ fun c => ?_
    rw [hc', hcoord, splineCoord]
    unfold bezierCoord
    simp only [Bezier.controlPoints, Bezier.new, hpt, Nat.add_sub_cancel]
    have e0 : coxDeBoor (knotAt knots) D k t * coord (ps ⟨k, hkC⟩) c
        = ∑ i : Fin C, coxDeBoor (knotAt knots) D i.val t
            * (if i.val = k then coord (ps i) c else 0) := by
      rw [Finset.sum_eq_single (⟨k, hkC⟩ : Fin C)]
      · simp
      · intro i _ hi
        rw [if_neg (fun e => hi (Fin.ext e)), mul_zero]
      · simp
    rw [e0, ← Finset.sum_sub_distrib]
    simp only [Finset.mul_sum]
    rw [Finset.sum_comm]
    refine Finset.sum_congr rfl fun i _ => ?_
    rw [w4 t h1 h2 i, ← mul_sub, Finset.sum_mul]
    refine Finset.sum_congr rfl fun j _ => ?_
    rw [mul_assoc]
    congr 2
    split_ifs
    · rw [LawfulPoint.coord_default]; ring
    · ring

/-- **C131**: the curve of a span is determined: two Bezier curves with `D + 1` control points that both
agree with `eval` on a span longer than the machine epsilon have the same control points. -/
theorem C131_unique {knots : Arr ℝ K} {b : BSpline ℝ P K C D} {k : ℕ}
    (hlt : knotAt knots k + eps < knotAt knots (k + 1)) (piece piece' : Bezier P (D + 1))
    (h : ∀ t, knotAt knots k + eps ≤ t → t < knotAt knots (k + 1) → ∃ q, b.eval t = .ok q ∧
      piece.eval ((t - knotAt knots k) / (knotAt knots (k + 1) - knotAt knots k)) = some q)
    (h' : ∀ t, knotAt knots k + eps ≤ t → t < knotAt knots (k + 1) → ∃ q, b.eval t = .ok q ∧
      piece'.eval ((t - knotAt knots k) / (knotAt knots (k + 1) - knotAt knots k)) = some q) :
    piece.controlPoints = piece'.controlPoints := by
  have he := eps_pos
  have hw : 0 < knotAt knots (k + 1) - knotAt knots k := by linarith
  have hw' : 0 < knotAt knots (k + 1) - (knotAt knots k + eps) := by linarith
  refine C93_bezier piece piece'
    ((Finset.range (D + 1)).image fun n : ℕ =>
      (eps + (n : ℝ) / (D + 1) * (knotAt knots (k + 1) - (knotAt knots k + eps)))
        / (knotAt knots (k + 1) - knotAt knots k)) ?_ ?_
  · rw [Finset.card_image_of_injective, Finset.card_range]
    intro a b hab
    simp only at hab
    rw [div_left_inj' hw.ne', add_right_inj, mul_left_inj' hw'.ne',
      div_left_inj' (by positivity)] at hab
    exact_mod_cast hab
  · intro s hs
    obtain ⟨n, hn, rfl⟩ := Finset.mem_image.1 hs
    have hD0 : (0 : ℝ) < D + 1 := by positivity
    have hn' : (n : ℝ) < D + 1 := by exact_mod_cast Finset.mem_range.1 hn
    have s0 : (0 : ℝ) ≤ (n : ℝ) / (D + 1) := by positivity
    have s1 : (n : ℝ) / (D + 1) < 1 := by rw [div_lt_one hD0]; exact hn'
    have a1 := mul_nonneg s0 hw'.le
    have a2 := mul_lt_mul_of_pos_right s1 hw'
    have e : (knotAt knots k + (eps + (n : ℝ) / (D + 1)
        * (knotAt knots (k + 1) - (knotAt knots k + eps)))) - knotAt knots k
        = eps + (n : ℝ) / (D + 1) * (knotAt knots (k + 1) - (knotAt knots k + eps)) := by ring
    obtain ⟨q, hq, e1⟩ := h _ (show knotAt knots k + eps ≤ knotAt knots k + (eps + (n : ℝ) / (D + 1)
        * (knotAt knots (k + 1) - (knotAt knots k + eps))) by linarith) (by linarith)
    obtain ⟨q', hq', e2⟩ := h' _ (show knotAt knots k + eps ≤ knotAt knots k + (eps + (n : ℝ) / (D + 1)
        * (knotAt knots (k + 1) - (knotAt knots k + eps))) by linarith) (by linarith)
    rw [e] at e1 e2
    rw [hq] at hq'
    rw [e1, e2]
    injection hq' with hqq
    rw [hqq]

/-- **C121**: with the repairs the pieces are Bezier curves on the whole span and for every kind of knot
vector, and their control points are convex combinations of the control points `k - D, ..., k`. -/
theorem C121_bspline_pieces {knots : Arr ℝ K} (v : ValidSpline C D knots) {k : ℕ} (hDk : D ≤ k)
    (hkC : k < C) (hlt : knotAt knots k < knotAt knots (k + 1)) :
    ∃ w : Fin (D + 1) → Fin C → ℝ, (∀ j i, 0 ≤ w j i) ∧ (∀ j, ∑ i, w j i = 1) ∧
      (∀ j i, (i.val < k - D ∨ k < i.val) → w j i = 0) ∧
      ∀ ps : Arr P C, ∃ (b : BSpline ℝ P K C D) (piece : Bezier P (D + 1)),
        BSpline.new knots ps = .ok b ∧
        (∀ j c, coord (piece.controlPoints j) c = ∑ i, w j i * coord (ps i) c) ∧
        ∀ t, knotAt knots k ≤ t → t < knotAt knots (k + 1) →
          ∃ q, b.evalFixed t = .ok q ∧
            piece.eval ((t - knotAt knots k) / (knotAt knots (k + 1) - knotAt knots k)) = some q := by
  obtain ⟨w, w1, w2, w3, w4⟩ := span_weights v hDk hkC hlt
  refine ⟨w, w1, w2, w3, fun ps => ?_⟩
  obtain ⟨b, hb⟩ := (C43_accepts (D := D) knots ps).2 v
  choose pt hpt using fun j => exists_combination ps (w j)
  refine ⟨b, Bezier.new pt, hb, hpt, fun t h1 h2 => ?_⟩
  obtain ⟨v1, v2, v3⟩ := v
  obtain ⟨q, hq, hcoord⟩ := C121_bspline hb
    ((mono_knotAt v3 hDk (by omega)).trans h1)
    (h2.trans_le (mono_knotAt v3 (show k + 1 ≤ C by omega) (by omega)))
  obtain ⟨q', hq', hc'⟩ := C30_eval (Bezier.new pt) (by omega)
    ((t - knotAt knots k) / (knotAt knots (k + 1) - knotAt knots k))
  refine ⟨q, hq, ?_⟩
  rw [hq']
  congr 1
  refine LawfulPoint.ext _ _ fun c => ?_
  rw [hc', hcoord, splineCoord]
  unfold bezierCoord
  simp only [Bezier.controlPoints, Bezier.new, hpt, Nat.add_sub_cancel, Finset.mul_sum]
  rw [Finset.sum_comm]
  refine Finset.sum_congr rfl fun i _ => ?_
  rw [w4 t h1 h2 i, Finset.sum_mul]
  exact Finset.sum_congr rfl fun j _ => by ring

/-- The knots 0 0 0 1 2 2 2 of degree 2. -/
theorem two_spans : ValidSpline 4 2 (![0, 0, 0, 1, 2, 2, 2] : Fin 7 → ℝ) ∧
    FrontClamped 2 (![0, 0, 0, 1, 2, 2, 2] : Fin 7 → ℝ) ∧
    knotAt (![0, 0, 0, 1, 2, 2, 2] : Fin 7 → ℝ) 2 = 0 ∧
    knotAt (![0, 0, 0, 1, 2, 2, 2] : Fin 7 → ℝ) 3 = 1 := by
  refine ⟨⟨by norm_num, rfl, ?_⟩, ?_, ?_, ?_⟩
  · intro i j h
    fin_cases i <;> fin_cases j <;> first | (exact absurd h (by decide)) | norm_num
  · intro i hi
    fin_cases i <;> simp [knotAt, eps_pos] at hi ⊢
  · simp [knotAt]
  · simp [knotAt]

/-- The hypotheses of `C131_pieces`, `C131_unique` and `C121_bspline_pieces` are met by the first span
of the knots 0 0 0 1 2 2 2 of degree 2, for all control points. -/
example (ps : Arr P 4) : ∃ (b : BSpline ℝ P 7 4 2) (piece : Bezier P 3),
    BSpline.new ![0, 0, 0, 1, 2, 2, 2] ps = .ok b ∧
    ∀ t, eps ≤ t → t < 1 → ∃ q, b.eval t = .ok q ∧ piece.eval t = some q := by
  obtain ⟨v, hc, k2, k3⟩ := two_spans
  obtain ⟨w, -, -, -, hw⟩ := C131_pieces (P := P) v (Or.inl hc) (k := 2) le_rfl (by norm_num)
    (by rw [k2, k3]; norm_num)
  obtain ⟨b, piece, hb, -, h⟩ := hw ps
  rw [k2, k3] at h
  refine ⟨b, piece, hb, fun t h0 h1 => ?_⟩
  obtain ⟨q, hq, hp⟩ := h t (eps_pos.le.trans h0) h1 (fun i hi => by
    fin_cases i <;> simp at hi ⊢ <;> linarith)
  rw [sub_zero, sub_zero, div_one] at hp
  exact ⟨q, hq, hp⟩

end Stroke
