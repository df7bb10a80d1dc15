import Verif.Props.ArcLength
import Verif.Props.Variation

set_option linter.unusedSectionVars false

/-!
# How `arclen` behaves as a length (C71)

Refinement, comparison with the control polygon, similarity transformations, reversal.
-/

namespace Stroke

variable {P : Type} [Point ℝ P] [LawfulPoint P] {N : ℕ}

/-! ### Specification -/

/-- Length of the control polygon `ps 0, ps 1, ..., ps (N-1)`. -/
noncomputable def controlPolygonLength (ps : Fin N → P) : ℝ :=
  ∑ k ∈ Finset.range (N - 1),
    if h : k + 1 < N then pdist (ps ⟨k, by omega⟩) (ps ⟨k + 1, h⟩) else 0

/-- A similarity: an affine map that multiplies every distance by `r`. -/
def IsSimilarity {Q : Type} [Point ℝ Q] (f : P → Q) (r : ℝ) : Prop :=
  IsAffine f ∧ ∀ p q, pdist (f p) (f q) = r * pdist p q

/-! ### Refinement -/

theorem polyline_split (f : ℕ → P) {a b c : ℕ} (h1 : a ≤ b) (h2 : b ≤ c) :
    polylineLength f a c = polylineLength f a b + polylineLength f b c :=
  (Finset.sum_Ico_consecutive _ h1 h2).symm

theorem polyline_nonneg (f : ℕ → P) (a b : ℕ) : 0 ≤ polylineLength f a b :=
  Finset.sum_nonneg fun _ _ => pdist_nonneg _ _

/-- The straight line is the shortest connection. -/
theorem chord_le_polyline (f : ℕ → P) (a k : ℕ) :
    pdist (f a) (f (a + k)) ≤ polylineLength f a (a + k) := by
  induction k with
  | zero => rw [Nat.add_zero, pdist_eq_zero.2 rfl]; exact polyline_nonneg _ _ _
  | succ k ih =>
    rw [polyline_split f (Nat.le_add_right a k) (show a + k ≤ a + (k + 1) by omega)]
    have : polylineLength f (a + k) (a + (k + 1)) = pdist (f (a + k)) (f (a + (k + 1))) := by
      unfold polylineLength
      rw [show a + (k + 1) = a + k + 1 by omega, Finset.sum_Ico_succ_top le_rfl]
      simp
    rw [this]
    exact (pdist_triangle _ _ _).trans (add_le_add ih le_rfl)

theorem polyline_refine (f : ℕ → P) (m : ℕ) (n : ℕ) (hn : 1 ≤ n) :
    polylineLength (fun i => f (m * i)) 1 n ≤ polylineLength f m (m * n) := by
  induction n, hn using Nat.le_induction with
  | base => simp [polylineLength]
  | succ n hn ih =>
    have h1 : m ≤ m * n := Nat.le_mul_of_pos_right m hn
    rw [Nat.mul_succ, polyline_split f h1 (Nat.le_add_right _ _)]
    have e : polylineLength (fun i => f (m * i)) 1 (n + 1)
        = polylineLength (fun i => f (m * i)) 1 n + pdist (f (m * n)) (f (m * n + m)) := by
      unfold polylineLength
      rw [Finset.sum_Ico_succ_top hn]
      rfl
    rw [e]
    exact add_le_add ih (chord_le_polyline f _ _)

theorem sampled_refine (g : ℝ → P) (n m : ℕ) (hm : 1 ≤ m) :
    polylineLength (fun i : ℕ => g ((i : ℝ) / n)) 1 n
      ≤ polylineLength (fun i : ℕ => g ((i : ℝ) / (m * n : ℕ))) 1 (m * n) := by
  rcases Nat.eq_zero_or_pos n with rfl | hn
  · exact (Finset.sum_eq_zero (by simp)).trans_le (polyline_nonneg _ _ _)
  have hm0 : (m : ℝ) ≠ 0 := by positivity
  generalize hF : (fun j : ℕ => g ((j : ℝ) / (m * n : ℕ))) = F
  have e : (fun i : ℕ => g ((i : ℝ) / n)) = fun i : ℕ => F (m * i) := by
    funext i
    rw [← hF]
    simp only []
    congr 1
    push_cast
    rw [mul_div_mul_left _ _ hm0]
  rw [e]
  refine (polyline_refine F m n hn).trans ?_
  rw [polyline_split F hm (Nat.le_mul_of_pos_right m hn)]
  have := polyline_nonneg F 1 m
  linarith

/-- **C71**: a refinement of the sampling never makes the reported length smaller. -/
theorem C71_refine (q : QuadraticBezier P) (c : CubicBezier P) (b : Bezier P N) (hN : 1 ≤ N)
    (n m : ℕ) (hm : 1 ≤ m) :
    (∃ x y, q.arclen n = some x ∧ q.arclen (m * n) = some y ∧ x ≤ y) ∧
    (∃ x y, c.arclen n = some x ∧ c.arclen (m * n) = some y ∧ x ≤ y) ∧
    (∃ x y, b.arclen n = some x ∧ b.arclen (m * n) = some y ∧ x ≤ y) := by
  refine ⟨⟨_, _, C15_actual q n, C15_actual q (m * n), ?_⟩,
    ⟨_, _, C26_actual c n, C26_actual c (m * n), ?_⟩, ?_⟩
  · exact sampled_refine (fun t => q.eval t) n m hm
  · exact sampled_refine (fun t => c.eval t) n m hm
  · obtain ⟨f, _, ha⟩ := C39_actual b hN
    exact ⟨_, _, ha n, ha (m * n), sampled_refine f n m hm⟩

/-! ### Comparison with the control polygon -/

/-- A Bernstein sum with sorted coefficients is monotone on [0, 1]. -/
theorem bernstein_mono (g : Fin N → ℝ) (hg : ∀ j k, j ≤ k → g j ≤ g k) {s t : ℝ} (hs : 0 ≤ s)
    (hst : s ≤ t) (ht : t ≤ 1) :
    ∑ k : Fin N, bernstein (N - 1) k s * g k ≤ ∑ k : Fin N, bernstein (N - 1) k t * g k := by
  rcases Nat.eq_zero_or_pos N with rfl | hN
  · simp
  let b : Bezier (PointN ℝ 1) N := ⟨fun k => PointN.new fun _ => g k⟩
  obtain ⟨p, hp, hc⟩ := C30_eval b hN s
  obtain ⟨q, hq, hd⟩ := C30_eval b hN t
  have := C69_axis b 0 (fun j k h => by
    rw [coord_pn1, coord_pn1]; exact hg j k h) s t hs hst ht p q hp hq
  rw [hc, hd] at this
  exact this

theorem dot_le {n : ℕ} {a x : ℕ → ℝ} (ha : ∑ i ∈ Finset.range n, a i ^ 2 ≤ 1) :
    ∑ i ∈ Finset.range n, a i * x i ≤ Real.sqrt (∑ i ∈ Finset.range n, x i ^ 2) := by
  refine (Real.sum_mul_le_sqrt_mul_sqrt _ _ _).trans ?_
  have h1 : Real.sqrt (∑ i ∈ Finset.range n, a i ^ 2) ≤ 1 := Real.sqrt_le_one.2 ha
  exact mul_le_of_le_one_left (Real.sqrt_nonneg _) h1

/-- A vector whose component in every direction is at most `L` is at most `L` long. -/
theorem length_le_of_dot {n : ℕ} {x : ℕ → ℝ} {L : ℝ}
    (h : ∀ a : ℕ → ℝ, ∑ i ∈ Finset.range n, a i ^ 2 ≤ 1 → ∑ i ∈ Finset.range n, a i * x i ≤ L) :
    Real.sqrt (∑ i ∈ Finset.range n, x i ^ 2) ≤ L := by
  set S := ∑ i ∈ Finset.range n, x i ^ 2 with hS
  have S0 : 0 ≤ S := Finset.sum_nonneg fun _ _ => sq_nonneg _
  rcases eq_or_lt_of_le S0 with h0 | h0
  · rw [← h0, Real.sqrt_zero]
    have := h (fun _ => 0) (by simp)
    simpa using this
  have r0 : 0 < Real.sqrt S := Real.sqrt_pos.2 h0
  have r2 : Real.sqrt S * Real.sqrt S = S := Real.mul_self_sqrt S0
  have := h (fun i => x i / Real.sqrt S) (by
    simp only [div_pow]
    rw [← Finset.sum_div, ← hS, Real.sq_sqrt S0, div_self h0.ne'])
  have e : ∑ i ∈ Finset.range n, x i / Real.sqrt S * x i = Real.sqrt S := by
    have : ∀ i ∈ Finset.range n, x i / Real.sqrt S * x i = x i ^ 2 / Real.sqrt S := by
      intro i _; ring
    rw [Finset.sum_congr rfl this, ← Finset.sum_div, ← hS, div_eq_iff r0.ne', r2]
  linarith

/-- Length of the control polygon up to the point `k`. -/
noncomputable def polygonUpTo (ps : Fin N → P) (k : ℕ) : ℝ :=
  ∑ j ∈ Finset.range k,
    if h : j + 1 < N then pdist (ps ⟨j, by omega⟩) (ps ⟨j + 1, h⟩) else 0

theorem polygonUpTo_step (ps : Fin N → P) (a : ℕ → ℝ)
    (ha : ∑ i ∈ Finset.range (Point.dim P), a i ^ 2 ≤ 1) (j d : ℕ) (h : j + d < N) :
    polygonUpTo ps j - side a 0 (ps ⟨j, by omega⟩)
      ≤ polygonUpTo ps (j + d) - side a 0 (ps ⟨j + d, h⟩) := by
  induction d with
  | zero => exact le_rfl
  | succ d ih =>
    refine (ih (by omega)).trans ?_
    have e : polygonUpTo ps (j + (d + 1)) = polygonUpTo ps (j + d)
        + pdist (ps ⟨j + d, by omega⟩) (ps ⟨j + d + 1, h⟩) := by
      unfold polygonUpTo
      rw [show j + (d + 1) = j + d + 1 by omega, Finset.sum_range_succ, dif_pos (by omega)]
    rw [e]
    have := dot_le (n := Point.dim P) (a := a)
      (x := fun i => coord (ps ⟨j + d + 1, h⟩) i - coord (ps ⟨j + d, by omega⟩) i) ha
    simp only [mul_sub, Finset.sum_sub_distrib] at this
    rw [pdist_comm, pdist]
    unfold side
    simp only [← Nat.add_assoc]
    linarith

/-- The chord between two parameters is at most the change of the length polynomial whose
coefficients are the lengths of the control polygon. -/
theorem chord_le_polygon (ps : Fin N → P) {s t : ℝ} (hs : 0 ≤ s) (hst : s ≤ t) (ht : t ≤ 1)
    {p q : P} (hp : ∀ i, coord p i = bezierCoord ps s i)
    (hq : ∀ i, coord q i = bezierCoord ps t i) :
    pdist p q ≤ ∑ k : Fin N, bernstein (N - 1) k t * polygonUpTo ps k
      - ∑ k : Fin N, bernstein (N - 1) k s * polygonUpTo ps k := by
  rw [pdist_comm, pdist]
  refine length_le_of_dot fun a ha => ?_
  have mono := bernstein_mono (fun k : Fin N => polygonUpTo ps k - side a 0 (ps k))
    (fun j k h => by
      have := polygonUpTo_step ps a ha j (k - j) (by have := k.isLt; omega)
      have e : j.val + (k.val - j.val) = k.val := by have : j.val ≤ k.val := h; omega
      simp only [e] at this
      exact this) hs hst ht
  have es : ∀ u : ℝ, ∀ r : P, (∀ i, coord r i = bezierCoord ps u i) →
      ∑ k : Fin N, bernstein (N - 1) k u * (polygonUpTo ps k - side a 0 (ps k))
        = ∑ k : Fin N, bernstein (N - 1) k u * polygonUpTo ps k
          - ∑ i ∈ Finset.range (Point.dim P), a i * coord r i := by
    intro u r hr
    simp only [mul_sub, Finset.sum_sub_distrib, hr, bezierCoord, side, sub_zero, Finset.mul_sum]
    rw [Finset.sum_comm]
    congr 1
    refine Finset.sum_congr rfl fun i _ => Finset.sum_congr rfl fun k _ => ?_
    ring
  rw [es s p hp, es t q hq] at mono
  simp only [mul_sub, Finset.sum_sub_distrib]
  linarith

theorem sampled_le_polygon (b : Bezier P N) (hN : 1 ≤ N) (f : ℝ → P)
    (hf : ∀ t, b.eval t = some (f t)) (n : ℕ) :
    polylineLength (fun i : ℕ => f ((i : ℝ) / n)) 1 n
      ≤ controlPolygonLength b.control_points := by
  have hc : ∀ (t : ℝ) (i : ℕ), coord (f t) i = bezierCoord b.control_points t i := by
    intro t i
    obtain ⟨p, hp, h⟩ := C30_eval b hN t
    rw [hf] at hp
    cases hp
    exact h i
  rcases Nat.eq_zero_or_pos n with rfl | hn
  · unfold polylineLength
    simp only [show Finset.Ico 1 0 = ∅ from by decide, Finset.sum_empty]
    unfold controlPolygonLength
    refine Finset.sum_nonneg fun k _ => ?_
    split
    · exact pdist_nonneg _ _
    · exact le_rfl
  have n0 : (0 : ℝ) < n := by exact_mod_cast hn
  have h1 : polylineLength (fun i : ℕ => f ((i : ℝ) / n)) 1 n
      ≤ polylineLength (fun i : ℕ => f ((i : ℝ) / n)) 0 n := by
    rw [polyline_split _ (Nat.zero_le 1) hn]
    have := polyline_nonneg (fun i : ℕ => f ((i : ℝ) / n)) 0 1
    linarith
  let L : ℕ → ℝ := fun i =>
    ∑ k : Fin N, bernstein (N - 1) k ((i : ℝ) / n) * polygonUpTo b.control_points k
  have h2 : polylineLength (fun i : ℕ => f ((i : ℝ) / n)) 0 n ≤ L n - L 0 := by
    rw [← Finset.sum_range_sub L n, polylineLength, Finset.range_eq_Ico]
    refine Finset.sum_le_sum fun i hi => ?_
    have hin : i < n := (Finset.mem_Ico.1 hi).2
    refine chord_le_polygon b.control_points (by positivity) ?_ ?_ (hc _) (hc _)
    · gcongr; simp
    · rw [div_le_one n0]; exact_mod_cast hin
  have e0 : 0 ≤ L 0 := by
    refine Finset.sum_nonneg fun k _ => mul_nonneg (bernstein_nonneg (by simp) (by simp)) ?_
    refine Finset.sum_nonneg fun j _ => ?_
    split
    · exact pdist_nonneg _ _
    · exact le_rfl
  have e1 : L n ≤ controlPolygonLength b.control_points := by
    have hw : ∀ k : Fin N, polygonUpTo b.control_points k
        ≤ controlPolygonLength b.control_points := by
      intro k
      refine Finset.sum_le_sum_of_subset_of_nonneg ?_ ?_
      · intro j hj
        have := k.isLt
        simp only [Finset.mem_range] at *
        omega
      · intro j _ _
        split
        · exact pdist_nonneg _ _
        · exact le_rfl
    have hs : ∑ k : Fin N, bernstein (N - 1) k ((n : ℝ) / n) = 1 := by
      rw [Fin.sum_univ_eq_sum_range (fun k => bernstein (N - 1) k ((n : ℝ) / n)) N]
      have := bernstein_sum (N - 1) ((n : ℝ) / n)
      rwa [show N - 1 + 1 = N by omega] at this
    rw [← one_mul (controlPolygonLength _), ← hs, Finset.sum_mul]
    refine Finset.sum_le_sum fun k _ => mul_le_mul_of_nonneg_left (hw k) ?_
    rw [div_self n0.ne']
    exact bernstein_nonneg zero_le_one le_rfl
  linarith

/-- **C71**: the reported length never exceeds the length of the control polygon. -/
theorem C71_control_polygon (b : Bezier P N) (hN : 1 ≤ N) (n : ℕ) :
    ∃ x, b.arclen n = some x ∧ x ≤ controlPolygonLength b.control_points := by
  obtain ⟨f, hf, ha⟩ := C39_actual b hN
  exact ⟨_, ha n, sampled_le_polygon b hN f hf n⟩

/-- **C71** for the specialised curves. -/
theorem C71_control_polygon_specialised (q : QuadraticBezier P) (c : CubicBezier P) (n : ℕ) :
    (∃ x, q.arclen n = some x ∧ x ≤ pdist q.start q.ctrl + pdist q.ctrl q.end_) ∧
    (∃ x, c.arclen n = some x ∧
      x ≤ pdist c.start c.ctrl1 + pdist c.ctrl1 c.ctrl2 + pdist c.ctrl2 c.end_) := by
  refine ⟨⟨_, C15_actual q n, ?_⟩, ⟨_, C26_actual c n, ?_⟩⟩
  · have := sampled_le_polygon (Bezier.new ![q.start, q.ctrl, q.end_]) (by norm_num)
      (fun t => q.eval t) (fun t => C32_quadratic_eval _ _ _ t) n
    refine this.trans (le_of_eq ?_)
    simp [controlPolygonLength, Finset.sum_range_succ, Bezier.new]
  · have := sampled_le_polygon (Bezier.new ![c.start, c.ctrl1, c.ctrl2, c.end_]) (by norm_num)
      (fun t => c.eval t) (fun t => C32_cubic_eval _ _ _ _ t) n
    refine this.trans (le_of_eq ?_)
    simp [controlPolygonLength, Finset.sum_range_succ, Bezier.new]

/-- **C71**: so the true arc length never exceeds it either. -/
theorem C71_arc_length (b : Bezier P N) (hN : 1 ≤ N) :
    arcLength (Point.dim P) (fun t i => deriv (fun u => bezierCoord b.controlPoints u i) t)
      ≤ controlPolygonLength b.control_points := by
  obtain ⟨L, hL, _, ht⟩ := C39_partial b hN
  refine le_of_tendsto' ht fun n => ?_
  obtain ⟨x, hx, h⟩ := C71_control_polygon b hN n
  rw [hL n] at hx
  cases hx
  exact h

/-- **C71**: the reported length is at least the distance from the first sample to the end. -/
theorem C71_at_least_chord (q : QuadraticBezier P) (c : CubicBezier P) (n : ℕ) (hn : 1 ≤ n) :
    (∃ x, q.arclen n = some x ∧ pdist (q.eval (1 / n : ℝ)) q.end_ ≤ x) ∧
    (∃ x, c.arclen n = some x ∧ pdist (c.eval (1 / n : ℝ)) c.end_ ≤ x) := by
  have n0 : (n : ℝ) ≠ 0 := by positivity
  refine ⟨⟨_, C15_actual q n, ?_⟩, ⟨_, C26_actual c n, ?_⟩⟩
  · have := chord_le_polyline (fun i : ℕ => q.eval ((i : ℝ) / n)) 1 (n - 1)
    rw [show 1 + (n - 1) = n by omega, Nat.cast_one, div_self n0, (C10_endpoints q).2] at this
    exact this
  · have := chord_le_polyline (fun i : ℕ => c.eval ((i : ℝ) / n)) 1 (n - 1)
    rw [show 1 + (n - 1) = n by omega, Nat.cast_one, div_self n0, (C20_endpoints c).2] at this
    exact this

/-! ### Similarities -/

theorem polyline_similar {Q : Type} [Point ℝ Q] {f : P → Q} {r : ℝ}
    (hf : ∀ p q, pdist (f p) (f q) = r * pdist p q) (g : ℕ → P) (a b : ℕ) :
    polylineLength (fun i => f (g i)) a b = r * polylineLength g a b := by
  unfold polylineLength
  simp only [hf, Finset.mul_sum]

/-- **C71**: a similarity with factor `r` multiplies the reported length by `r`; in particular
translations and rotations leave it alone. -/
theorem C71_similarity {Q : Type} [Point ℝ Q] [LawfulPoint Q] (f : P → Q) (r : ℝ)
    (hf : IsSimilarity f r) (q : QuadraticBezier P) (c : CubicBezier P) (b : Bezier P N)
    (hN : 1 ≤ N) (n : ℕ) :
    (∃ x, q.arclen n = some x ∧
      (QuadraticBezier.new (f q.start) (f q.ctrl) (f q.end_)).arclen n = some (r * x)) ∧
    (∃ x, c.arclen n = some x ∧
      (CubicBezier.new (f c.start) (f c.ctrl1) (f c.ctrl2) (f c.end_)).arclen n
        = some (r * x)) ∧
    (∃ x, b.arclen n = some x ∧
      (Bezier.new fun k => f (b.control_points k)).arclen n = some (r * x)) := by
  refine ⟨⟨_, C15_actual q n, ?_⟩, ⟨_, C26_actual c n, ?_⟩, ?_⟩
  · rw [C15_actual, ← polyline_similar hf.2]
    simp only [(C37_specialised f hf.1 q.start q.ctrl q.end_ q.end_ _).2.1]
    rfl
  · rw [C26_actual, ← polyline_similar hf.2]
    simp only [(C37_specialised f hf.1 c.start c.ctrl1 c.ctrl2 c.end_ _).2.2]
    rfl
  · obtain ⟨g, hg, ha⟩ := C39_actual b hN
    obtain ⟨g', hg', ha'⟩ := C39_actual (Bezier.new fun k => f (b.control_points k)) hN
    refine ⟨_, ha n, ?_⟩
    rw [ha' n, ← polyline_similar hf.2]
    have : ∀ t, g' t = f (g t) := by
      intro t
      have := C37_bezier f hf.1 b t
      rw [hg, hg'] at this
      exact Option.some.inj this
    simp only [this]

/-- Translations are similarities with factor 1, ... -/
theorem translation_similarity (v : P) : IsSimilarity (fun p : P => p + v) 1 := by
  refine ⟨fun i => ?_, fun p q => ?_⟩
  · by_cases hi : i < Point.dim P
    · refine ⟨fun j => if j = i then 1 else 0, coord v i, fun p => ?_⟩
      rw [coord_add]
      simp [hi]
    · exact ⟨fun _ => 0, 0, fun p => by rw [coord_out _ hi]; simp⟩
  · unfold pdist
    simp only [coord_add, one_mul]
    congr 1
    exact Finset.sum_congr rfl fun i _ => by ring

/-- ... and scaling by `s` is a similarity with factor `|s|`. -/
theorem scaling_similarity (s : ℝ) : IsSimilarity (fun p : P => p * s) |s| := by
  refine ⟨fun i => ?_, fun p q => ?_⟩
  · by_cases hi : i < Point.dim P
    · refine ⟨fun j => if j = i then s else 0, 0, fun p => ?_⟩
      rw [coord_mul]
      simp [hi, mul_comm]
    · exact ⟨fun _ => 0, 0, fun p => by rw [coord_out _ hi]; simp⟩
  · unfold pdist
    rw [← Real.sqrt_sq_eq_abs, ← Real.sqrt_mul (sq_nonneg s), Finset.mul_sum]
    congr 1
    simp only [coord_mul]
    exact Finset.sum_congr rfl fun i _ => by ring

/-- Test: a rotation of the plane by a right angle is a similarity with factor 1. -/
example : IsSimilarity (fun p : PointN ℝ 2 => pt2 (-coord p 1) (coord p 0)) 1 := by
  have hd : Point.dim (PointN ℝ 2) = 2 := rfl
  refine ⟨fun i => ?_, fun p q => ?_⟩
  · by_cases hi : i < 2
    · interval_cases i
      · refine ⟨fun j => if j = 1 then -1 else 0, 0, fun p => ?_⟩
        rw [hd, Finset.sum_range_succ, Finset.sum_range_one]; simp
      · refine ⟨fun j => if j = 0 then 1 else 0, 0, fun p => ?_⟩
        rw [hd, Finset.sum_range_succ, Finset.sum_range_one]; simp
    · exact ⟨fun _ => 0, 0, fun p => by rw [coord_out _ hi]; simp⟩
  · rw [pdist_pt2, pdist, hd, Finset.sum_range_succ, Finset.sum_range_one, one_mul]
    congr 1; ring

/-! ### Reversal -/

theorem polyline_reverse (f : ℕ → P) (n : ℕ) :
    polylineLength (fun i => f (n - i)) 0 n = polylineLength f 0 n := by
  unfold polylineLength
  rw [← Finset.range_eq_Ico, ← Finset.sum_range_reflect]
  refine Finset.sum_congr rfl fun i hi => ?_
  have : i < n := Finset.mem_range.1 hi
  simp only []
  rw [pdist_comm, show n - (n - 1 - i + 1) = i by omega, show n - (n - 1 - i) = i + 1 by omega]

theorem sampled_reverse (g h : ℝ → P) (e : ∀ t, h t = g (1 - t)) (n : ℕ) (hn : 1 ≤ n) :
    pdist (g 0) (g (1 / n)) + polylineLength (fun i : ℕ => g ((i : ℝ) / n)) 1 n
      = pdist (h 0) (h (1 / n)) + polylineLength (fun i : ℕ => h ((i : ℝ) / n)) 1 n := by
  have n0 : (n : ℝ) ≠ 0 := by positivity
  have k : ∀ g : ℝ → P, pdist (g 0) (g (1 / n)) + polylineLength (fun i : ℕ => g ((i : ℝ) / n)) 1 n
      = polylineLength (fun i : ℕ => g ((i : ℝ) / n)) 0 n := by
    intro g
    rw [polyline_first _ hn]
    simp
  rw [k, k, ← polyline_reverse]
  unfold polylineLength
  refine Finset.sum_congr rfl fun i hi => ?_
  have : i < n := (Finset.mem_Ico.1 hi).2
  have e1 : ∀ j : ℕ, j ≤ n → h ((j : ℝ) / n) = g (((n - j : ℕ) : ℝ) / n) := by
    intro j hj
    rw [e, Nat.cast_sub hj, sub_div, div_self n0]
  show pdist _ _ = pdist (h ((i : ℝ) / n)) (h (((i + 1 : ℕ) : ℝ) / n))
  rw [e1 i (by omega), e1 (i + 1) (by omega)]

/-- **C71**: what a reversal does: the reported lengths differ by the difference of the two
chords that are left out, the first one of either direction. -/
theorem C71_reverse_partial (a b c d : P) (n : ℕ) (hn : 1 ≤ n) :
    (∃ x y, (QuadraticBezier.new a b c).arclen n = some x ∧
      (QuadraticBezier.new c b a).arclen n = some y ∧
      pdist a ((QuadraticBezier.new a b c).eval (1 / n : ℝ)) + x
        = pdist c ((QuadraticBezier.new c b a).eval (1 / n : ℝ)) + y) ∧
    (∃ x y, (CubicBezier.new a b c d).arclen n = some x ∧
      (CubicBezier.new d c b a).arclen n = some y ∧
      pdist a ((CubicBezier.new a b c d).eval (1 / n : ℝ)) + x
        = pdist d ((CubicBezier.new d c b a).eval (1 / n : ℝ)) + y) := by
  refine ⟨⟨_, _, C15_actual _ n, C15_actual _ n, ?_⟩, ⟨_, _, C26_actual _ n, C26_actual _ n, ?_⟩⟩
  · have := sampled_reverse (fun t => (QuadraticBezier.new a b c).eval t)
      (fun t => (QuadraticBezier.new c b a).eval t)
      (fun t => (C38_specialised a b c d t).2.1) n hn
    simp only [(C10_endpoints _).1] at this
    exact this
  · have := sampled_reverse (fun t => (CubicBezier.new a b c d).eval t)
      (fun t => (CubicBezier.new d c b a).eval t)
      (fun t => (C38_specialised a b c d t).2.2) n hn
    simp only [(C20_endpoints _).1] at this
    exact this

/-- **C71** is false for reversal: a curve and the same curve run backwards have different
lengths according to `arclen(2)`. -/
theorem C71_reverse_false : ∃ a b c : PointN ℝ 2, ∃ x y,
    (QuadraticBezier.new a b c).arclen 2 = some x ∧
    (QuadraticBezier.new c b a).arclen 2 = some y ∧ x ≠ y := by
  refine ⟨pt2 0 0, pt2 0 0, pt2 1 0, _, _, C15_actual _ 2, C15_actual _ 2, ?_⟩
  have key : ∀ u v w : PointN ℝ 2, ∀ x y : ℝ,
      (QuadraticBezier.new u v w).eval (1 / 2 : ℝ) = pt2 x 0 →
      (QuadraticBezier.new u v w).eval (1 : ℝ) = pt2 y 0 →
      polylineLength (fun i : ℕ => (QuadraticBezier.new u v w).eval ((i : ℝ) / (2 : ℕ))) 1 2
        = |x - y| := by
    intro u v w x y h1 h2
    unfold polylineLength
    rw [Finset.sum_Ico_succ_top (by norm_num), Finset.Ico_self, Finset.sum_empty, zero_add]
    norm_num only [Nat.cast_one, Nat.cast_ofNat, Nat.reduceAdd]
    rw [h1, h2, pdist_pt2, sub_self, zero_pow (by norm_num), add_zero, Real.sqrt_sq_eq_abs]
  have p2 : ∀ p : PointN ℝ 2, ∀ x : ℝ, coord p 0 = x → coord p 1 = 0 → p = pt2 x 0 := by
    intro p x h0 h1
    apply point_ext
    intro i
    by_cases hi : i < 2
    · interval_cases i
      · rw [h0, coord_pt2_0]
      · rw [h1, coord_pt2_1]
    · rw [coord_out _ hi, coord_out _ hi]
  rw [key _ _ _ (1 / 4) 1 (p2 _ _ _ _) (p2 _ _ _ _), key _ _ _ (1 / 4) 0 (p2 _ _ _ _) (p2 _ _ _ _)]
  · norm_num
  all_goals
    simp only [C10_eval, QuadraticBezier.new, coord_pt2_0, coord_pt2_1]
    norm_num

end Stroke
