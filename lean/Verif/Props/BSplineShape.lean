import Verif.Props.BSpline

/-!
# B-splines: weights, translation, convexity, locality (C50, C51)
-/

set_option linter.unusedSectionVars false

namespace Stroke

variable {P : Type} [Point ℝ P] [LawfulPoint P] {K C D : ℕ}

/-- A sum over the control points of one span, written as a sum over all of them. -/
theorem sum_span_eq (w : ℕ → ℝ) {k : ℕ} (hDk : D ≤ k) (hkC : k ≤ C) (ps : Arr P C) (c : ℕ) :
    ∑ m ∈ Finset.range D, w m * coord (extend ps (m + k - D)) c
      = ∑ i : Fin C, (if k - D ≤ i.val ∧ i.val < k then w (i.val - (k - D)) else 0)
        * coord (ps i) c := by
  have e1 : ∑ i : Fin C, (if k - D ≤ i.val ∧ i.val < k then w (i.val - (k - D)) else 0)
        * coord (ps i) c
      = ∑ i ∈ Finset.range C, (if k - D ≤ i ∧ i < k then w (i - (k - D)) else 0)
        * coord (extend ps i) c := by
    rw [← Fin.sum_univ_eq_sum_range
      (fun i => (if k - D ≤ i ∧ i < k then w (i - (k - D)) else 0) * coord (extend ps i) c)]
    exact Finset.sum_congr rfl fun i _ => by rw [extend_lt ps i.2]
  rw [e1]
  symm
  rw [← Finset.sum_subset (s₁ := Finset.image (fun m => k - D + m) (Finset.range D))]
  · rw [Finset.sum_image (by intro a _ b _ h; simpa using h)]
    apply Finset.sum_congr rfl
    intro m hm
    have := Finset.mem_range.1 hm
    rw [if_pos (by omega), show k - D + m - (k - D) = m by omega, show m + k - D = k - D + m by omega]
  · intro i hi
    simp only [Finset.mem_image, Finset.mem_range] at hi ⊢
    obtain ⟨m, hm', rfl⟩ := hi
    omega
  · intro i hi hni
    rw [if_neg, zero_mul]
    rintro ⟨h1, h2⟩
    apply hni
    simp only [Finset.mem_image, Finset.mem_range]
    exact ⟨i - (k - D), by omega, by omega⟩

theorem sum_span_weights (w : ℕ → ℝ) {k : ℕ} (hDk : D ≤ k) (hkC : k ≤ C) :
    ∑ i : Fin C, (if k - D ≤ i.val ∧ i.val < k then w (i.val - (k - D)) else 0)
      = ∑ m ∈ Finset.range D, w m := by
  have := sum_span_eq w hDk hkC (fun _ : Fin C => p1 1) 0
  simp only [coord_p1, mul_one] at this
  rw [← this]
  apply Finset.sum_congr rfl
  intro m hm
  have := Finset.mem_range.1 hm
  rw [extend_lt _ (by omega), coord_p1, mul_one]

/-- Where evaluation succeeds up to `knots[C]`, it returns the last control point or the value
of one span. -/
theorem eval_ok_cases {knots : Arr ℝ K} {ps : Arr P C} {b : BSpline ℝ P K C D}
    (h : BSpline.new knots ps = .ok b) {t : ℝ} (ht : t ≤ knotAt knots C) {q : P}
    (hq : b.eval t = .ok q) :
    (t = knotAt knots C) ∨ ∃ k, t < knotAt knots (k + 1) ∧ k + 1 < K ∧ (D = 0 ∨ D ≤ k ∧ k ≤ C) ∧
      ∀ (ps' : Arr P C) (b' : BSpline ℝ P K C D), BSpline.new knots ps' = .ok b' →
        b'.eval t = .ok (deBoorValue knots ps' D t k) := by
  rcases eq_or_lt_of_le ht with h0 | htC
  · exact Or.inl h0
  right
  have hd := knotDomain_eq h
  have hv := ((new_ok_iff _ _ _).1 h).1
  obtain ⟨v1, v2, v3⟩ := id hv
  have hin : ∀ lo hi, b.knotDomain = some (lo, hi) → lo ≤ t ∧ t ≤ hi := by
    intro lo hi hd
    by_contra hcon
    rw [eval_err hd (by by_contra h2; push Not at h2; exact hcon h2)] at hq
    exact absurd hq (by simp)
  obtain ⟨hlo, hhi⟩ := hin _ _ hd
  have hkey : ∃ k, b.knotSpanStart t = some (some k) ∧ t < knotAt knots (k + 1) ∧ k + 1 < K := by
    by_cases f : FrontClamped D knots
    · by_cases g : BackClamped D knots
      · rw [if_neg (by tauto)] at hlo
        obtain ⟨k, e, h3, h4, h5, h6⟩ := span_clamped h f g hlo htC
        exact ⟨k, e, h6, by omega⟩
      · rw [if_neg (by tauto)] at hlo
        obtain ⟨k, e, h3, h4, h5, h6⟩ := span_clampedStart h f g hlo
          (htC.trans_le (mono_knotAt v3 (by omega) (by omega)))
        exact ⟨k, e, h6, by omega⟩
    · by_cases g : BackClamped D knots
      · rw [if_pos ⟨f, g⟩] at hlo
        obtain ⟨k, e, h4, h5, h6⟩ := span_clampedEnd h f g hlo htC
        exact ⟨k, e, h6, by omega⟩
      · obtain ⟨k, e, h4, h5, h6⟩ := span_unclamped h f g htC
        exact ⟨k, e, h6, by omega⟩
  obtain ⟨k, hk, h3, h4⟩ := hkey
  refine ⟨k, h3, h4, ?_, ?_⟩
  · by_contra hcon
    push Not at hcon
    rw [eval_inside hd hlo hhi, deBoorIterative_panic b v2 t k
      (by rw [(new_stores h).1]; exact htC.ne) hk (by omega) (by omega)] at hq
    exact absurd hq (by simp)
  · intro ps' b' h'
    have hk' : b'.knotSpanStart t = some (some k) := by
      rw [← hk, ((new_ok_iff _ _ _).1 h).2, ((new_ok_iff _ _ _).1 h').2]
      rfl
    rw [eval_inside (knotDomain_eq h') hlo hhi, deBoorIterative_ok b' v2 t k
      (by rw [(new_stores h').1]; exact htC.ne) hk' ?_, (new_stores h').1, (new_stores h').2.1]
    by_contra hcon
    push Not at hcon
    rw [eval_inside hd hlo hhi, deBoorIterative_panic b v2 t k
      (by rw [(new_stores h).1]; exact htC.ne) hk (by omega) (by omega)] at hq
    exact absurd hq (by simp)

/-- **C50**: wherever `eval` succeeds (up to `knots[C]`), the result is a combination of the
control points with weights that do not depend on the control points, are not negative, and
have a sum of at most 1.  Missing for the full claim: the sum is not 1 in general, so
translation invariance and the convex hull property fail (`C50_false`). -/
theorem C50_partial {knots : Arr ℝ K} {ps : Arr P C} {b : BSpline ℝ P K C D}
    (h : BSpline.new knots ps = .ok b) {t : ℝ} (ht : t ≤ knotAt knots C) {q : P}
    (hq : b.eval t = .ok q) :
    ∃ w : Fin C → ℝ, (∀ i, 0 ≤ w i) ∧ ∑ i, w i ≤ 1 ∧
      ∀ (ps' : Arr P C) (b' : BSpline ℝ P K C D), BSpline.new knots ps' = .ok b' →
        ∃ q', b'.eval t = .ok q' ∧ ∀ c, coord q' c = ∑ i, w i * coord (ps' i) c := by
  obtain ⟨v1, v2, v3⟩ := ((new_ok_iff _ _ _).1 h).1
  rcases eval_ok_cases h ht hq with rfl | ⟨k, h3, h4, hk, hev⟩
  · refine ⟨fun i => if i = ⟨C - 1, by omega⟩ then 1 else 0, fun i => by
      dsimp only; split_ifs <;> norm_num, by simp, fun ps' b' h' => ⟨_, eval_end h', fun c => ?_⟩⟩
    rw [extend_lt _ (by omega)]
    simp
  · rcases Nat.eq_zero_or_pos D with rfl | hD
    · refine ⟨fun _ => 0, fun _ => le_rfl, by simp, fun ps' b' h' => ⟨_, hev ps' b' h',
        fun c => ?_⟩⟩
      rw [coord_deBoorValue_weights]
      simp
    · have hk : D ≤ k ∧ k ≤ C := by omega
      set a : ℕ → ℕ → ℝ := fun r j => alphaVal (knotAt knots) D t r (j + k - D) with ha
      have hnn : ∀ m, 0 ≤ dbw a D D m := fun m => dbw_nonneg (n := D + 1)
        (fun r j hr1 hr hj => alphaVal_mem v3 hk.1 (by omega) h3.le hr1 hr (by omega)) D D m
        (Nat.lt_succ_self D)
      refine ⟨fun i => if k - D ≤ i.val ∧ i.val < k then dbw a D D (i.val - (k - D)) else 0,
        fun i => ?_, ?_, fun ps' b' h' => ⟨_, hev ps' b' h', fun c => ?_⟩⟩
      · dsimp only
        split_ifs
        · exact hnn _
        · exact le_rfl
      · rw [sum_span_weights (fun m => dbw a D D m) hk.1 hk.2]
        have := dbw_sum a (D + 1) D D (Nat.lt_succ_self D)
        rw [Finset.sum_range_succ] at this
        have := hnn D
        linarith
      · rw [coord_deBoorValue_weights, sum_span_eq (fun m => dbw a D D m) hk.1 hk.2]

/-- The hypotheses of `C50_partial` hold for the clamped spline through 0 and 10. -/
example : ∃ (b : BSpline ℝ (PointN ℝ 1) 4 2 1) (q : PointN ℝ 1),
    BSpline.new ![0, 0, 1, 1] ![p1 0, p1 10] = .ok b ∧
    (1 / 2 : ℝ) ≤ knotAt (![0, 0, 1, 1] : Fin 4 → ℝ) 2 ∧ b.eval (1 / 2 : ℝ) = .ok q := by
  obtain ⟨b, hb, he⟩ := eval_0011 0 10
  exact ⟨b, _, hb, by norm_num [knotAt], he⟩

/-- **C50** is false of the code: a clamped spline all of whose control points are 5 evaluates
to 5/2 in the middle; moving all its control points by 1 moves this value by 1/2, and the value
is not a convex combination of the control points. -/
theorem C50_false : ∃ b b' : BSpline ℝ (PointN ℝ 1) 4 2 1,
    BSpline.new ![0, 0, 1, 1] ![p1 5, p1 5] = .ok b ∧
    BSpline.new ![0, 0, 1, 1] ![p1 6, p1 6] = .ok b' ∧
    b.eval (1 / 2 : ℝ) = .ok (p1 (5 / 2)) ∧ b'.eval (1 / 2 : ℝ) = .ok (p1 3) ∧
    ¬ ∃ w : Fin 2 → ℝ, IsConvexCombination w ![p1 5, p1 5] (p1 (5 / 2)) := by
  obtain ⟨b, hb, he⟩ := eval_0011 5 5
  obtain ⟨b', hb', he'⟩ := eval_0011 6 6
  refine ⟨b, b', hb, hb', he, by rw [he']; norm_num, ?_⟩
  rintro ⟨w, _, h1, h2⟩
  have := h2 0
  rw [Fin.sum_univ_two] at this h1
  simp only [coord_p1, Matrix.cons_val_zero, Matrix.cons_val_one] at this
  linarith

/-- **C51**: on a span `[knots[k], knots[k+1])` of a spline clamped on at least one side, the
result depends only on the control points k-D, ..., k. -/
theorem C51_local {knots : Arr ℝ K} {ps ps' : Arr P C} {b b' : BSpline ℝ P K C D}
    (h : BSpline.new knots ps = .ok b) (h' : BSpline.new knots ps' = .ok b')
    (hc : FrontClamped D knots ∨ BackClamped D knots) {t : ℝ} {k : ℕ} (hDk : D ≤ k) (hkC : k < C)
    (h1 : knotAt knots k ≤ t) (h2 : t < knotAt knots (k + 1))
    (hps : ∀ i : Fin C, k - D ≤ i.val → i.val ≤ k → ps i = ps' i) : b.eval t = b'.eval t := by
  rw [eval_in_span h hc hDk hkC h1 h2, eval_in_span h' hc hDk hkC h1 h2]
  congr 1
  apply point_ext
  intro c
  rw [coord_deBoorValue_weights, coord_deBoorValue_weights]
  apply Finset.sum_congr rfl
  intro m hm
  have := Finset.mem_range.1 hm
  rw [extend_lt _ (show m + k - D < C by omega), extend_lt _ (show m + k - D < C by omega),
    hps _ (by simp only; omega) (by simp only; omega)]

/-- The hypotheses of `C51_local` hold for a spline of degree 1 with an interior knot. -/
example (ps ps' : Arr (PointN ℝ 2) 3) (h0 : ps 0 = ps' 0) (h1 : ps 1 = ps' 1) :
    ∃ b b' : BSpline ℝ (PointN ℝ 2) 5 3 1,
      BSpline.new ![0, 0, 1, 2, 2] ps = .ok b ∧ BSpline.new ![0, 0, 1, 2, 2] ps' = .ok b' ∧
      b.eval (1 / 2 : ℝ) = b'.eval (1 / 2 : ℝ) := by
  have v : ValidSpline 3 1 (![0, 0, 1, 2, 2] : Fin 5 → ℝ) := by
    refine ⟨by norm_num, by norm_num, ?_⟩
    intro i j
    fin_cases i <;> fin_cases j <;> simp
  obtain ⟨b, hb⟩ := (C43_accepts (D := 1) _ ps).2 v
  obtain ⟨b', hb'⟩ := (C43_accepts (D := 1) _ ps').2 v
  refine ⟨b, b', hb, hb', C51_local hb hb' (Or.inl ?_) (k := 1) le_rfl (by norm_num) ?_ ?_ ?_⟩
  · exact (frontClamped_iff v).2 (by simp [knotAt, eps_pos])
  · norm_num [knotAt]
  · norm_num [knotAt]
  · intro i _ hi
    fin_cases i
    · exact h0
    · exact h1
    · exact absurd hi (by norm_num)

/-- Unclamped splines are not local: degree 1, knots 0, ..., 5, and t = 1.5, in the span of the
control points 0 and 1.  The result is control point 2. -/
theorem C51_false_unclamped (ps : Arr P 4) : ∃ b : BSpline ℝ P 6 4 1,
    BSpline.new (uniformKnots 6) ps = .ok b ∧ b.eval (3 / 2 : ℝ) = .ok (ps 2) ∧
    knotAt (uniformKnots 6) 1 ≤ 3 / 2 ∧ 3 / 2 < knotAt (uniformKnots 6) 2 := by
  obtain ⟨b, hb, he⟩ := eval_uniform_deg1 (C := 4) (by norm_num) ps
  refine ⟨b, hb, he, ?_, ?_⟩ <;> rw [knotAt_uniform (by norm_num)] <;> norm_num

end Stroke
