import Verif.Lemmas.BSplineSpan
import Verif.Lemmas.CoxDeBoor

/-!
# `eval` of constructed B-splines
-/

set_option linter.unusedSectionVars false

namespace Stroke

variable {P : Type} [Point ℝ P] {K C D : ℕ}

omit [Point ℝ P] in
open Classical in
/-- The knot domain of a constructed spline. -/
theorem knotDomain_eq {knots : Arr ℝ K} {ps : Arr P C} {b : BSpline ℝ P K C D}
    (h : BSpline.new knots ps = .ok b) :
    b.knotDomain = some
      (if ¬ FrontClamped D knots ∧ BackClamped D knots then knotAt knots 0 else knotAt knots D,
       if FrontClamped D knots ∧ ¬ BackClamped D knots then knotAt knots (K - 1)
       else knotAt knots C) := by
  obtain ⟨⟨h1, h2, h3⟩, rfl⟩ := (new_ok_iff _ _ _).1 h
  have e : K - 1 - D = C := by omega
  by_cases f : FrontClamped D knots <;> by_cases g : BackClamped D knots <;>
  · simp only [BSpline.knotDomain, kindOf, f, g, if_true, if_false, not_true, not_false_iff,
      BSpline.knotDomainClamped, BSpline.knotDomainClampedStart, BSpline.knotDomainClampedEnd,
      BSpline.knotDomainUnclamped, true_and, false_and, Option.bind_eq_bind]
    try rw [usub_le (show 1 ≤ K by omega)]
    try simp only [Option.bind_some]
    try rw [usub_le (show D ≤ K - 1 by omega)]
    try simp only [Option.bind_some]
    try rw [e]
    try rw [get?_knot _ (show D < K by omega)]
    try rw [get?_knot _ (show C < K by omega)]
    try rw [get?_knot _ (show 0 < K by omega)]
    try rw [get?_knot _ (show K - 1 < K by omega)]
    rfl

/-- The spline a constructor call with these arguments stores. -/
theorem new_stores {knots : Arr ℝ K} {ps : Arr P C} {b : BSpline ℝ P K C D}
    (h : BSpline.new knots ps = .ok b) : b.knots = knots ∧ b.control_points = ps ∧
      b.knot_kind = kindOf D knots := by
  obtain ⟨_, rfl⟩ := (new_ok_iff _ _ _).1 h
  exact ⟨rfl, rfl, rfl⟩

theorem eval_err {b : BSpline ℝ P K C D} {lo hi t : ℝ} (hd : b.knotDomain = some (lo, hi))
    (h : t < lo ∨ hi < t) : b.eval t = .err .KnotDomainViolation := by
  unfold BSpline.eval
  rw [hd]
  simp only [Outcome.ofOption_some, Outcome.ok_bind, lt_real]
  rw [if_pos (by simpa using h)]

theorem eval_inside {b : BSpline ℝ P K C D} {lo hi t : ℝ} (hd : b.knotDomain = some (lo, hi))
    (h1 : lo ≤ t) (h2 : t ≤ hi) : b.eval t = b.deBoorIterative t := by
  unfold BSpline.eval
  rw [hd]
  simp only [Outcome.ofOption_some, Outcome.ok_bind, lt_real]
  rw [if_neg (by simp [h1, h2])]

section Spans

variable {knots : Arr ℝ K} {ps : Arr P C} {b : BSpline ℝ P K C D}

theorem span_clamped (h : BSpline.new knots ps = .ok b) (hf : FrontClamped D knots)
    (hb : BackClamped D knots) {t : ℝ} (h1 : knotAt knots D ≤ t) (h2 : t < knotAt knots C) :
    ∃ k, b.knotSpanStart t = some (some k) ∧ D ≤ k ∧ k < C ∧ knotAt knots k ≤ t ∧
      t < knotAt knots (k + 1) := by
  obtain ⟨⟨v1, v2, v3⟩, rfl⟩ := (new_ok_iff _ _ _).1 h
  have e : C - 1 + 1 = C := by omega
  obtain ⟨k, hk, h3, h4, h5⟩ := spanLoop_spec v3 t _ D (C - 1) le_rfl (by omega) h1
    (by rwa [e]) (by omega)
  refine ⟨k, ?_, h3, by omega, h5⟩
  unfold BSpline.knotSpanStart
  simp only [kindOf, hf, hb, if_true, BSpline.spanClamped]
  rw [usub_le (by omega)]
  simp only [Option.bind_eq_bind, Option.bind_some, e]
  rw [get?_knot _ (by omega)]
  simp only [Option.bind_some, eq_real, h2.ne, decide_false, Bool.false_eq_true, if_false]
  exact hk

theorem span_clampedStart (h : BSpline.new knots ps = .ok b) (hf : FrontClamped D knots)
    (hb : ¬ BackClamped D knots) {t : ℝ} (h1 : knotAt knots D ≤ t)
    (h2 : t < knotAt knots (K - 1)) :
    ∃ k, b.knotSpanStart t = some (some k) ∧ D ≤ k ∧ k + 1 < K ∧ knotAt knots k ≤ t ∧
      t < knotAt knots (k + 1) := by
  obtain ⟨⟨v1, v2, v3⟩, rfl⟩ := (new_ok_iff _ _ _).1 h
  have e : K - 1 - 1 + 1 = K - 1 := by omega
  obtain ⟨k, hk, h3, h4, h5⟩ := spanLoop_spec v3 t _ D (K - 1 - 1) le_rfl (by omega) h1
    (by rwa [e]) (by omega)
  refine ⟨k, ?_, h3, by omega, h5⟩
  unfold BSpline.knotSpanStart
  simp only [kindOf, hf, hb, if_true, if_false, BSpline.spanClampedStart]
  rw [usub_le (show 1 ≤ C by omega), usub_le (show 1 ≤ K by omega)]
  simp only [Option.bind_eq_bind, Option.bind_some]
  rw [get?_knot _ (show K - 1 < K by omega), get?_knot _ (show D < K by omega),
    usub_le (show 1 ≤ K - 1 by omega)]
  simp only [Option.bind_some, eq_real, h2.ne, decide_false, Bool.false_eq_true, if_false,
    lt_real, not_lt.2 h1, not_lt.2 h2.le, Bool.or_self]
  rw [spanClampedStartLoop_eq]
  exact hk

theorem span_clampedEnd (h : BSpline.new knots ps = .ok b) (hf : ¬ FrontClamped D knots)
    (hb : BackClamped D knots) {t : ℝ} (h1 : knotAt knots 0 ≤ t) (h2 : t < knotAt knots C) :
    ∃ k, b.knotSpanStart t = some (some k) ∧ k < C ∧ knotAt knots k ≤ t ∧
      t < knotAt knots (k + 1) := by
  obtain ⟨⟨v1, v2, v3⟩, rfl⟩ := (new_ok_iff _ _ _).1 h
  have e : C - 1 + 1 = C := by omega
  obtain ⟨k, hk, h3, h4, h5⟩ := spanLoop_spec v3 t _ 0 (C - 1) le_rfl (by omega) h1
    (by rwa [e]) (by omega)
  refine ⟨k, ?_, by omega, h5⟩
  unfold BSpline.knotSpanStart
  simp only [kindOf, hf, hb, if_true, if_false, BSpline.spanClampedEnd]
  rw [usub_le (by omega)]
  simp only [Option.bind_eq_bind, Option.bind_some, e]
  rw [get?_knot _ (show C < K by omega), get?_knot _ (show 0 < K by omega)]
  simp only [Option.bind_some, eq_real, h2.ne, decide_false, Bool.false_eq_true, if_false,
    lt_real, not_lt.2 h1, not_lt.2 h2.le, Bool.or_self]
  rw [spanClampedEndLoop_eq]
  exact hk

theorem span_unclamped (h : BSpline.new knots ps = .ok b) (hf : ¬ FrontClamped D knots)
    (hb : ¬ BackClamped D knots) {t : ℝ} (h2 : t < knotAt knots C) :
    ∃ k, b.knotSpanStart t = some (some k) ∧ K / 2 ≤ k ∧ k + 1 < K ∧
      t < knotAt knots (k + 1) := by
  obtain ⟨v, rfl⟩ := (new_ok_iff _ _ _).1 h
  obtain ⟨v1, v2, v3⟩ := id v
  have hD : 1 ≤ D := by
    by_contra h0
    have h0 : D = 0 := by omega
    subst h0
    exact hf ((frontClamped_iff v).2 (by rw [sub_self]; exact eps_pos))
  obtain ⟨k, hk, h3, h4, h5⟩ := spanUnclamped_spec v3 v2 hD h2 K 0 K le_rfl (by omega) (by omega)
  refine ⟨k, ?_, by omega, h4, h5⟩
  unfold BSpline.knotSpanStart
  simp only [kindOf, hf, hb, if_false, BSpline.spanUnclamped]
  exact hk

/-- An unclamped or half clamped spline has degree at least 1. -/
theorem degree_pos_of_not_front (v : ValidSpline C D knots) (hf : ¬ FrontClamped D knots) :
    1 ≤ D := by
  by_contra h0
  have h0 : D = 0 := by omega
  subst h0
  exact hf ((frontClamped_iff v).2 (by rw [sub_self]; exact eps_pos))

theorem degree_pos_of_not_back (v : ValidSpline C D knots) (hb : ¬ BackClamped D knots) :
    1 ≤ D := by
  by_contra h0
  have h0 : D = 0 := by omega
  subst h0
  have e : K - 1 = C := by have := v.2.1; omega
  exact hb ((backClamped_iff v).2 (by rw [e, sub_self]; exact eps_pos))

/-- Evaluation at the end of the last span that D+1 basis functions cover. -/
theorem eval_end (h : BSpline.new knots ps = .ok b) :
    b.eval (knotAt knots C) = .ok (extend ps (C - 1)) := by
  have hd := knotDomain_eq h
  obtain ⟨v, hb⟩ := (new_ok_iff _ _ _).1 h
  obtain ⟨v1, v2, v3⟩ := id v
  have e := deBoorIterative_end b v2 (by omega)
  rw [hb] at e
  simp only at e
  rw [eval_inside hd]
  · rw [hb]; exact e
  · split_ifs
    · exact mono_knotAt v3 (Nat.zero_le _) (by omega)
    · exact mono_knotAt v3 (by omega) (by omega)
  · split_ifs
    · exact mono_knotAt v3 (by omega) (by omega)
    · exact le_rfl

/-- Evaluation inside a span that D+1 basis functions cover, for knot vectors clamped on at
least one side. -/
theorem eval_in_span (h : BSpline.new knots ps = .ok b)
    (hcl : FrontClamped D knots ∨ BackClamped D knots) {t : ℝ} {k : ℕ} (hDk : D ≤ k)
    (hkC : k < C) (h1 : knotAt knots k ≤ t) (h2 : t < knotAt knots (k + 1)) :
    b.eval t = .ok (deBoorValue knots ps D t k) := by
  have hd := knotDomain_eq h
  obtain ⟨v, hb⟩ := (new_ok_iff _ _ _).1 h
  obtain ⟨v1, v2, v3⟩ := id v
  have hDt : knotAt knots D ≤ t := (mono_knotAt v3 hDk (by omega)).trans h1
  have h0t : knotAt knots 0 ≤ t := (mono_knotAt v3 (Nat.zero_le _) (by omega)).trans h1
  have htC : t < knotAt knots C := h2.trans_le (mono_knotAt v3 (by omega) (by omega))
  have htK : t < knotAt knots (K - 1) := htC.trans_le (mono_knotAt v3 (by omega) (by omega))
  rw [eval_inside hd (by split_ifs; exacts [h0t, hDt]) (by split_ifs; exacts [htK.le, htC.le])]
  have hsp : b.knotSpanStart t = some (some k) := by
    by_cases f : FrontClamped D knots
    · by_cases g : BackClamped D knots
      · obtain ⟨k', e, h3, h4, h5, h6⟩ := span_clamped h f g hDt htC
        rw [e, span_unique v3 (by omega) (by omega) h5 h6 h1 h2]
      · obtain ⟨k', e, h3, h4, h5, h6⟩ := span_clampedStart h f g hDt htK
        rw [e, span_unique v3 (by omega) (by omega) h5 h6 h1 h2]
    · obtain ⟨k', e, h4, h5, h6⟩ := span_clampedEnd h f (hcl.resolve_left f) h0t htC
      rw [e, span_unique v3 (by omega) (by omega) h5 h6 h1 h2]
  have := deBoorIterative_ok b v2 t k (by rw [hb]; exact htC.ne) hsp (Or.inr ⟨hDk, hkC.le⟩)
  rw [this, hb]

/-- A parameter of `[u_D, u_C)` lies in exactly one span with D+1 basis functions. -/
theorem exists_span (v : ValidSpline C D knots) {t : ℝ} (h1 : knotAt knots D ≤ t)
    (h2 : t < knotAt knots C) :
    ∃ k, D ≤ k ∧ k < C ∧ knotAt knots k ≤ t ∧ t < knotAt knots (k + 1) := by
  obtain ⟨v1, v2, v3⟩ := v
  have e : C - 1 + 1 = C := by omega
  obtain ⟨k, hk, h3, h4, h5⟩ := spanLoop_spec v3 t _ D (C - 1) le_rfl (by omega) h1
    (by rwa [e]) (by omega)
  exact ⟨k, h3, by omega, h5⟩

/-- The factors lie in [0, 1]. -/
theorem alphaVal_mem (v : ∀ i j : Fin K, i ≤ j → knots i ≤ knots j) {t : ℝ} {k r j : ℕ}
    (hDk : D ≤ k) (hk : k + D < K) (h2 : t ≤ knotAt knots (k + 1)) (hr1 : 1 ≤ r) (hr : r ≤ j)
    (hj : j ≤ D) :
    0 ≤ alphaVal (knotAt knots) D t r (j + k - D) ∧
      alphaVal (knotAt knots) D t r (j + k - D) ≤ 1 := by
  unfold alphaVal
  have h3 := mono_knotAt v (show k + 1 ≤ j + k - D + D + 1 - r by omega) (by omega)
  have := eps_pos
  split_ifs with h4 h5
  · norm_num
  · norm_num
  · have hn : 0 ≤ t - knotAt knots (j + k - D) := by linarith
    have hle : t - knotAt knots (j + k - D)
      ≤ knotAt knots (j + k - D + D + 1 - r) - knotAt knots (j + k - D) := by linarith
    exact ⟨div_nonneg hn (hn.trans hle), div_le_one_of_le₀ hle (hn.trans hle)⟩

/-- No knot lies less than the machine epsilon, but strictly, below `t`. -/
theorem alphaVal_exact (v : ∀ i j : Fin K, i ≤ j → knots i ≤ knots j) {t : ℝ} {k r j : ℕ}
    (hDk : D ≤ k) (hk : k + D < K) (h1 : knotAt knots k ≤ t) (h2 : t < knotAt knots (k + 1))
    (hr1 : 1 ≤ r) (hr : r ≤ j) (hj : j ≤ D)
    (heps : ∀ i : Fin K, knots i < t → eps ≤ t - knots i) :
    alphaVal (knotAt knots) D t r (j + k - D) = (t - knotAt knots (j + k - D))
      / (knotAt knots (j + k - D + D + 1 - r) - knotAt knots (j + k - D)) := by
  unfold alphaVal
  have h3 := mono_knotAt v (show k + 1 ≤ j + k - D + D + 1 - r by omega) (by omega)
  have h4 := mono_knotAt v (show j + k - D ≤ k by omega) (by omega)
  rcases eq_or_lt_of_le (h4.trans h1) with h5 | h5
  · rw [h5, sub_self, if_pos eps_pos, zero_div]
  · have h6 := heps ⟨j + k - D, by omega⟩ (by rwa [← knotAt_lt knots])
    rw [← knotAt_lt knots] at h6
    rw [if_neg (by linarith), if_neg]
    rw [abs_of_nonneg (by linarith)]
    linarith

end Spans

section Values

variable [LawfulPoint P] {knots : Arr ℝ K} {ps : Arr P C}

theorem coord_deBoorValue (t : ℝ) (k c : ℕ) :
    coord (deBoorValue knots ps D t k) c
      = dbr (fun r j => alphaVal (knotAt knots) D t r (j + k - D))
          (fun j => if j < D then coord (extend ps (j + k - D)) c else 0) D D := by
  unfold deBoorValue
  rw [coord_db]
  congr 1
  funext j
  unfold spanPoints
  split_ifs
  · rfl
  · simp

/-- The value in terms of weights that do not depend on the control points. -/
theorem coord_deBoorValue_weights (t : ℝ) (k c : ℕ) :
    coord (deBoorValue knots ps D t k) c = ∑ m ∈ Finset.range D,
      dbw (fun r j => alphaVal (knotAt knots) D t r (j + k - D)) D D m
        * coord (extend ps (m + k - D)) c := by
  rw [coord_deBoorValue, dbr_eq_sum _ _ (D + 1) _ _ (Nat.lt_succ_self D), Finset.sum_range_succ,
    if_neg (lt_irrefl _), mul_zero, add_zero]
  apply Finset.sum_congr rfl
  intro m hm
  rw [if_pos (Finset.mem_range.1 hm)]

/-- The value in terms of the basis functions: the last one of the span is missing. -/
theorem coord_deBoorValue_basis (v : ValidSpline C D knots) {t : ℝ} {k : ℕ} (hDk : D ≤ k)
    (hkC : k < C) (h1 : knotAt knots k ≤ t) (h2 : t < knotAt knots (k + 1))
    (heps : ∀ i : Fin K, knots i < t → eps ≤ t - knots i) (c : ℕ) :
    coord (deBoorValue knots ps D t k) c = ∑ m ∈ Finset.range D,
      coord (extend ps (k - D + m)) c * coxDeBoor (knotAt knots) D (k - D + m) t := by
  obtain ⟨v1, v2, v3⟩ := v
  rw [coord_deBoorValue]
  rw [dbr_congr (n := D + 1) (fun r j hr1 hr hj => alphaVal_exact v3 hDk (by omega) h1 h2 hr1 hr
    (by omega) heps) (fun j _ => rfl) D D (Nat.lt_succ_self D)]
  rw [deBoor_correct (fun i j hij hj => mono_knotAt v3 hij hj) hDk (by omega) h1 h2,
    Finset.sum_range_succ, if_neg (lt_irrefl _), zero_mul, add_zero]
  apply Finset.sum_congr rfl
  intro m hm
  rw [if_pos (Finset.mem_range.1 hm), show m + k - D = k - D + m by omega]

end Values

end Stroke
