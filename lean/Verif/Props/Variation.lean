import Verif.Props.Bezier
import Verif.Lemmas.Concrete
import Mathlib.Algebra.Polynomial.RuleOfSigns
import Mathlib.Analysis.Calculus.Deriv.MeanValue

set_option linter.unusedSectionVars false

/-!
# Variation diminishing and monotonicity of Bezier curves (C68, C69)

A Bezier curve crosses a line (in the plane), a plane (in space), a hyperplane in general at most
as often as its control polygon does.
-/

namespace Stroke

/-! ### Specification -/

/-- The number of neighbours in the list with opposite signs. -/
noncomputable def oppositeNeighbours : List ℝ → ℕ
  | a :: b :: l => (if a * b < 0 then 1 else 0) + oppositeNeighbours (b :: l)
  | _ => 0

/-- The number of sign changes in the list; zeros are skipped. -/
noncomputable def signChanges (l : List ℝ) : ℕ :=
  oppositeNeighbours (l.filter (fun x => decide (x ≠ 0)))

/-- On which side of the hyperplane `∑ aᵢ xᵢ = v` the point lies: positive, negative, or 0 if it
lies on the hyperplane. -/
noncomputable def side {P : Type} [Point ℝ P] (a : ℕ → ℝ) (v : ℝ) (p : P) : ℝ :=
  ∑ i ∈ Finset.range (Point.dim P), a i * coord p i - v

/-! ### Sign changes and Descartes' rule -/

theorem sign_ne_iff {a b : ℝ} (ha : a ≠ 0) (hb : b ≠ 0) :
    SignType.sign a ≠ SignType.sign b ↔ a * b < 0 := by
  rcases lt_or_gt_of_ne ha with ha | ha <;> rcases lt_or_gt_of_ne hb with hb | hb
  · simp [sign_neg ha, sign_neg hb, (mul_pos_of_neg_of_neg ha hb).le]
  · simp [sign_neg ha, sign_pos hb, mul_neg_of_neg_of_pos ha hb]
  · simp [sign_pos ha, sign_neg hb, mul_neg_of_pos_of_neg ha hb]
  · simp [sign_pos ha, sign_pos hb, (mul_pos ha hb).le]

theorem destutter'_signs : ∀ (l : List ℝ) (a : ℝ), a ≠ 0 → (∀ x ∈ l, x ≠ 0) →
    ((l.map SignType.sign).destutter' (· ≠ ·) (SignType.sign a)).length
      = oppositeNeighbours (a :: l) + 1 := by
  intro l
  induction l with
  | nil => intro a _ _; simp [oppositeNeighbours]
  | cons b l ih =>
    intro a ha hl
    have hb : b ≠ 0 := hl b (by simp)
    have ihb := ih b hb (fun x hx => hl x (by simp [hx]))
    rw [List.map_cons]
    by_cases h : SignType.sign a ≠ SignType.sign b
    · rw [List.destutter'_cons_pos _ h, List.length_cons, ihb, oppositeNeighbours,
        if_pos ((sign_ne_iff ha hb).1 h)]
      ring
    · rw [List.destutter'_cons_neg _ h, oppositeNeighbours,
        if_neg (fun hlt => h ((sign_ne_iff ha hb).2 hlt)), zero_add, ← ihb]
      rw [not_not.1 h]

theorem signChanges_eq (l : List ℝ) :
    signChanges l
      = (((l.map SignType.sign).filter (· ≠ 0)).destutter (· ≠ ·)).length - 1 := by
  classical
  have e : (l.map SignType.sign).filter (· ≠ 0)
      = (l.filter (fun x => decide (x ≠ 0))).map SignType.sign := by
    rw [List.filter_map]
    congr 1
    apply List.filter_congr
    intro x _
    simp [sign_eq_zero_iff]
  rw [e]
  have hne : ∀ x ∈ l.filter (fun x => decide (x ≠ 0)), x ≠ 0 := by
    intro x hx; simpa using (List.mem_filter.1 hx).2
  unfold signChanges
  generalize l.filter (fun x => decide (x ≠ 0)) = m at hne ⊢
  cases m with
  | nil => simp [oppositeNeighbours]
  | cons a m =>
    rw [List.map_cons, List.destutter_cons', destutter'_signs m a (hne a (by simp))
      (fun x hx => hne x (by simp [hx]))]
    simp

theorem signVariations_eq (p : Polynomial ℝ) {N : ℕ} (hN : p.degree.succ ≤ N) :
    p.signVariations = signChanges ((List.range N).reverse.map p.coeff) := by
  rw [signChanges_eq, Polynomial.signVariations, Polynomial.coeffList]
  obtain ⟨m, rfl⟩ := Nat.exists_eq_add_of_le hN
  rw [List.range_add, List.reverse_append, List.map_append, List.map_append, List.filter_append]
  have : List.filter (fun x => decide (x ≠ 0)) (List.map SignType.sign (List.map p.coeff
      (List.map (fun x => p.degree.succ + x) (List.range m)).reverse)) = [] := by
    rw [List.filter_eq_nil_iff]
    intro s hs
    simp only [List.map_reverse, List.map_map, List.mem_reverse, List.mem_map, List.mem_range,
      Function.comp_apply] at hs
    obtain ⟨k, _, rfl⟩ := hs
    have : p.coeff (p.degree.succ + k) = 0 := by
      by_cases hp : p = 0
      · simp [hp]
      · apply Polynomial.coeff_eq_zero_of_natDegree_lt
        rw [← Polynomial.length_coeffList_eq_withBotSucc_degree,
          Polynomial.length_coeffList_eq_ite, if_neg hp]
        omega
    rw [this]; simp
  rw [this, List.nil_append]

/-- A polynomial in Bernstein form has at most as many zeros in (0, 1) as its coefficients have
sign changes. -/
theorem bernstein_zeros {N : ℕ} (g : Fin N → ℝ) (hg : ∃ k, g k ≠ 0) :
    {t : ℝ | 0 < t ∧ t < 1 ∧ ∑ k : Fin N, bernstein (N - 1) k t * g k = 0}.encard
      ≤ signChanges (List.ofFn g) := by
  classical
  set p : Polynomial ℝ := ∑ k : Fin N, Polynomial.monomial (N - 1 - k) ((N - 1).choose k * g k)
    with hp
  have hcoeff : ∀ k : Fin N, p.coeff (N - 1 - k) = (N - 1).choose k * g k := by
    intro k
    rw [hp, Polynomial.finsetSum_coeff, Finset.sum_eq_single k]
    · simp
    · intro j _ hj
      rw [Polynomial.coeff_monomial, if_neg]
      intro h
      apply hj
      apply Fin.ext
      have := j.isLt
      have := k.isLt
      omega
    · simp
  have hch : ∀ k : Fin N, (0 : ℝ) < (N - 1).choose k := by
    intro k
    exact_mod_cast Nat.choose_pos (by have := k.isLt; omega)
  have hp0 : p ≠ 0 := by
    obtain ⟨k, hk⟩ := hg
    intro h0
    have := hcoeff k
    rw [h0, Polynomial.coeff_zero] at this
    exact mul_ne_zero (hch k).ne' hk this.symm
  have hdeg : p.degree.succ ≤ N := by
    rw [← Polynomial.length_coeffList_eq_withBotSucc_degree,
      Polynomial.length_coeffList_eq_ite, if_neg hp0]
    by_contra hlt
    have hle : N ≤ p.natDegree := by omega
    have : p.coeff p.natDegree = 0 := by
      rw [hp, Polynomial.finsetSum_coeff]
      apply Finset.sum_eq_zero
      intro j _
      rw [Polynomial.coeff_monomial, if_neg]
      have := j.isLt
      rw [← hp]
      omega
    exact hp0 (Polynomial.leadingCoeff_eq_zero.1 this)
  have hvar : p.signVariations = signChanges (List.ofFn g) := by
    rw [signVariations_eq p hdeg, signChanges_eq, signChanges_eq]
    congr 4
    apply List.ext_getElem
    · simp
    · intro i h1 h2
      simp only [List.length_map, List.length_reverse, List.length_range] at h1
      simp only [List.getElem_map, List.getElem_reverse, List.length_range, List.getElem_range,
        List.getElem_ofFn]
      rw [hcoeff ⟨i, h1⟩, sign_mul, sign_pos (hch _), one_mul]
  have hroots := Polynomial.roots_countP_pos_le_signVariations (P := p)
  rw [hvar] at hroots
  have heval : ∀ t : ℝ, 0 < t → ∑ k : Fin N, bernstein (N - 1) k t * g k
      = t ^ (N - 1) * p.eval ((1 - t) / t) := by
    intro t ht
    rw [hp, Polynomial.eval_finsetSum, Finset.mul_sum]
    apply Finset.sum_congr rfl
    intro k _
    have hk : N - 1 = k + (N - 1 - k) := by have := k.isLt; omega
    rw [Polynomial.eval_monomial, bernstein, div_pow]
    have : t ^ (N - 1) = t ^ k.val * t ^ (N - 1 - k) := by rw [← pow_add, ← hk]
    rw [this]
    field_simp
  set T : Finset ℝ := ((p.roots.toFinset).filter (0 < ·)).image (fun y => 1 / (1 + y)) with hT
  have hsub : {t : ℝ | 0 < t ∧ t < 1 ∧ ∑ k : Fin N, bernstein (N - 1) k t * g k = 0} ⊆ ↑T := by
    rintro t ⟨h0, h1, hz⟩
    rw [heval t h0] at hz
    have hr : p.eval ((1 - t) / t) = 0 := (mul_eq_zero.1 hz).resolve_left (pow_pos h0 _).ne'
    rw [hT, Finset.coe_image]
    refine ⟨(1 - t) / t, ?_, ?_⟩
    · simp only [Finset.coe_filter, Multiset.mem_toFinset, Set.mem_ofPred_eq]
      refine ⟨(Polynomial.mem_roots hp0).2 hr, div_pos (by linarith) h0⟩
    · simp only
      field_simp
      ring
  refine (Set.encard_le_encard hsub).trans ?_
  rw [Set.encard_coe_eq_coe_finsetCard]
  norm_cast
  refine le_trans Finset.card_image_le (le_trans ?_ hroots)
  rw [Multiset.countP_eq_card_filter, ← Multiset.toFinset_filter]
  exact Multiset.toFinset_card_le _

/-! ### Curves -/

variable {P : Type} [Point ℝ P] [LawfulPoint P] {N : ℕ}

theorem side_combination {ι : Type} [Fintype ι] {w : ι → ℝ} {ps : ι → P} {q : P}
    (h1 : ∑ k, w k = 1) (hq : ∀ i, coord q i = ∑ k, w k * coord (ps k) i) (a : ℕ → ℝ) (v : ℝ) :
    side a v q = ∑ k, w k * side a v (ps k) := by
  unfold side
  simp only [mul_sub, Finset.sum_sub_distrib]
  rw [← Finset.sum_mul, h1, one_mul]
  congr 1
  simp only [hq, Finset.mul_sum]
  rw [Finset.sum_comm]
  apply Finset.sum_congr rfl; intro k _
  apply Finset.sum_congr rfl; intro i _
  ring

/-- **C68**: variation diminishing.  The set of parameters in (0, 1) at which a Bezier curve of
any degree and dimension meets a hyperplane has at most as many elements as there are sign
changes in the sides of the control points, that is, at most as many as the control polygon has
crossings — unless all control points lie on the hyperplane. -/
theorem C68_bezier (b : Bezier P N) (a : ℕ → ℝ) (v : ℝ)
    (hne : ∃ k, side a v (b.control_points k) ≠ 0) :
    {t : ℝ | 0 < t ∧ t < 1 ∧ ∃ q, b.eval t = some q ∧ side a v q = 0}.encard
      ≤ signChanges (b.intoIter.map (side a v)) := by
  have hN : 1 ≤ N := by obtain ⟨k, _⟩ := hne; have := k.isLt; omega
  have e : b.intoIter.map (side a v) = List.ofFn (fun k => side a v (b.control_points k)) := by
    simp only [Bezier.intoIter, Arr.toList, List.map_ofFn]
    rfl
  rw [e]
  refine le_trans (Set.encard_le_encard ?_) (bernstein_zeros _ hne)
  rintro t ⟨h0, h1, q, hq, hs⟩
  refine ⟨h0, h1, ?_⟩
  obtain ⟨q', hq', _, hw, hc⟩ := C36_bezier b hN t h0.le h1.le
  rw [hq] at hq'
  cases hq'
  rw [side_combination hw hc] at hs
  exact hs

/-- **C68** for the specialised curves. -/
theorem C68_specialised (l : LineSegment P) (q : QuadraticBezier P) (c : CubicBezier P)
    (a : ℕ → ℝ) (v : ℝ) :
    ((∃ p ∈ [l.start, l.end_], side a v p ≠ 0) →
      {t : ℝ | 0 < t ∧ t < 1 ∧ side a v (l.eval t) = 0}.encard
        ≤ signChanges ([l.start, l.end_].map (side a v))) ∧
    ((∃ p ∈ q.controlPoints, side a v p ≠ 0) →
      {t : ℝ | 0 < t ∧ t < 1 ∧ side a v (q.eval t) = 0}.encard
        ≤ signChanges (q.controlPoints.map (side a v))) ∧
    ((∃ p ∈ c.controlPoints, side a v p ≠ 0) →
      {t : ℝ | 0 < t ∧ t < 1 ∧ side a v (c.eval t) = 0}.encard
        ≤ signChanges (c.controlPoints.map (side a v))) := by
  refine ⟨fun h => ?_, fun h => ?_, fun h => ?_⟩
  · have := C68_bezier (Bezier.new ![l.start, l.end_]) a v (by
      simpa [Fin.exists_fin_two, Bezier.new] using h)
    simp only [C32_line, Option.some.injEq, exists_eq_left'] at this
    simpa [Bezier.intoIter, Arr.toList, Bezier.new, LineSegment.new] using this
  · have := C68_bezier (Bezier.new ![q.start, q.ctrl, q.end_]) a v (by
      simpa [Fin.exists_fin_succ, Bezier.new, QuadraticBezier.controlPoints] using h)
    simp only [C32_quadratic_eval, Option.some.injEq, exists_eq_left'] at this
    simpa [Bezier.intoIter, Arr.toList, Bezier.new, QuadraticBezier.controlPoints,
      QuadraticBezier.new] using this
  · have := C68_bezier (Bezier.new ![c.start, c.ctrl1, c.ctrl2, c.end_]) a v (by
      simpa [Fin.exists_fin_succ, Bezier.new, CubicBezier.controlPoints] using h)
    simp only [C32_cubic_eval, Option.some.injEq, exists_eq_left'] at this
    simpa [Bezier.intoIter, Arr.toList, Bezier.new, CubicBezier.controlPoints,
      CubicBezier.new] using this

/-- **C69**: if the control points advance in some direction (for instance: their coordinates on
an axis do not decrease), then so does the curve. -/
theorem C69_bezier (b : Bezier P N) (a : ℕ → ℝ)
    (hmono : ∀ j k : Fin N, j ≤ k → side a 0 (b.control_points j) ≤ side a 0 (b.control_points k))
    (s t : ℝ) (hs : 0 ≤ s) (hst : s ≤ t) (ht : t ≤ 1) (p q : P) (hp : b.eval s = some p)
    (hq : b.eval t = some q) : side a 0 p ≤ side a 0 q := by
  rcases Nat.lt_or_ge N 2 with hN | hN
  · -- a constant curve
    have h1 : 1 ≤ N := by
      rcases Nat.eq_zero_or_pos N with rfl | h
      · rw [C30_eval_empty] at hp; simp at hp
      · exact h
    have : N = 1 := by omega
    subst this
    obtain ⟨p', hp', hc⟩ := C30_eval b le_rfl s
    obtain ⟨q', hq', hc'⟩ := C30_eval b le_rfl t
    rw [hp] at hp'; rw [hq] at hq'
    cases hp'; cases hq'
    apply le_of_eq
    unfold side
    simp only [hc, hc', bezierCoord, Fin.sum_univ_one, bernstein]
    simp
  · obtain ⟨d, hd, hdc⟩ := C35_partial (S := ℝ) b hN
    have key : ∀ u : ℝ, 0 ≤ u → u ≤ 1 → ∃ (f : ℝ → P) (v : P), (∀ u, b.eval u = some (f u)) ∧
        0 ≤ side a 0 v ∧ HasPointDerivAt f (coord v) u := by
      intro u hu0 hu1
      obtain ⟨d', hd', f, v, hf, hv, hder⟩ := C34_derivative b hN u
      rw [hd] at hd'
      cases hd'
      refine ⟨f, v, hf, ?_, hder⟩
      obtain ⟨v', hv', hw0, hw1, hc⟩ := C36_bezier d (by omega) u hu0 hu1
      rw [hv] at hv'
      cases hv'
      rw [side_combination hw1 hc]
      apply Finset.sum_nonneg
      intro k _
      apply mul_nonneg (hw0 k)
      have h1 : d.controlPoints k = _ := hdc k
      rw [h1]
      have h2 := hmono ⟨k.val, by omega⟩ ⟨k.val + 1, by omega⟩ (by simp [Fin.le_def])
      unfold side at h2 ⊢
      simp only [sub_zero] at h2 ⊢
      rw [← sub_nonneg, ← Finset.sum_sub_distrib] at h2
      have h3 : ∀ i, a i * coord ((b.control_points ⟨k.val + 1, by omega⟩
          - b.control_points ⟨k.val, by omega⟩) * (Scalar.ofUsize (N - 1) : ℝ)) i
          = (Scalar.ofUsize (N - 1) : ℝ) * (a i * coord (b.control_points ⟨k.val + 1, by omega⟩) i
            - a i * coord (b.control_points ⟨k.val, by omega⟩) i) := by
        intro i; rw [coord_mul, coord_sub]; ring
      simp only [h3]
      rw [← Finset.mul_sum]
      exact mul_nonneg (by show (0 : ℝ) ≤ ((N - 1 : ℕ) : ℝ); positivity) h2
    obtain ⟨f, _, hf, _, _⟩ := key s hs (hst.trans ht)
    have hder : ∀ u, 0 ≤ u → u ≤ 1 → ∃ D, 0 ≤ D ∧ HasDerivAt (fun u => side a 0 (f u)) D u := by
      intro u hu0 hu1
      obtain ⟨f', v, hf', hv, hd'⟩ := key u hu0 hu1
      have : f' = f := by
        funext x
        have := hf' x
        rw [hf x] at this
        exact (Option.some.inj this).symm
      subst this
      refine ⟨side a 0 v, hv, ?_⟩
      unfold side
      simp only [sub_zero]
      apply HasDerivAt.fun_sum
      intro i hi
      exact (hd' i (Finset.mem_range.1 hi)).const_mul (a i)
    have hmon : MonotoneOn (fun u => side a 0 (f u)) (Set.Icc 0 1) := by
      apply monotoneOn_of_deriv_nonneg (convex_Icc 0 1)
      · intro u hu
        obtain ⟨D, _, h⟩ := hder u hu.1 hu.2
        exact h.continuousAt.continuousWithinAt
      · intro u hu
        rw [interior_Icc] at hu
        obtain ⟨D, _, h⟩ := hder u hu.1.le hu.2.le
        exact h.differentiableAt.differentiableWithinAt
      · intro u hu
        rw [interior_Icc] at hu
        obtain ⟨D, hD, h⟩ := hder u hu.1.le hu.2.le
        rw [h.deriv]; exact hD
    have := hmon (⟨hs, hst.trans ht⟩ : s ∈ Set.Icc 0 1) (⟨hs.trans hst, ht⟩ : t ∈ Set.Icc 0 1) hst
    have e1 := hf s
    have e2 := hf t
    rw [hp] at e1
    rw [hq] at e2
    cases e1; cases e2
    exact this

/-- **C69**, coordinates: if the control points are sorted on an axis, the curve is monotone on
that axis. -/
theorem C69_axis (b : Bezier P N) (i : ℕ)
    (hmono : ∀ j k : Fin N, j ≤ k → coord (b.control_points j) i ≤ coord (b.control_points k) i)
    (s t : ℝ) (hs : 0 ≤ s) (hst : s ≤ t) (ht : t ≤ 1) (p q : P) (hp : b.eval s = some p)
    (hq : b.eval t = some q) : coord p i ≤ coord q i := by
  by_cases hi : i < Point.dim P
  · have e : ∀ p : P, side (fun j => if j = i then 1 else 0) 0 p = coord p i := by
      intro p
      unfold side
      simp [hi]
    have := C69_bezier b (fun j => if j = i then 1 else 0) (by simpa [e] using hmono) s t hs hst ht
      p q hp hq
    simpa [e] using this
  · rw [coord_out p hi, coord_out q hi]

/-- **C69** for the specialised curves. -/
theorem C69_specialised (q : QuadraticBezier P) (c : CubicBezier P) (i : ℕ)
    (s t : ℝ) (hs : 0 ≤ s) (hst : s ≤ t) (ht : t ≤ 1) :
    (coord q.start i ≤ coord q.ctrl i → coord q.ctrl i ≤ coord q.end_ i →
      coord (q.eval s) i ≤ coord (q.eval t) i) ∧
    (coord c.start i ≤ coord c.ctrl1 i → coord c.ctrl1 i ≤ coord c.ctrl2 i →
      coord c.ctrl2 i ≤ coord c.end_ i → coord (c.eval s) i ≤ coord (c.eval t) i) := by
  refine ⟨fun h1 h2 => ?_, fun h1 h2 h3 => ?_⟩
  · refine C69_axis (Bezier.new ![q.start, q.ctrl, q.end_]) i ?_ s t hs hst ht _ _
      (C32_quadratic_eval _ _ _ s) (C32_quadratic_eval _ _ _ t)
    intro j k hjk
    fin_cases j <;> fin_cases k <;> simp [Bezier.new] at hjk ⊢ <;> linarith
  · refine C69_axis (Bezier.new ![c.start, c.ctrl1, c.ctrl2, c.end_]) i ?_ s t hs hst ht _ _
      (C32_cubic_eval _ _ _ _ s) (C32_cubic_eval _ _ _ _ t)
    intro j k hjk
    fin_cases j <;> fin_cases k <;> simp [Bezier.new] at hjk ⊢ <;> linarith

/-- The hypotheses of C68 and the sharpness of the bound: the cubic with the coordinates -1, 3,
-3, 1 has three sign changes; it is 0 at 1/2, and between 0 and 1/5 as well as between 4/5 and 1
it changes sign. -/
example : let c := CubicBezier.new (pt2 (-1) 0) (pt2 3 0) (pt2 (-3) 0) (pt2 1 0)
    signChanges (c.controlPoints.map (side (fun i => if i = 0 then 1 else 0) 0)) = 3 ∧
    (∃ p ∈ c.controlPoints, side (fun i => if i = 0 then 1 else 0) 0 p ≠ 0) ∧
    side (fun i => if i = 0 then 1 else 0) 0 (c.eval (0 : ℝ)) < 0 ∧ 0 < side (fun i => if i = 0 then 1 else 0) 0 (c.eval (1 / 5 : ℝ)) ∧
    side (fun i => if i = 0 then 1 else 0) 0 (c.eval (1 / 2 : ℝ)) = 0 ∧
    side (fun i => if i = 0 then 1 else 0) 0 (c.eval (4 / 5 : ℝ)) < 0 ∧ 0 < side (fun i => if i = 0 then 1 else 0) 0 (c.eval (1 : ℝ)) := by
  have e : ∀ p : PointN ℝ 2, side (fun i => if i = 0 then 1 else 0) 0 p = coord p 0 := by
    intro p
    have : Point.dim (PointN ℝ 2) = 2 := rfl
    simp [side, this]
  intro c
  simp only [e, C20_eval]
  refine ⟨?_, ⟨pt2 (-1) 0, by simp [c, CubicBezier.controlPoints, CubicBezier.new], ?_⟩, ?_⟩
  · simp only [c, CubicBezier.controlPoints, CubicBezier.new, List.map_cons, List.map_nil, e]
    simp [signChanges, oppositeNeighbours]
  · simp
  · simp only [c, CubicBezier.new]
    simp
    norm_num

/-- The hypothesis of C69: sorted control points. -/
example (j k : Fin 4) (h : j ≤ k) :
    coord ((Bezier.new ![pt2 0 0, pt2 1 0, pt2 1 0, pt2 5 0]).control_points j) 0
      ≤ coord ((Bezier.new ![pt2 0 0, pt2 1 0, pt2 1 0, pt2 5 0]).control_points k) 0 := by
  fin_cases j <;> fin_cases k <;> simp [Bezier.new] at h ⊢

end Stroke
