import Verif.Props.BSplineSuccess

/-!
# What unclamped B-splines evaluate to (C48)

The span search for unclamped knot vectors returns the first probe `k` with `t < knots[k+1]`, which
may lie to the right of the span `m` of `t`.  Then the interpolation factors of all knots above `t`
are 0, and what remains is a spline of a lower degree: the knots between `m` and `k` are passed over,
and the degree drops by their number.
-/

set_option linter.unusedSectionVars false

namespace Stroke

variable {P : Type} [Point ℝ P] {K C D : ℕ}

/-- The sequence `u` without the `s` entries that follow entry `m`. -/
def passOver (u : ℕ → ℝ) (m s : ℕ) (i : ℕ) : ℝ := if i ≤ m then u i else u (i + s)

/-- The search for unclamped knot vectors returns `k` if `k` is the first probe whose right end is
above `t`. -/
theorem spanUnclamped_first {knots : Arr ℝ K} {ps : Arr P C} {b : BSpline ℝ P K C D}
    (h : BSpline.new knots ps = .ok b) (hf : ¬ FrontClamped D knots) (hb : ¬ BackClamped D knots)
    {t : ℝ} (h2 : t < knotAt knots C) {k : ℕ} (hk : Probe K k) (hkt : t < knotAt knots (k + 1))
    (hfirst : ∀ p, Probe K p → p < k → knotAt knots (p + 1) ≤ t) :
    b.knotSpanStart t = some (some k) := by
  obtain ⟨v, hbeq⟩ := (new_ok_iff _ _ _).1 h
  have hD := degree_pos_of_not_front v hf
  obtain ⟨v1, v2, v3⟩ := id v
  obtain ⟨k', e, hp, hlt, hfst⟩ := spanUnclamped_probe v3 v2 hD h2 K 0 K le_rfl (by omega)
    (by omega) (by rw [Nat.zero_add]; exact Probe.first) (by
      intro p hp hlt'
      exfalso
      have : K / 2 ≤ p := by
        induction hp with
        | first => exact le_rfl
        | next _ _ => omega
      omega)
  have hkk : k' = k := by
    rcases Nat.lt_trichotomy k' k with hl | he | hl
    · exact absurd hlt (not_lt.2 (hfirst k' hp hl))
    · exact he
    · exact absurd hkt (not_lt.2 (hfst k hk hl))
  rw [hbeq]
  simp only [BSpline.knotSpanStart, kindOf, hf, hb, if_false, BSpline.spanUnclamped]
  rw [e, hkk]

/-- Entries of de Boor's triangle do not change along the diagonal where the factors are 0. -/
theorem dbr_diag {a : ℕ → ℕ → ℝ} {x : ℕ → ℝ} {p n : ℕ}
    (ha : ∀ q, p < q → q ≤ n → a q q = 0) :
    ∀ q, p ≤ q → q ≤ n → dbr a x q q = dbr a x p p := by
  intro q hq
  induction q, hq using Nat.le_induction with
  | base => intro _; rfl
  | succ q hq ih =>
    intro hn
    rw [dbr, if_pos le_rfl, ha (q + 1) (by omega) hn, Nat.add_sub_cancel, ih (by omega)]
    ring

theorem passOver_mono {u : ℕ → ℝ} (mono : ∀ i j, i ≤ j → j < K → u i ≤ u j) (m s : ℕ) (i j : ℕ)
    (hij : i ≤ j) (hj : j < K - s) : passOver u m s i ≤ passOver u m s j := by
  unfold passOver
  split_ifs
  · exact mono _ _ hij (by omega)
  · exact mono _ _ (by omega) (by omega)
  · omega
  · exact mono _ _ (by omega) (by omega)

/-- **C48**, unclamped splines: let `m` be the span of `t` and `k > m` the span that the search
returns, the first probe with `t < knots[k+1]`.  If `k` lies beyond `C` evaluation panics (C47).
Otherwise it returns the value at `t` of the spline of degree `D - (k - m)` whose knots are those of
the spline without `knots[m+1], ..., knots[k]`, with the control points `k - D, ..., m`. -/
theorem C48_unclamped_right [LawfulPoint P] {knots : Arr ℝ K} {ps : Arr P C}
    {b : BSpline ℝ P K C D} (h : BSpline.new knots ps = .ok b)
    (hf : ¬ FrontClamped D knots) (hb : ¬ BackClamped D knots) {t : ℝ} {m k : ℕ} (hDm : D ≤ m)
    (hmC : m < C) (h1 : knotAt knots m ≤ t) (h2 : t < knotAt knots (m + 1))
    (heps : ∀ i : Fin K, knots i < t → eps ≤ t - knots i) (hk : Probe K k) (hkC : k ≤ C)
    (hmk : m < k) (hkD : k ≤ m + D)
    (hfirst : ∀ p, Probe K p → p < k → knotAt knots (p + 1) ≤ t) :
    ∃ q, b.eval t = .ok q ∧ ∀ c, coord q c = ∑ i ∈ Finset.range (D - (k - m) + 1),
      coxDeBoor (passOver (knotAt knots) m (k - m)) (D - (k - m)) (k - D + i) t
        * coord (extend ps (k - D + i)) c := by
  obtain ⟨v, hbeq⟩ := (new_ok_iff _ _ _).1 h
  obtain ⟨v1, v2, v3⟩ := id v
  have mono : ∀ i j, i ≤ j → j < K → knotAt knots i ≤ knotAt knots j :=
    fun i j hij hj => mono_knotAt v3 hij hj
  have hD : knotAt knots D ≤ t := (mono _ _ hDm (by omega)).trans h1
  have hC : t < knotAt knots C := h2.trans_le (mono _ _ (by omega) (by omega))
  have hkt : t < knotAt knots (k + 1) := h2.trans_le (mono _ _ (by omega) (by omega))
  have e := spanUnclamped_first h hf hb hC hk hkt hfirst
  have hd := C45_partial h ⟨fun x => absurd x hf, fun x => absurd x hb⟩
  refine ⟨_, (eval_inside hd hD hC.le).trans (deBoorIterative_ok b v2 t k (by rw [hbeq]; exact hC.ne)
    e (Or.inr ⟨by omega, hkC⟩)), fun c => ?_⟩
  rw [(new_stores h).1, (new_stores h).2.1, coord_deBoorValue]
  -- the factors of the knots above `t` are 0
  rw [dbr_diag (p := D - (k - m)) (n := D) (fun q hq hn => ?_) D (by omega) le_rfl]
  swap
  · unfold alphaVal
    rw [if_pos]
    have hep := eps_pos
    have := mono (m + 1) (q + k - D) (by omega) (by omega)
    linarith
  set s := k - m with hs
  set u' := passOver (knotAt knots) m s with hu'
  have lo : ∀ i, i ≤ m → u' i = knotAt knots i := fun i hi => by rw [hu', passOver, if_pos hi]
  have hi : ∀ i, m < i → u' i = knotAt knots (i + s) := fun i hi => by
    rw [hu', passOver, if_neg (by omega)]
  have mono' : ∀ i j, i ≤ j → j < K - s → u' i ≤ u' j := passOver_mono mono m s
  have hm1 : t < u' (m + 1) := by
    rw [hi _ (by omega)]
    exact h2.trans_le (mono _ _ (by omega) (by omega))
  rw [dbr_congr (n := D - s + 1) (a' := fun r j => (t - u' (j + m - (D - s)))
      / (u' (j + m - (D - s) + (D - s) + 1 - r) - u' (j + m - (D - s))))
      (x' := fun j => coord (extend ps (k - D + j)) c) (fun r j hr1 hrj hj => ?_) (fun j hj => ?_)
      (D - s) (D - s) (Nat.lt_succ_self _),
    deBoor_correct mono' (by omega) (by omega) (by rw [lo m le_rfl]; exact h1) hm1]
  · apply Finset.sum_congr rfl
    intro i _
    rw [mul_comm, show m - (D - s) = k - D by omega]
  · -- the factors of the others are those of the lower degree
    have ej : j + m - (D - s) = j + k - D := by omega
    rw [ej, show j + k - D + (D - s) + 1 - r = (j + k - D + D + 1 - r) - s by omega,
      lo _ (by omega), hi _ (by omega), Nat.sub_add_cancel (by omega)]
    unfold alphaVal
    have g1 : knotAt knots (j + k - D) ≤ t := (mono _ _ (by omega) (by omega)).trans h1
    have g2 : t < knotAt knots (j + k - D + D + 1 - r) :=
      h2.trans_le (mono _ _ (by omega) (by omega))
    rcases eq_or_lt_of_le g1 with g3 | g3
    · rw [g3, sub_self, if_pos eps_pos, zero_div]
    · have g4 : eps ≤ t - knotAt knots (j + k - D) := by
        rw [knotAt_lt _ (show j + k - D < K by omega)] at g3 ⊢
        exact heps _ g3
      rw [if_neg (not_lt.2 g4), if_neg (by rw [abs_of_pos (by linarith)]; linarith)]
  · rw [if_pos (by omega), show j + k - D = k - D + j by omega]

/-- **C48**, unclamped splines: if the search overshoots by the degree or more, evaluation returns a
control point, the same for all `t` that end in that span. -/
theorem C48_unclamped_far [LawfulPoint P] {knots : Arr ℝ K} {ps : Arr P C}
    {b : BSpline ℝ P K C D} (h : BSpline.new knots ps = .ok b)
    (hf : ¬ FrontClamped D knots) (hb : ¬ BackClamped D knots) {t : ℝ} {m k : ℕ} (hDm : D ≤ m)
    (h1 : knotAt knots m ≤ t) (h2 : t < knotAt knots (m + 1)) (hk : Probe K k) (hkC : k ≤ C)
    (hkD : m + D ≤ k) (hfirst : ∀ p, Probe K p → p < k → knotAt knots (p + 1) ≤ t) :
    ∃ hi : k - D < C, b.eval t = .ok (ps ⟨k - D, hi⟩) := by
  obtain ⟨v, hbeq⟩ := (new_ok_iff _ _ _).1 h
  have hDp := degree_pos_of_not_front v hf
  obtain ⟨v1, v2, v3⟩ := id v
  have mono : ∀ i j, i ≤ j → j < K → knotAt knots i ≤ knotAt knots j :=
    fun i j hij hj => mono_knotAt v3 hij hj
  have hD : knotAt knots D ≤ t := (mono _ _ hDm (by omega)).trans h1
  have hC : t < knotAt knots C := h2.trans_le (mono _ _ (by omega) (by omega))
  have hkt : t < knotAt knots (k + 1) := h2.trans_le (mono _ _ (by omega) (by omega))
  have e := spanUnclamped_first h hf hb hC hk hkt hfirst
  have hd := C45_partial h ⟨fun x => absurd x hf, fun x => absurd x hb⟩
  refine ⟨by omega, ?_⟩
  rw [eval_inside hd hD hC.le, deBoorIterative_ok b v2 t k (by rw [hbeq]; exact hC.ne) e
    (Or.inr ⟨by omega, hkC⟩), (new_stores h).1, (new_stores h).2.1]
  congr 1
  apply point_ext
  intro c
  rw [coord_deBoorValue, dbr_zero (n := D + 1) _ _ D D le_rfl (Nat.lt_succ_self D)]
  · rw [Nat.sub_self, if_pos (by omega), Nat.zero_add, extend_lt _ (by omega)]
  · intro r j hr1 hr hj
    unfold alphaVal
    rw [if_pos]
    have := mono (m + 1) (j + k - D) (by omega) (by omega)
    have := eps_pos
    linarith

/-- **C48**, unclamped splines: where the search finds the span of `t`, evaluation returns the
spline without the contribution of the last control point of the span, as for clamped splines. -/
theorem C48_unclamped_found [LawfulPoint P] {knots : Arr ℝ K} {ps : Arr P C}
    {b : BSpline ℝ P K C D} (h : BSpline.new knots ps = .ok b)
    (hf : ¬ FrontClamped D knots) (hb : ¬ BackClamped D knots) {t : ℝ} {m : ℕ} (hDm : D ≤ m)
    (hmC : m < C) (h1 : knotAt knots m ≤ t) (h2 : t < knotAt knots (m + 1))
    (heps : ∀ i : Fin K, knots i < t → eps ≤ t - knots i) (hk : Probe K m)
    (hfirst : ∀ p, Probe K p → p < m → knotAt knots (p + 1) ≤ t) :
    ∃ q, b.eval t = .ok q ∧ ∀ c, coord q c = splineCoord D knots ps t c
      - coxDeBoor (knotAt knots) D m t * coord (ps ⟨m, hmC⟩) c := by
  obtain ⟨v, hbeq⟩ := (new_ok_iff _ _ _).1 h
  obtain ⟨v1, v2, v3⟩ := id v
  have mono : ∀ i j, i ≤ j → j < K → knotAt knots i ≤ knotAt knots j :=
    fun i j hij hj => mono_knotAt v3 hij hj
  have hD : knotAt knots D ≤ t := (mono _ _ hDm (by omega)).trans h1
  have hC : t < knotAt knots C := h2.trans_le (mono _ _ (by omega) (by omega))
  have e := spanUnclamped_first h hf hb hC hk h2 hfirst
  have hd := C45_partial h ⟨fun x => absurd x hf, fun x => absurd x hb⟩
  refine ⟨_, (eval_inside hd hD hC.le).trans (deBoorIterative_ok b v2 t m (by rw [hbeq]; exact hC.ne)
    e (Or.inr ⟨by omega, hmC.le⟩)), fun c => ?_⟩
  rw [(new_stores h).1, (new_stores h).2.1, coord_deBoorValue_basis v hDm hmC h1 h2 heps, splineCoord]
  have e1 : ∑ i : Fin C, coxDeBoor (knotAt knots) D i.val t * coord (ps i) c
      = ∑ i ∈ Finset.range C, coxDeBoor (knotAt knots) D i t * coord (extend ps i) c := by
    rw [← Fin.sum_univ_eq_sum_range (fun i => coxDeBoor (knotAt knots) D i t * coord (extend ps i) c)]
    exact Finset.sum_congr rfl fun i _ => by rw [extend_lt ps i.2]
  rw [e1, coxDeBoor_sum_span mono hDm hmC v2 h1 h2 (fun i => coord (extend ps i) c),
    Finset.sum_range_succ, show m - D + D = m by omega, extend_lt ps hmC]
  ring

/-- **C50**, unclamped splines: where the search overshoots by less than the degree, the result is a
weighted mean of the control points `k - D, ..., m`, with weights that depend on the knots and `t`
only. -/
theorem C50_unclamped_mean {u : ℕ → ℝ} {t : ℝ} {m k : ℕ}
    (mono : ∀ i j, i ≤ j → j < K → u i ≤ u j) (hK : K = C + D + 1) (hDm : D ≤ m) (hmC : m < C)
    (h1 : u m ≤ t) (h2 : t < u (m + 1)) (hmk : m ≤ k) (hkD : k ≤ m + D) (hkC : k ≤ C) :
    (∀ i ≤ D - (k - m), 0 ≤ coxDeBoor (passOver u m (k - m)) (D - (k - m)) (k - D + i) t) ∧
    ∑ i ∈ Finset.range (D - (k - m) + 1),
      coxDeBoor (passOver u m (k - m)) (D - (k - m)) (k - D + i) t = 1 := by
  have mono' := passOver_mono mono m (k - m)
  constructor
  · intro i hi
    exact coxDeBoor_nonneg mono' _ _ (by omega)
  · have := coxDeBoor_sum mono' (D := D - (k - m)) (k := m) (t := t) (by omega) (by omega)
      (by rw [passOver, if_pos le_rfl]; exact h1)
      (by
        rw [passOver, if_neg (by omega)]
        exact h2.trans_le (mono _ _ (by omega) (by omega)))
    rw [show m - (D - (k - m)) = k - D by omega] at this
    exact this

/-- Degree 2, knots 0, 1, ..., 7: between 3 and 4 the search returns span 4, and evaluation returns
the spline of degree 1 over the knots 0 1 2 3 5 6 7; at 3.5 that is three quarters of control point 2
and one quarter of control point 3. -/
example (ps : Arr (PointN ℝ 2) 5) : ∃ b : BSpline ℝ (PointN ℝ 2) 8 5 2,
    BSpline.new (uniformKnots 8) ps = .ok b ∧ ∃ q, b.eval (7 / 2 : ℝ) = .ok q ∧
      ∀ c, coord q c = 3 / 4 * coord (ps 2) c + 1 / 4 * coord (ps 3) c := by
  have v : ValidSpline 5 2 (uniformKnots 8) := valid_uniform (by norm_num) (by norm_num)
  obtain ⟨b, hb⟩ := (C43_accepts (D := 2) _ ps).2 v
  have hf : ¬ FrontClamped 2 (uniformKnots 8) :=
    not_front_uniform (C := 5) (by norm_num) (by norm_num) (by norm_num)
  have hg : ¬ BackClamped 2 (uniformKnots 8) :=
    not_back_uniform (C := 5) (by norm_num) (by norm_num) (by norm_num)
  have hu : ∀ i : ℕ, i < 8 → knotAt (uniformKnots 8) i = i := fun i hi => knotAt_uniform hi
  have heps : ∀ i : Fin 8, uniformKnots 8 i < 7 / 2 → eps ≤ 7 / 2 - uniformKnots 8 i := by
    intro i hi
    have he : eps ≤ 1 / 2 := by unfold eps; norm_num
    have hui : uniformKnots 8 i = ((i.val : ℕ) : ℝ) := by
      rw [← hu i i.2, knotAt_lt _ i.2]
    rw [hui] at hi ⊢
    have : i.val ≤ 3 := by
      by_contra hn
      have : (4 : ℝ) ≤ (i.val : ℝ) := by exact_mod_cast (by omega : 4 ≤ i.val)
      linarith
    have : (i.val : ℝ) ≤ 3 := by exact_mod_cast this
    linarith
  obtain ⟨q, hq, hc⟩ := C48_unclamped_right hb hf hg (t := 7 / 2) (m := 3) (k := 4) (by norm_num)
    (by norm_num) (by rw [hu 3 (by norm_num)]; norm_num) (by rw [hu _ (by norm_num)]; norm_num) heps
    Probe.first (by norm_num) (by norm_num) (by norm_num) (by
      intro p hp hlt
      exfalso
      have : 8 / 2 ≤ p := by
        induction hp with
        | first => exact le_rfl
        | next _ _ => omega
      omega)
  refine ⟨b, hb, q, hq, fun c => ?_⟩
  rw [hc]
  have p2 : passOver (knotAt (uniformKnots 8)) 3 1 2 = 2 := by
    rw [passOver, if_pos (by norm_num), hu _ (by norm_num)]; norm_num
  have p3 : passOver (knotAt (uniformKnots 8)) 3 1 3 = 3 := by
    rw [passOver, if_pos (by norm_num), hu _ (by norm_num)]; norm_num
  have p4 : passOver (knotAt (uniformKnots 8)) 3 1 4 = 5 := by
    rw [passOver, if_neg (by norm_num), hu _ (by norm_num)]; norm_num
  have p5 : passOver (knotAt (uniformKnots 8)) 3 1 5 = 6 := by
    rw [passOver, if_neg (by norm_num), hu _ (by norm_num)]; norm_num
  simp only [show 4 - 3 = 1 by norm_num, show 2 - 1 + 1 = 2 by norm_num, Finset.sum_range_succ,
    Finset.sum_range_zero, show 4 - 2 + 0 = 2 by norm_num, show 4 - 2 + 1 = 3 by norm_num,
    show 2 - 1 = 1 by norm_num, coxDeBoor]
  norm_num [p2, p3, p4, p5]
  rw [extend_lt ps (show 2 < 5 by norm_num), extend_lt ps (show 3 < 5 by norm_num)]
  rfl

end Stroke
