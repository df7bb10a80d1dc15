import Verif.Props.BSplineShape

/-!
# B-splines: exactly where evaluation succeeds (C47), and what unclamped splines return (C48)

`Props/BSpline` shows that evaluation inside the knot domain can panic.  This file says exactly
where it does.
-/

set_option linter.unusedSectionVars false

namespace Stroke

variable {P : Type} [Point ℝ P] {K C D : ℕ}

/-- The indices the search for unclamped knot vectors of length `K` can look at, as long as it
moves to the right: the middle, then always the middle of what is left. -/
inductive Probe (K : ℕ) : ℕ → Prop
  | first : Probe K (K / 2)
  | next {p : ℕ} : Probe K p → Probe K ((p + 1 + K) / 2)

/-- No probe lies strictly between a probe and the next one. -/
theorem Probe.gap {p q : ℕ} (hp : Probe K p) (hq : Probe K q) :
    q ≤ p ∨ (p + 1 + K) / 2 ≤ q := by
  have seq : ∀ r, Probe K r → ∃ n, r = (fun p => (p + 1 + K) / 2)^[n] (K / 2) := by
    intro r hr
    induction hr with
    | first => exact ⟨0, rfl⟩
    | next _ ih =>
      obtain ⟨n, rfl⟩ := ih
      exact ⟨n + 1, by rw [Function.iterate_succ_apply']⟩
  have hmono : Monotone fun n => (fun p => (p + 1 + K) / 2)^[n] (K / 2) := by
    refine monotone_nat_of_le_succ fun n => ?_
    simp only [Function.iterate_succ_apply']
    have : (fun p => (p + 1 + K) / 2)^[n] (K / 2) ≤ K + 1 := by
      induction n with
      | zero => simp only [Function.iterate_zero, id_eq]; omega
      | succ n ih => rw [Function.iterate_succ_apply']; omega
    omega
  obtain ⟨m, rfl⟩ := seq p hp
  obtain ⟨n, rfl⟩ := seq q hq
  rcases Nat.lt_or_ge m n with h | h
  · right
    have := hmono (show m + 1 ≤ n from h)
    simpa only [Function.iterate_succ_apply'] using this
  · exact Or.inl (hmono h)

/-- The search returns the first probe whose right end is above `t`. -/
theorem spanUnclamped_probe {knots : Fin K → ℝ}
    (hm : ∀ i j : Fin K, i ≤ j → knots i ≤ knots j) (hK : K = C + D + 1) (hD : 1 ≤ D) {t : ℝ}
    (ht : t < knotAt knots C) (n : ℕ) : ∀ first count : ℕ, count ≤ n → first + count = K →
      first + 1 ≤ C → Probe K ((first + K) / 2) →
      (∀ p, Probe K p → p < (first + K) / 2 → knotAt knots (p + 1) ≤ t) →
      ∃ k, BSpline.spanUnclampedLoop knots t first count = some (some k) ∧ Probe K k ∧
        t < knotAt knots (k + 1) ∧ ∀ p, Probe K p → p < k → knotAt knots (p + 1) ≤ t := by
  induction n with
  | zero => intro first count hn h1 h2; omega
  | succ n ih =>
    intro first count hn h1 h2 hp hlow
    have eit : first + count / 2 = (first + K) / 2 := by omega
    unfold BSpline.spanUnclampedLoop
    rw [if_pos (by omega)]
    have hit : (first + K) / 2 + 1 < K := by omega
    simp only []
    rw [eit, get?_knot _ hit, usub_le (by omega)]
    simp only [Option.bind_eq_bind, Option.bind_some, le_real, lt_real, eq_real]
    by_cases h3 : t < knotAt knots ((first + K) / 2 + 1)
    · exact ⟨(first + K) / 2, by simp [h3], hp, h3, hlow⟩
    · have hlt : (first + K) / 2 + 1 < C := by
        by_contra hge
        have := mono_knotAt hm (show C ≤ (first + K) / 2 + 1 by omega) hit
        exact h3 (by linarith)
      have hne : ((first + K) / 2 + 1 == K - 2) = false := by
        simp only [beq_eq_false_iff_ne]; omega
      have h4 : knotAt knots ((first + K) / 2) ≤ t :=
        (mono_knotAt hm (Nat.le_succ _) hit).trans (not_lt.1 h3)
      simp only [h3, hne, Bool.false_and, Bool.or_false, decide_false, Bool.false_eq_true, if_false]
      rw [get?_knot _ (show (first + K) / 2 < K by omega)]
      simp only [Option.bind_some, h4, decide_true, if_true]
      refine ih ((first + K) / 2 + 1) (count - (count / 2 + 1)) (by omega) (by omega) (by omega)
        hp.next fun p hpp hlt' => ?_
      by_cases hpi : p ≤ (first + K) / 2
      · exact (mono_knotAt hm (show p + 1 ≤ (first + K) / 2 + 1 by omega) hit).trans (not_lt.1 h3)
      · -- no probe lies strictly between two consecutive ones
        exfalso
        rcases hp.gap hpp with h | h <;> omega

section Exact
variable {knots : Arr ℝ K} {ps : Arr P C} {b : BSpline ℝ P K C D}

/-- **C47**, clamped only at the front: inside the knot domain `[knots[D], knots[K-1]]` the
evaluation succeeds exactly for `t < knots[C+1]`, for `t = knots[C]` and for `t = knots[K-1]`;
everywhere else in the domain it panics. -/
theorem C47_front_exact (h : BSpline.new knots ps = .ok b) (hf : FrontClamped D knots)
    (hb : ¬ BackClamped D knots) {t : ℝ} (h1 : knotAt knots D ≤ t)
    (h2 : t ≤ knotAt knots (K - 1)) :
    ((∃ q, b.eval t = .ok q) ↔
      t < knotAt knots (C + 1) ∨ t = knotAt knots C ∨ t = knotAt knots (K - 1)) ∧
    ((∃ q, b.eval t = .ok q) ∨ b.eval t = .panic) := by
  have hd := (C45_one_sided h).1 hf hb
  obtain ⟨v, hbeq⟩ := (new_ok_iff _ _ _).1 h
  have hD := degree_pos_of_not_back v hb
  obtain ⟨v1, v2, v3⟩ := id v
  by_cases hC : t = knotAt knots C
  · subst hC
    exact ⟨⟨fun _ => Or.inr (Or.inl rfl), fun _ => ⟨_, eval_end h⟩⟩, Or.inl ⟨_, eval_end h⟩⟩
  have hC' : t ≠ knotAt b.knots C := by rw [hbeq]; exact hC
  rcases eq_or_lt_of_le h2 with hl | hl
  · have e : b.knotSpanStart t = some (some (C - 1)) := by
      rw [hbeq]
      simp only [BSpline.knotSpanStart, kindOf, hf, hb, if_true, if_false, BSpline.spanClampedStart]
      rw [usub_le (by omega), usub_le (by omega)]
      simp only [Option.bind_eq_bind, Option.bind_some]
      rw [get?_knot _ (by omega), hl]
      simp
    have hok := deBoorIterative_ok b v2 t (C - 1) hC' e (Or.inr ⟨by omega, by omega⟩)
    rw [← eval_inside hd h1 h2] at hok
    exact ⟨⟨fun _ => Or.inr (Or.inr hl), fun _ => ⟨_, hok⟩⟩, Or.inl ⟨_, hok⟩⟩
  · obtain ⟨k, e, h3, h4, h5, h6⟩ := span_clampedStart h hf hb h1 hl
    by_cases hk : k ≤ C
    · have hok := deBoorIterative_ok b v2 t k hC' e (Or.inr ⟨h3, hk⟩)
      rw [← eval_inside hd h1 h2] at hok
      refine ⟨⟨fun _ => Or.inl ?_, fun _ => ⟨_, hok⟩⟩, Or.inl ⟨_, hok⟩⟩
      exact h6.trans_le (mono_knotAt v3 (by omega) (by omega))
    · have hp := deBoorIterative_panic b v2 t k hC' e hD (Or.inr (by omega))
      rw [← eval_inside hd h1 h2] at hp
      refine ⟨⟨fun ⟨q, hq⟩ => absurd hq (by rw [hp]; simp), fun hh => ?_⟩, Or.inr hp⟩
      exfalso
      rcases hh with hh | hh | hh
      · have := mono_knotAt v3 (show C + 1 ≤ k by omega) (by omega)
        linarith
      · exact hC hh
      · exact hl.ne hh

/-- **C47**, clamped only at the back: inside the knot domain `[knots[0], knots[C]]` the
evaluation succeeds exactly for `t ≥ knots[D]`; everywhere else in the domain it panics. -/
theorem C47_back_exact (h : BSpline.new knots ps = .ok b) (hf : ¬ FrontClamped D knots)
    (hb : BackClamped D knots) {t : ℝ} (h1 : knotAt knots 0 ≤ t) (h2 : t ≤ knotAt knots C) :
    ((∃ q, b.eval t = .ok q) ↔ knotAt knots D ≤ t) ∧
    ((∃ q, b.eval t = .ok q) ∨ b.eval t = .panic) := by
  have hd := (C45_one_sided h).2 hf hb
  obtain ⟨v, hbeq⟩ := (new_ok_iff _ _ _).1 h
  have hD := degree_pos_of_not_front v hf
  obtain ⟨v1, v2, v3⟩ := id v
  by_cases hDt : knotAt knots D ≤ t
  · have hok := C47_partial h (Or.inr hb) hDt h2
    exact ⟨⟨fun _ => hDt, fun _ => hok⟩, Or.inl hok⟩
  · have hlt : t < knotAt knots C :=
      (not_le.1 hDt).trans_le (mono_knotAt v3 (by omega) (by omega))
    obtain ⟨k, e, h4, h5, h6⟩ := span_clampedEnd h hf hb h1 hlt
    have hk : k < D := by
      by_contra hk
      exact hDt ((mono_knotAt v3 (show D ≤ k by omega) (by omega)).trans h5)
    have hp := deBoorIterative_panic b v2 t k (by rw [hbeq]; exact hlt.ne) e hD (Or.inl hk)
    rw [← eval_inside hd h1 h2] at hp
    exact ⟨⟨fun ⟨q, hq⟩ => absurd hq (by rw [hp]; simp), fun x => absurd x hDt⟩, Or.inr hp⟩

/-- **C47**, unclamped: inside the knot domain `[knots[D], knots[C]]` the evaluation succeeds
exactly at `knots[C]` and to the left of `knots[p+1]` for some probe `p ≤ C` of the search;
everywhere else in the domain it panics. -/
theorem C47_unclamped_exact (h : BSpline.new knots ps = .ok b) (hf : ¬ FrontClamped D knots)
    (hb : ¬ BackClamped D knots) {t : ℝ} (h1 : knotAt knots D ≤ t) (h2 : t ≤ knotAt knots C) :
    ((∃ q, b.eval t = .ok q) ↔
      t = knotAt knots C ∨ ∃ p, Probe K p ∧ p ≤ C ∧ t < knotAt knots (p + 1)) ∧
    ((∃ q, b.eval t = .ok q) ∨ b.eval t = .panic) := by
  rcases eq_or_lt_of_le h2 with rfl | hlt
  · exact ⟨⟨fun _ => Or.inl rfl, fun _ => ⟨_, eval_end h⟩⟩, Or.inl ⟨_, eval_end h⟩⟩
  obtain ⟨k, e, h3, h4, h5, hok, hp⟩ := eval_unclamped h hf hb h1 hlt
  obtain ⟨v, hbeq⟩ := (new_ok_iff _ _ _).1 h
  have hD := degree_pos_of_not_front v hf
  obtain ⟨v1, v2, v3⟩ := id v
  obtain ⟨k', e', hpk, _, hfirst⟩ := spanUnclamped_probe v3 v2 hD hlt K 0 K le_rfl (by omega)
    (by omega) (by rw [Nat.zero_add]; exact Probe.first) (by
      intro p hp hlt'
      exfalso
      have : K / 2 ≤ p := by
        induction hp with
        | first => exact le_rfl
        | next _ _ => omega
      omega)
  have hkk : k' = k := by
    rw [hbeq] at e
    simp only [BSpline.knotSpanStart, kindOf, hf, hb, if_false, BSpline.spanUnclamped] at e
    rw [e] at e'
    simpa using e'.symm
  subst hkk
  by_cases hk : k' ≤ C
  · exact ⟨⟨fun _ => Or.inr ⟨k', hpk, hk, h5⟩, fun _ => ⟨_, hok hk⟩⟩, Or.inl ⟨_, hok hk⟩⟩
  · refine ⟨⟨fun ⟨q, hq⟩ => absurd hq (by rw [hp (by omega)]; simp), fun hh => ?_⟩,
      Or.inr (hp (by omega))⟩
    exfalso
    rcases hh with hh | ⟨p, hp1, hp2, hp3⟩
    · exact hlt.ne hh
    · have := hfirst p hp1 (by omega)
      linarith

/-- **C47**, consequence for every kind of knot vector: inside the knot domain, evaluation
returns a point or panics; it never returns an error. -/
theorem C47_no_error (h : BSpline.new knots ps = .ok b) {lo hi t : ℝ}
    (hd : b.knotDomain = some (lo, hi)) (h1 : lo ≤ t) (h2 : t ≤ hi) :
    (∃ q, b.eval t = .ok q) ∨ b.eval t = .panic := by
  rw [knotDomain_eq h] at hd
  simp only [Option.some.injEq, Prod.mk.injEq] at hd
  obtain ⟨rfl, rfl⟩ := hd
  by_cases f : FrontClamped D knots <;> by_cases g : BackClamped D knots
  · rw [if_neg (by tauto)] at h1 h2
    exact Or.inl (C47_partial h (Or.inl f) h1 h2)
  · rw [if_neg (by tauto)] at h1
    rw [if_pos ⟨f, g⟩] at h2
    exact (C47_front_exact h f g h1 h2).2
  · rw [if_pos ⟨f, g⟩] at h1
    rw [if_neg (by tauto)] at h2
    exact (C47_back_exact h f g h1 h2).2
  · rw [if_neg (by tauto)] at h1 h2
    exact (C47_unclamped_exact h f g h1 h2).2

/-- **C47** for unclamped splines: parameters to the left of `knots[K/2+1]` always evaluate. -/
theorem C47_unclamped_left (h : BSpline.new knots ps = .ok b) (hf : ¬ FrontClamped D knots)
    (hb : ¬ BackClamped D knots) {t : ℝ} (h1 : knotAt knots D ≤ t) (h2 : t ≤ knotAt knots C)
    (h3 : t < knotAt knots (K / 2 + 1)) : ∃ q, b.eval t = .ok q := by
  obtain ⟨v1, v2, _⟩ := ((new_ok_iff _ _ _).1 h).1
  exact (C47_unclamped_exact h hf hb h1 h2).1.2 (Or.inr ⟨_, Probe.first, by omega, h3⟩)

/-- The probes in closed form. -/
theorem probe_iff {p : ℕ} : Probe K p ↔ ∃ i : ℕ, p = K - (K + 1) / 2 ^ (i + 1) := by
  have hstep : ∀ i : ℕ, (K - (K + 1) / 2 ^ (i + 1) + 1 + K) / 2 = K - (K + 1) / 2 ^ (i + 1 + 1) := by
    intro i
    have e : (K + 1) / 2 ^ (i + 1 + 1) = (K + 1) / 2 ^ (i + 1) / 2 := by
      rw [Nat.div_div_eq_div_mul, ← pow_succ]
    have hle : (K + 1) / 2 ^ (i + 1) ≤ (K + 1) / 2 := by
      refine Nat.div_le_div_left ?_ (by norm_num)
      calc 2 = 2 ^ 1 := by norm_num
        _ ≤ 2 ^ (i + 1) := Nat.pow_le_pow_right (by norm_num) (by omega)
    rw [e]
    generalize (K + 1) / 2 ^ (i + 1) = d at hle ⊢
    omega
  constructor
  · intro h
    induction h with
    | first => exact ⟨0, by rw [zero_add, pow_one]; omega⟩
    | next _ ih =>
      obtain ⟨i, rfl⟩ := ih
      exact ⟨i + 1, hstep i⟩
  · rintro ⟨i, rfl⟩
    induction i with
    | zero =>
      have : K - (K + 1) / 2 ^ (0 + 1) = K / 2 := by rw [zero_add, pow_one]; omega
      rw [this]; exact Probe.first
    | succ i ih => rw [← hstep i]; exact Probe.next ih

/-- **C47**, exactly which unclamped splines can be evaluated on their whole domain, when the last
span of the domain is not empty: those for which halving `K + 1` repeatedly, rounding down, passes
through `D + 1` or `D + 2`.  This depends on the sizes only. -/
theorem C47_unclamped_sizes (h : BSpline.new knots ps = .ok b) (hf : ¬ FrontClamped D knots)
    (hb : ¬ BackClamped D knots) (hlast : knotAt knots (C - 1) < knotAt knots C) :
    (∀ t, knotAt knots D ≤ t → t ≤ knotAt knots C → ∃ q, b.eval t = .ok q) ↔
      ∃ i : ℕ, (K + 1) / 2 ^ (i + 1) = D + 1 ∨ (K + 1) / 2 ^ (i + 1) = D + 2 := by
  obtain ⟨v1, v2, v3⟩ := ((new_ok_iff _ _ _).1 h).1
  have hD := degree_pos_of_not_front (C := C) ⟨v1, v2, v3⟩ hf
  constructor
  · intro hall
    have hle : knotAt knots D ≤ knotAt knots (C - 1) := mono_knotAt v3 (by omega) (by omega)
    obtain e | ⟨p, hp, hpC, hlt⟩ := (C47_unclamped_exact h hf hb hle hlast.le).1.1
      (hall _ hle hlast.le)
    · exact absurd e hlast.ne
    · have : C - 1 ≤ p := by
        by_contra hn
        have := mono_knotAt v3 (show p + 1 ≤ C - 1 by omega) (by omega)
        linarith
      obtain ⟨i, rfl⟩ := probe_iff.1 hp
      have hle2 : (K + 1) / 2 ^ (i + 1) ≤ K + 1 := Nat.div_le_self _ _
      refine ⟨i, ?_⟩
      generalize (K + 1) / 2 ^ (i + 1) = d at *
      omega
  · rintro ⟨i, hi⟩ t h1 h2
    refine (C47_unclamped_exact h hf hb h1 h2).1.2 ?_
    rcases eq_or_lt_of_le h2 with e | hlt
    · exact Or.inl e
    · refine Or.inr ⟨_, probe_iff.2 ⟨i, rfl⟩, by omega, hlt.trans_le (mono_knotAt v3 (by omega) ?_)⟩
      omega

/-- Degree 2: with knots 0, 1, ..., 7 and five control points every parameter of the domain can be
evaluated (9 → 4), with one more knot not (10 → 5 → 2). -/
example : (∃ i : ℕ, (8 + 1) / 2 ^ (i + 1) = 2 + 1 ∨ (8 + 1) / 2 ^ (i + 1) = 2 + 2) ∧
    ¬ ∃ i : ℕ, (9 + 1) / 2 ^ (i + 1) = 2 + 1 ∨ (9 + 1) / 2 ^ (i + 1) = 2 + 2 := by
  refine ⟨⟨0, by norm_num⟩, ?_⟩
  rintro ⟨i, hi⟩
  rcases i with _ | _ | i
  · norm_num at hi
  · norm_num at hi
  · have : (9 + 1) / 2 ^ (i + 1 + 1 + 1) ≤ (9 + 1) / 2 ^ 3 :=
      Nat.div_le_div_left (Nat.pow_le_pow_right (by norm_num) (by omega)) (by norm_num)
    omega

/-- **C48**, unclamped splines: to the left of `knots[K/2-D+1]` the evaluation does not follow
the spline at all, it returns control point `K/2-D`, whatever `t` is. -/
theorem C48_unclamped_constant [LawfulPoint P] (h : BSpline.new knots ps = .ok b)
    (hf : ¬ FrontClamped D knots) (hb : ¬ BackClamped D knots) {t : ℝ} (h1 : knotAt knots D ≤ t)
    (h2 : t ≤ knotAt knots (K / 2 - D + 1)) (h3 : t < knotAt knots C)
    (h4 : t < knotAt knots (K / 2 + 1)) :
    ∃ hi : K / 2 - D < C, b.eval t = .ok (ps ⟨K / 2 - D, hi⟩) := by
  obtain ⟨v, hbeq⟩ := (new_ok_iff _ _ _).1 h
  have hD := degree_pos_of_not_front v hf
  have v1 := v.1
  have v2 := v.2.1
  refine ⟨by omega, ?_⟩
  have hd := C45_partial h ⟨fun x => absurd x hf, fun x => absurd x hb⟩
  have e : b.knotSpanStart t = some (some (K / 2)) := by
    rw [hbeq]
    simp only [BSpline.knotSpanStart, kindOf, hf, hb, if_false, BSpline.spanUnclamped]
    unfold BSpline.spanUnclampedLoop
    rw [if_pos (by omega)]
    simp only [Nat.zero_add]
    rw [get?_knot _ (by omega), usub_le (by omega)]
    simp only [Option.bind_eq_bind, Option.bind_some, lt_real, h4, decide_true, Bool.true_or,
      if_true]
    rfl
  rw [eval_inside hd h1 h3.le, deBoorIterative_ok b v2 t (K / 2) (by rw [hbeq]; exact h3.ne) e
    (Or.inr ⟨by omega, by omega⟩), (new_stores h).1, (new_stores h).2.1]
  congr 1
  apply point_ext
  intro c
  rw [coord_deBoorValue, dbr_zero (n := D + 1) _ _ D D le_rfl (Nat.lt_succ_self D)]
  · rw [Nat.sub_self, if_pos (by omega), Nat.zero_add, extend_lt _ (by omega)]
  · intro r j hr1 hr hj
    unfold alphaVal
    rw [if_pos]
    have h5 := mono_knotAt v.2.2 (show K / 2 - D + 1 ≤ j + K / 2 - D by omega)
      (show j + K / 2 - D < K by omega)
    have := eps_pos
    linarith

end Exact

/-- The hypotheses of `C47_front_exact`: knots 0 0 0 1 2 3.  On `[0, 3]` evaluation succeeds
exactly on `[0, 2)` and at 3. -/
example (ps : Arr P 3) : ∃ b : BSpline ℝ P 6 3 2, BSpline.new ![0, 0, 0, 1, 2, 3] ps = .ok b ∧
    ∀ t : ℝ, 0 ≤ t → t ≤ 3 → ((∃ q, b.eval t = .ok q) ↔ t < 2 ∨ t = 3) := by
  obtain ⟨b, hb⟩ := (C43_accepts (D := 2) _ ps).2 valid_000123
  refine ⟨b, hb, fun t h0 h3 => ?_⟩
  rw [(C47_front_exact hb front_000123 not_back_000123 (t := t) (by simpa [knotAt] using h0)
    (by simpa [knotAt] using h3)).1]
  have e1 : knotAt (![0, 0, 0, 1, 2, 3] : Fin 6 → ℝ) (3 + 1) = 2 := by simp [knotAt]
  have e2 : knotAt (![0, 0, 0, 1, 2, 3] : Fin 6 → ℝ) 3 = 1 := by simp [knotAt]
  have e3 : knotAt (![0, 0, 0, 1, 2, 3] : Fin 6 → ℝ) (6 - 1) = 3 := by simp [knotAt]
  rw [e1, e2, e3]
  constructor
  · rintro (h | h | h)
    · exact Or.inl h
    · left; linarith
    · exact Or.inr h
  · rintro (h | h)
    · exact Or.inl h
    · exact Or.inr (Or.inr h)

/-- The hypotheses of `C47_back_exact`: knots 0 1 2 3 3 3.  On `[0, 3]` evaluation succeeds
exactly on `[2, 3]`. -/
example (ps : Arr P 3) : ∃ b : BSpline ℝ P 6 3 2, BSpline.new ![0, 1, 2, 3, 3, 3] ps = .ok b ∧
    ∀ t : ℝ, 0 ≤ t → t ≤ 3 → ((∃ q, b.eval t = .ok q) ↔ 2 ≤ t) := by
  obtain ⟨b, hb⟩ := (C43_accepts (D := 2) _ ps).2 valid_012333
  refine ⟨b, hb, fun t h0 h3 => ?_⟩
  rw [(C47_back_exact hb not_front_012333 back_012333 (t := t) (by simpa [knotAt] using h0)
    (by simpa [knotAt] using h3)).1]
  simp [knotAt]

/-- The hypotheses of `C47_unclamped_exact` and `C48_unclamped_constant`: degree 2, knots
0, 1, ..., 8.  On `[2, 6]` evaluation succeeds exactly on `[2, 5)` and at 6, and on `[2, 3]` it
returns control point 2. -/
example (ps : Arr (PointN ℝ 2) 6) : ∃ b : BSpline ℝ (PointN ℝ 2) 9 6 2,
    BSpline.new (uniformKnots 9) ps = .ok b ∧
    (∀ t : ℝ, 2 ≤ t → t ≤ 6 → ((∃ q, b.eval t = .ok q) ↔ t < 5 ∨ t = 6)) ∧
    ∀ t : ℝ, 2 ≤ t → t ≤ 3 → b.eval t = .ok (ps 2) := by
  have v : ValidSpline 6 2 (uniformKnots 9) := valid_uniform (by norm_num) (by norm_num)
  obtain ⟨b, hb⟩ := (C43_accepts (D := 2) _ ps).2 v
  have hf : ¬ FrontClamped 2 (uniformKnots 9) :=
    not_front_uniform (C := 6) (by norm_num) (by norm_num) (by norm_num)
  have hg : ¬ BackClamped 2 (uniformKnots 9) :=
    not_back_uniform (C := 6) (by norm_num) (by norm_num) (by norm_num)
  have hu : ∀ i : ℕ, i < 9 → knotAt (uniformKnots 9) i = i := fun i hi => knotAt_uniform hi
  refine ⟨b, hb, fun t h0 h3 => ?_, fun t h0 h3 => ?_⟩
  · rw [(C47_unclamped_exact hb hf hg (t := t) (by rw [hu 2 (by norm_num)]; exact_mod_cast h0)
      (by rw [hu 6 (by norm_num)]; exact_mod_cast h3)).1, hu 6 (by norm_num)]
    constructor
    · rintro (h | ⟨p, hp, h6, h⟩)
      · right; exact_mod_cast h
      · left
        rw [hu _ (by omega)] at h
        have hp4 : p ≤ 4 := by
          have := (Probe.first (K := 9)).gap hp
          omega
        have : ((p + 1 : ℕ) : ℝ) ≤ 5 := by exact_mod_cast (by omega : p + 1 ≤ 5)
        linarith
    · rintro (h | h)
      · right
        refine ⟨4, Probe.first, by norm_num, ?_⟩
        rw [hu _ (by norm_num)]
        exact_mod_cast h
      · left; exact_mod_cast h
  · obtain ⟨_, e⟩ := C48_unclamped_constant hb hf hg (t := t)
      (by rw [hu 2 (by norm_num)]; exact_mod_cast h0)
      (by rw [hu _ (by norm_num)]; exact_mod_cast h3)
      (by rw [hu 6 (by norm_num)]; push_cast; linarith)
      (by rw [hu _ (by norm_num)]; push_cast; linarith)
    exact e

end Stroke
