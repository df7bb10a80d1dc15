import Verif.Lemmas.BSplineEval
import Verif.Lemmas.Concrete

/-!
# B-splines: construction, domain, evaluation (C43–C51)

"Every constructed spline" is the hypothesis `BSpline.new knots ps = .ok b`.
`knotAt knots i` is knot `i`.
-/

set_option linter.unusedSectionVars false

namespace Stroke

variable {P : Type} [Point ℝ P] {K C D : ℕ}

/-! ### Construction (C43, C44) -/

/-- **C43**: the constructor accepts exactly the inputs that satisfy its documented
requirements. -/
theorem C43_accepts (knots : Arr ℝ K) (ps : Arr P C) :
    (∃ b : BSpline ℝ P K C D, BSpline.new knots ps = .ok b) ↔ ValidSpline C D knots :=
  ⟨fun ⟨_, h⟩ => ((new_ok_iff _ _ _).1 h).1, fun h => ⟨_, (new_ok_iff _ _ _).2 ⟨h, rfl⟩⟩⟩

/-- **C44**: which error is reported, in order of priority; the constructor never panics. -/
theorem C44_errors (knots : Arr ℝ K) (ps : Arr P C) :
    (C ≤ D → (BSpline.new knots ps : Outcome (BSpline ℝ P K C D)) = .err .TooFewControlPoints) ∧
    (D < C → K < C + D + 1 →
      (BSpline.new knots ps : Outcome (BSpline ℝ P K C D)) = .err .TooFewKnots) ∧
    (D < C → C + D + 1 < K →
      (BSpline.new knots ps : Outcome (BSpline ℝ P K C D)) = .err .TooManyKnots) ∧
    (D < C → K = C + D + 1 → (∃ i j : Fin K, i ≤ j ∧ knots j < knots i) →
      (BSpline.new knots ps : Outcome (BSpline ℝ P K C D)) = .err .DecreasingKnots) ∧
    (BSpline.new knots ps : Outcome (BSpline ℝ P K C D)) ≠ .panic := by
  classical
  refine ⟨fun h => ?_, fun h1 h2 => ?_, fun h1 h2 => ?_, fun h1 h2 h3 => ?_, ?_⟩
  · rw [new_eq, if_pos h]
  · rw [new_eq, if_neg (by omega), if_pos (by omega)]
  · rw [new_eq, if_neg (by omega), if_neg (by omega), if_pos (by omega)]
  · rw [new_eq, if_neg (by omega), if_neg (by omega), if_neg (by omega), if_neg]
    obtain ⟨i, j, hij, hlt⟩ := h3
    intro hm
    exact absurd (hm i j hij) (not_le.2 hlt)
  · rw [new_eq]; split_ifs <;> simp

/-- **C44**: a constructed spline iterates over exactly the knots and the control points it was
given, in order. -/
theorem C44_stores {knots : Arr ℝ K} {ps : Arr P C} {b : BSpline ℝ P K C D}
    (h : BSpline.new knots ps = .ok b) :
    b.knotsIter = List.ofFn knots ∧ b.controlPoints = List.ofFn ps := by
  obtain ⟨h1, h2, _⟩ := new_stores h
  exact ⟨by rw [BSpline.knotsIter, h1]; rfl, by rw [BSpline.controlPoints, h2]; rfl⟩

/-! ### Concrete splines used below -/

/-- A point of the number line. -/
def p1 (x : ℝ) : PointN ℝ 1 := PointN.new fun _ => x

@[simp] theorem coord_p1 (x : ℝ) : coord (p1 x) 0 = x := rfl

theorem p1_inj {x y : ℝ} (h : p1 x = p1 y) : x = y := by
  have := congrArg (fun p => coord p 0) h
  simpa using this

/-- The knots 0 0 1 1 are valid for degree 1 and clamped on both sides. -/
theorem valid_0011 : ValidSpline 2 1 (![0, 0, 1, 1] : Fin 4 → ℝ) := by
  refine ⟨by norm_num, by norm_num, ?_⟩
  intro i j
  fin_cases i <;> fin_cases j <;> simp

theorem front_0011 : FrontClamped 1 (![0, 0, 1, 1] : Fin 4 → ℝ) :=
  (frontClamped_iff valid_0011).2 (by simp [knotAt, eps_pos])

theorem back_0011 : BackClamped 1 (![0, 0, 1, 1] : Fin 4 → ℝ) :=
  (backClamped_iff valid_0011).2 (by simp [knotAt, eps_pos])

/-- Uniform knots 0, 1, 2, ... -/
def uniformKnots (K : ℕ) : Fin K → ℝ := fun i => (i.val : ℝ)

theorem knotAt_uniform {K i : ℕ} (h : i < K) : knotAt (uniformKnots K) i = i := by
  rw [knotAt_lt _ h]; rfl

theorem valid_uniform {K C D : ℕ} (h1 : D < C) (h2 : K = C + D + 1) :
    ValidSpline C D (uniformKnots K) :=
  ⟨h1, h2, fun i j h => by unfold uniformKnots; exact_mod_cast h⟩

theorem not_front_uniform {K C D : ℕ} (h1 : D < C) (h2 : K = C + D + 1) (hD : 1 ≤ D) :
    ¬ FrontClamped D (uniformKnots K) := by
  rw [frontClamped_iff (valid_uniform h1 h2), knotAt_uniform (by omega), knotAt_uniform (by omega)]
  have := eps_lt_one
  have h : (1 : ℝ) ≤ D := by exact_mod_cast hD
  push_cast
  linarith

theorem not_back_uniform {K C D : ℕ} (h1 : D < C) (h2 : K = C + D + 1) (hD : 1 ≤ D) :
    ¬ BackClamped D (uniformKnots K) := by
  rw [backClamped_iff (valid_uniform h1 h2), knotAt_uniform (by omega), knotAt_uniform (by omega)]
  have := eps_lt_one
  have h : (1 : ℝ) ≤ D := by exact_mod_cast hD
  rw [show K - 1 = C + D by omega]
  push_cast
  linarith

/-- The hypotheses of the theorems of this file are satisfiable for every degree. -/
example (ps : Arr (PointN ℝ 2) 6) : ∃ b : BSpline ℝ (PointN ℝ 2) 10 6 3,
    BSpline.new (uniformKnots 10) ps = .ok b :=
  (C43_accepts _ _).2 (valid_uniform (by norm_num) (by norm_num))

/-! ### The knot domain (C45) -/

/-- **C45**: for knot vectors clamped on both sides or on none, the domain is
`(knots[D], knots[C])`.  Missing for the full claim: knot vectors clamped on exactly one side,
where it fails (`C45_false`). -/
theorem C45_partial {knots : Arr ℝ K} {ps : Arr P C} {b : BSpline ℝ P K C D}
    (h : BSpline.new knots ps = .ok b) (hc : FrontClamped D knots ↔ BackClamped D knots) :
    b.knotDomain = some (knotAt knots D, knotAt knots C) := by
  rw [knotDomain_eq h]
  by_cases f : FrontClamped D knots
  · simp [f, hc.1 f]
  · simp [f, mt hc.2 f]

/-- **C45**, what is returned otherwise: clamped only at the front, the domain ends at the last
knot; clamped only at the back, it starts at the first. -/
theorem C45_one_sided {knots : Arr ℝ K} {ps : Arr P C} {b : BSpline ℝ P K C D}
    (h : BSpline.new knots ps = .ok b) :
    (FrontClamped D knots → ¬ BackClamped D knots →
      b.knotDomain = some (knotAt knots D, knotAt knots (K - 1))) ∧
    (¬ FrontClamped D knots → BackClamped D knots →
      b.knotDomain = some (knotAt knots 0, knotAt knots C)) := by
  rw [knotDomain_eq h]
  exact ⟨fun f g => by simp [f, g], fun f g => by simp [f, g]⟩

/-- The knots 0 0 0 1 2 3: degree 2, clamped at the front only. -/
theorem valid_000123 : ValidSpline 3 2 (![0, 0, 0, 1, 2, 3] : Fin 6 → ℝ) := by
  refine ⟨by norm_num, by norm_num, ?_⟩
  intro i j
  fin_cases i <;> fin_cases j <;> simp; norm_num

theorem front_000123 : FrontClamped 2 (![0, 0, 0, 1, 2, 3] : Fin 6 → ℝ) :=
  (frontClamped_iff valid_000123).2 (by simp [knotAt, eps_pos])

theorem not_back_000123 : ¬ BackClamped 2 (![0, 0, 0, 1, 2, 3] : Fin 6 → ℝ) := by
  rw [backClamped_iff valid_000123]
  have := eps_lt_one
  simp only [knotAt]
  norm_num
  linarith

/-- The knots 0 1 2 3 3 3: degree 2, clamped at the back only. -/
theorem valid_012333 : ValidSpline 3 2 (![0, 1, 2, 3, 3, 3] : Fin 6 → ℝ) := by
  refine ⟨by norm_num, by norm_num, ?_⟩
  intro i j
  fin_cases i <;> fin_cases j <;> simp <;> norm_num

theorem not_front_012333 : ¬ FrontClamped 2 (![0, 1, 2, 3, 3, 3] : Fin 6 → ℝ) := by
  rw [frontClamped_iff valid_012333]
  have := eps_lt_one
  simp only [knotAt]
  norm_num
  linarith

theorem back_012333 : BackClamped 2 (![0, 1, 2, 3, 3, 3] : Fin 6 → ℝ) :=
  (backClamped_iff valid_012333).2 (by simp [knotAt, eps_pos])

/-- **C45** is false of the code for knot vectors clamped on one side only: degree 2, knots
0 0 0 1 2 3 has the domain (0, 3), not (0, 1); knots 0 1 2 3 3 3 has (0, 3), not (2, 3). -/
theorem C45_false (ps : Arr P 3) :
    (∃ b : BSpline ℝ P 6 3 2, BSpline.new ![0, 0, 0, 1, 2, 3] ps = .ok b ∧
      b.knotDomain = some (0, 3)) ∧
    (∃ b : BSpline ℝ P 6 3 2, BSpline.new ![0, 1, 2, 3, 3, 3] ps = .ok b ∧
      b.knotDomain = some (0, 3)) := by
  constructor
  · obtain ⟨b, hb⟩ := (C43_accepts (D := 2) _ ps).2 valid_000123
    refine ⟨b, hb, ?_⟩
    rw [(C45_one_sided hb).1 front_000123 not_back_000123]
    simp [knotAt]
  · obtain ⟨b, hb⟩ := (C43_accepts (D := 2) _ ps).2 valid_012333
    refine ⟨b, hb, ?_⟩
    rw [(C45_one_sided hb).2 not_front_012333 back_012333]
    simp [knotAt]

/-! ### Outside the domain (C46) -/

/-- **C46** (for numbers; NaN and infinities in `Props/FloatBSpline`): every spline has a knot domain,
and evaluating outside of it is a `KnotDomainViolation`. -/
theorem C46_outside {knots : Arr ℝ K} {ps : Arr P C} {b : BSpline ℝ P K C D}
    (h : BSpline.new knots ps = .ok b) :
    ∃ lo hi, b.knotDomain = some (lo, hi) ∧ lo ≤ hi ∧
      ∀ t, (t < lo ∨ hi < t) → b.eval t = .err .KnotDomainViolation := by
  obtain ⟨⟨v1, v2, v3⟩, _⟩ := (new_ok_iff _ _ _).1 h
  refine ⟨_, _, knotDomain_eq h, ?_, fun t ht => eval_err (knotDomain_eq h) ht⟩
  split_ifs <;> exact mono_knotAt v3 (by omega) (by omega)

/-! ### Inside the domain (C47) -/

/-- **C47**: a spline clamped on at least one side evaluates without error on
[knots[D], knots[C]].  Missing for the full claim: unclamped splines, and the parameters that
the domain of a spline clamped on one side has beyond this interval; there it fails
(`C47_false_unclamped`, `C47_false_start`, `C47_false_end`). -/
theorem C47_partial {knots : Arr ℝ K} {ps : Arr P C} {b : BSpline ℝ P K C D}
    (h : BSpline.new knots ps = .ok b) (hc : FrontClamped D knots ∨ BackClamped D knots) {t : ℝ}
    (h1 : knotAt knots D ≤ t) (h2 : t ≤ knotAt knots C) : ∃ q, b.eval t = .ok q := by
  rcases eq_or_lt_of_le h2 with rfl | h2
  · exact ⟨_, eval_end h⟩
  · obtain ⟨k, h3, h4, h5, h6⟩ := exists_span ((new_ok_iff _ _ _).1 h).1 h1 h2
    exact ⟨_, eval_in_span h hc h3 h4 h5 h6⟩

/-- **C47** holds for every spline clamped on both sides. -/
theorem C47_clamped {knots : Arr ℝ K} {ps : Arr P C} {b : BSpline ℝ P K C D}
    (h : BSpline.new knots ps = .ok b) (hf : FrontClamped D knots) (hb : BackClamped D knots)
    {t lo hi : ℝ} (hd : b.knotDomain = some (lo, hi)) (h1 : lo ≤ t) (h2 : t ≤ hi) :
    ∃ q, b.eval t = .ok q := by
  rw [C45_partial h ⟨fun _ => hb, fun _ => hf⟩] at hd
  simp only [Option.some.injEq, Prod.mk.injEq] at hd
  obtain ⟨rfl, rfl⟩ := hd
  exact C47_partial h (Or.inl hf) h1 h2

/-- What an unclamped spline does inside its domain: the search returns some `k ≥ K/2` with
`t < knots[k+1]`; evaluation succeeds if `k ≤ C` and panics otherwise. -/
theorem eval_unclamped {knots : Arr ℝ K} {ps : Arr P C} {b : BSpline ℝ P K C D}
    (h : BSpline.new knots ps = .ok b) (hf : ¬ FrontClamped D knots) (hb : ¬ BackClamped D knots)
    {t : ℝ} (h1 : knotAt knots D ≤ t) (h2 : t < knotAt knots C) :
    ∃ k, b.knotSpanStart t = some (some k) ∧ K / 2 ≤ k ∧ k + 1 < K ∧ t < knotAt knots (k + 1) ∧
      (k ≤ C → b.eval t = .ok (deBoorValue knots ps D t k)) ∧ (C < k → b.eval t = .panic) := by
  obtain ⟨k, e, h3, h4, h5⟩ := span_unclamped h hf hb h2
  have hd := C45_partial h ⟨fun x => absurd x hf, fun x => absurd x hb⟩
  obtain ⟨v, hbeq⟩ := (new_ok_iff _ _ _).1 h
  have hD := degree_pos_of_not_front v hf
  obtain ⟨v1, v2, v3⟩ := v
  refine ⟨k, e, h3, h4, h5, fun hk => ?_, fun hk => ?_⟩
  · rw [eval_inside hd h1 h2.le, deBoorIterative_ok b v2 t k (by rw [hbeq]; exact h2.ne) e
      (Or.inr ⟨by omega, hk⟩), hbeq]
  · rw [eval_inside hd h1 h2.le]
    exact deBoorIterative_panic b v2 t k (by rw [hbeq]; exact h2.ne) e hD (Or.inr hk)

/-- **C47** holds for unclamped splines of degree 1.  (Degree 0 counts as clamped.) -/
theorem C47_unclamped_partial {knots : Arr ℝ K} {ps : Arr P C} {b : BSpline ℝ P K C 1}
    (h : BSpline.new knots ps = .ok b) (hf : ¬ FrontClamped 1 knots) (hb : ¬ BackClamped 1 knots)
    {t lo hi : ℝ} (hd : b.knotDomain = some (lo, hi)) (h1 : lo ≤ t) (h2 : t ≤ hi) :
    ∃ q, b.eval t = .ok q := by
  rw [C45_partial h ⟨fun x => absurd x hf, fun x => absurd x hb⟩] at hd
  simp only [Option.some.injEq, Prod.mk.injEq] at hd
  obtain ⟨rfl, rfl⟩ := hd
  rcases eq_or_lt_of_le h2 with rfl | h2
  · exact ⟨_, eval_end h⟩
  · obtain ⟨k, _, _, h4, _, hok, _⟩ := eval_unclamped h hf hb h1 h2
    have := ((new_ok_iff _ _ _).1 h).1.2.1
    exact ⟨_, hok (by omega)⟩

/-- **C47** is false of the code for unclamped splines: degree 2, knots 0, 1, ..., 8, any six
control points.  The domain is [2, 6], and evaluating at 5.5 panics. -/
theorem C47_false_unclamped (ps : Arr P 6) :
    ∃ b : BSpline ℝ P 9 6 2, BSpline.new (uniformKnots 9) ps = .ok b ∧
      b.knotDomain = some (2, 6) ∧ b.eval (11 / 2 : ℝ) = .panic := by
  have v : ValidSpline 6 2 (uniformKnots 9) := valid_uniform (by norm_num) (by norm_num)
  obtain ⟨b, hb⟩ := (C43_accepts (D := 2) _ ps).2 v
  have hf : ¬ FrontClamped 2 (uniformKnots 9) :=
    not_front_uniform (C := 6) (by norm_num) (by norm_num) (by norm_num)
  have hg : ¬ BackClamped 2 (uniformKnots 9) :=
    not_back_uniform (C := 6) (by norm_num) (by norm_num) (by norm_num)
  refine ⟨b, hb, ?_, ?_⟩
  · rw [C45_partial hb ⟨fun x => absurd x hf, fun x => absurd x hg⟩, knotAt_uniform (by norm_num),
      knotAt_uniform (by norm_num)]
    norm_num
  · obtain ⟨k, hk, h3, h4, h5, _, hp⟩ := eval_unclamped hb hf hg (t := 11 / 2)
      (by rw [knotAt_uniform (by norm_num)]; norm_num)
      (by rw [knotAt_uniform (by norm_num)]; norm_num)
    apply hp
    -- the search probes 4, then 7
    have hb' := (new_ok_iff _ _ _).1 hb
    have hk7 : b.knotSpanStart (11 / 2 : ℝ) = some (some 7) := by
      rw [hb'.2]
      simp only [BSpline.knotSpanStart, kindOf, hf, hg, if_false, BSpline.spanUnclamped]
      unfold BSpline.spanUnclampedLoop
      norm_num [get?_knot, knotAt_uniform, usub]
      unfold BSpline.spanUnclampedLoop
      norm_num [get?_knot, knotAt_uniform, usub]
    rw [hk7] at hk
    simp only [Option.some.injEq] at hk
    omega

/-- **C47** is false of the code for splines clamped at the front only: degree 2, knots
0 0 0 1 2 3.  The reported domain is [0, 3], and evaluating at 2.5 panics. -/
theorem C47_false_start (ps : Arr P 3) :
    ∃ b : BSpline ℝ P 6 3 2, BSpline.new ![0, 0, 0, 1, 2, 3] ps = .ok b ∧
      b.knotDomain = some (0, 3) ∧ b.eval (5 / 2 : ℝ) = .panic := by
  obtain ⟨b, hb⟩ := (C43_accepts (D := 2) _ ps).2 valid_000123
  have hd : b.knotDomain = some (0, 3) := by
    rw [(C45_one_sided hb).1 front_000123 not_back_000123]
    simp [knotAt]
  refine ⟨b, hb, hd, ?_⟩
  obtain ⟨k, e, h3, h4, h5, h6⟩ := span_clampedStart hb front_000123 not_back_000123
    (t := 5 / 2) (by norm_num [knotAt]) (by norm_num [knotAt])
  have hk : k = 4 := span_unique valid_000123.2.2 (by omega) (by norm_num) h5 h6
    (by norm_num [knotAt]) (by norm_num [knotAt])
  rw [eval_inside hd (by norm_num) (by norm_num)]
  refine deBoorIterative_panic b (by norm_num) _ k ?_ e (by norm_num) (Or.inr (by omega))
  rw [(new_stores hb).1]
  norm_num [knotAt]

/-- **C47** is false of the code for splines clamped at the back only: degree 2, knots
0 1 2 3 3 3.  The reported domain is [0, 3], and evaluating at 0.5 panics. -/
theorem C47_false_end (ps : Arr P 3) :
    ∃ b : BSpline ℝ P 6 3 2, BSpline.new ![0, 1, 2, 3, 3, 3] ps = .ok b ∧
      b.knotDomain = some (0, 3) ∧ b.eval (1 / 2 : ℝ) = .panic := by
  obtain ⟨b, hb⟩ := (C43_accepts (D := 2) _ ps).2 valid_012333
  have hd : b.knotDomain = some (0, 3) := by
    rw [(C45_one_sided hb).2 not_front_012333 back_012333]
    simp [knotAt]
  refine ⟨b, hb, hd, ?_⟩
  obtain ⟨k, e, h4, h5, h6⟩ := span_clampedEnd hb not_front_012333 back_012333
    (t := 1 / 2) (by norm_num [knotAt]) (by norm_num [knotAt])
  have hk : k = 0 := span_unique valid_012333.2.2 (by omega) (by norm_num) h5 h6
    (by norm_num [knotAt]) (by norm_num [knotAt])
  rw [eval_inside hd (by norm_num) (by norm_num)]
  refine deBoorIterative_panic b (by norm_num) _ k ?_ e (by norm_num) (Or.inl (by omega))
  rw [(new_stores hb).1]
  norm_num [knotAt]

/-! ### The value (C48) -/

section Lawful
variable [LawfulPoint P]

/-- **C48**: what `eval` returns for `t` in the span `[knots[k], knots[k+1])`, for knot vectors
clamped on at least one side: the B-spline without the contribution of the last control point
of the span.  `t` must not lie strictly within the machine epsilon above a knot.
Missing for the full claim: the last contribution, which the code drops (`C48_false`), and
unclamped splines (`C48_false_unclamped`). -/
theorem C48_partial {knots : Arr ℝ K} {ps : Arr P C} {b : BSpline ℝ P K C D}
    (h : BSpline.new knots ps = .ok b) (hc : FrontClamped D knots ∨ BackClamped D knots) {t : ℝ}
    {k : ℕ} (hDk : D ≤ k) (hkC : k < C) (h1 : knotAt knots k ≤ t) (h2 : t < knotAt knots (k + 1))
    (heps : ∀ i : Fin K, knots i < t → eps ≤ t - knots i) :
    ∃ q, b.eval t = .ok q ∧ ∀ c, coord q c
      = splineCoord D knots ps t c
        - coxDeBoor (knotAt knots) D k t * coord (ps ⟨k, hkC⟩) c := by
  have v := ((new_ok_iff _ _ _).1 h).1
  refine ⟨_, eval_in_span h hc hDk hkC h1 h2, fun c => ?_⟩
  rw [coord_deBoorValue_basis v hDk hkC h1 h2 heps, splineCoord]
  have e1 : ∑ i : Fin C, coxDeBoor (knotAt knots) D i.val t * coord (ps i) c
      = ∑ i ∈ Finset.range C, coxDeBoor (knotAt knots) D i t * coord (extend ps i) c := by
    rw [← Fin.sum_univ_eq_sum_range (fun i => coxDeBoor (knotAt knots) D i t * coord (extend ps i) c)]
    exact Finset.sum_congr rfl fun i _ => by rw [extend_lt ps i.2]
  rw [e1, coxDeBoor_sum_span (fun i j hij hj => mono_knotAt v.2.2 hij hj) hDk hkC v.2.1 h1 h2
    (fun i => coord (extend ps i) c), Finset.sum_range_succ, show k - D + D = k by omega,
    extend_lt ps hkC]
  ring

/-- The basis functions at 1/2 for the knots 0 0 1 1 and degree 1. -/
theorem basis_0011 (i : ℕ) (hi : i < 2) :
    coxDeBoor (knotAt (![0, 0, 1, 1] : Fin 4 → ℝ)) 1 i (1 / 2) = 1 / 2 := by
  interval_cases i <;> simp only [coxDeBoor, knotAt] <;> norm_num

theorem eval_0011 (a c : ℝ) : ∃ b : BSpline ℝ (PointN ℝ 1) 4 2 1,
    BSpline.new ![0, 0, 1, 1] ![p1 a, p1 c] = .ok b ∧ b.eval (1 / 2 : ℝ) = .ok (p1 (a / 2)) := by
  obtain ⟨b, hb⟩ := (C43_accepts (D := 1) _ ![p1 a, p1 c]).2 valid_0011
  refine ⟨b, hb, ?_⟩
  have heps : ∀ i : Fin 4, (![0, 0, 1, 1] : Fin 4 → ℝ) i < 1 / 2 →
      eps ≤ 1 / 2 - (![0, 0, 1, 1] : Fin 4 → ℝ) i := by
    have : eps ≤ 1 / 2 := by unfold eps; norm_num
    intro i hi
    fin_cases i
    · simpa using this
    · simpa using this
    · norm_num at hi
    · norm_num at hi
  obtain ⟨q, hq, hcoord⟩ := C48_partial hb (Or.inl front_0011) (t := 1 / 2) (k := 1) le_rfl
    (by norm_num) (by norm_num [knotAt]) (by norm_num [knotAt]) heps
  rw [hq]
  congr 1
  apply point_ext
  intro i
  rcases Nat.eq_zero_or_pos i with rfl | hi
  · rw [hcoord, splineCoord, Fin.sum_univ_two]
    simp only [Fin.val_zero, Fin.val_one]
    rw [basis_0011 0 (by norm_num), basis_0011 1 (by norm_num)]
    simp [coord_p1]
    ring
  · rw [coord_out _ (show ¬ i < 1 by omega), coord_out _ (show ¬ i < 1 by omega)]

/-- **C48** is false of the code: the clamped spline of degree 1 through 0 and 10 on the number
line has the value 5 in the middle, but `eval` returns 0. -/
theorem C48_false : ∃ b : BSpline ℝ (PointN ℝ 1) 4 2 1,
    BSpline.new ![0, 0, 1, 1] ![p1 0, p1 10] = .ok b ∧ b.eval (1 / 2 : ℝ) = .ok (p1 0) ∧
    splineCoord 1 (![0, 0, 1, 1] : Fin 4 → ℝ) ![p1 0, p1 10] (1 / 2) 0 = 5 := by
  obtain ⟨b, hb, he⟩ := eval_0011 0 10
  refine ⟨b, hb, by rw [he, zero_div], ?_⟩
  rw [splineCoord, Fin.sum_univ_two]
  simp only [Fin.val_zero, Fin.val_one]
  rw [basis_0011 0 (by norm_num), basis_0011 1 (by norm_num)]
  norm_num [coord_p1]

end Lawful

/-- The value at 1.5 of an unclamped spline of degree 1 with knots 0, 1, ..., C + 1. -/
theorem eval_uniform_deg1 [LawfulPoint P] (hC : 2 ≤ C) (ps : Arr P C) :
    ∃ b : BSpline ℝ P (C + 2) C 1, BSpline.new (uniformKnots (C + 2)) ps = .ok b ∧
      b.eval (3 / 2 : ℝ) = .ok (ps ⟨(C + 2) / 2 - 1, by omega⟩) := by
  have v : ValidSpline C 1 (uniformKnots (C + 2)) := valid_uniform (by omega) (by omega)
  obtain ⟨b, hb⟩ := (C43_accepts (D := 1) _ ps).2 v
  refine ⟨b, hb, ?_⟩
  have hf : ¬ FrontClamped 1 (uniformKnots (C + 2)) :=
    not_front_uniform (C := C) (by omega) (by omega) le_rfl
  have hg : ¬ BackClamped 1 (uniformKnots (C + 2)) :=
    not_back_uniform (C := C) (by omega) (by omega) le_rfl
  have hC' : (2 : ℝ) ≤ C := by exact_mod_cast hC
  obtain ⟨k, hk, h3, h4, h5, hok, _⟩ := eval_unclamped hb hf hg (t := 3 / 2)
    (by rw [knotAt_uniform (by omega)]; norm_num)
    (by rw [knotAt_uniform (by omega)]; linarith)
  have hk' : b.knotSpanStart (3 / 2 : ℝ) = some (some ((C + 2) / 2)) := by
    rw [((new_ok_iff _ _ _).1 hb).2]
    simp only [BSpline.knotSpanStart, kindOf, hf, hg, if_false, BSpline.spanUnclamped]
    unfold BSpline.spanUnclampedLoop
    rw [if_pos (by omega)]
    simp only [Nat.zero_add]
    rw [get?_knot _ (by omega), usub_le (by omega)]
    simp only [Option.bind_eq_bind, Option.bind_some, lt_real]
    rw [if_pos]
    · rfl
    · rw [knotAt_uniform (by omega)]
      have : (2 : ℝ) ≤ ((C + 2) / 2 : ℕ) := by exact_mod_cast (show 2 ≤ (C + 2) / 2 by omega)
      push_cast
      simp only [Bool.or_eq_true, decide_eq_true_eq]
      left
      linarith
  rw [hk] at hk'
  simp only [Option.some.injEq] at hk'
  subst hk'
  rw [hok (by omega)]
  congr 1
  apply point_ext
  intro c
  rw [coord_deBoorValue]
  simp only [dbr, le_refl, if_true, Nat.sub_self, Nat.lt_irrefl, if_false, Nat.zero_lt_one]
  have ha : alphaVal (knotAt (uniformKnots (C + 2))) 1 (3 / 2) (0 + 1) (1 + (C + 2) / 2 - 1) = 0 := by
    unfold alphaVal
    rw [if_pos]
    rw [knotAt_uniform (by omega), show 1 + (C + 2) / 2 - 1 = (C + 2) / 2 by omega]
    have : (2 : ℝ) ≤ ((C + 2) / 2 : ℕ) := by exact_mod_cast (show 2 ≤ (C + 2) / 2 by omega)
    have := eps_pos
    linarith
  rw [ha, extend_lt _ (by omega)]
  simp only [Nat.zero_add]
  ring

/-- **C48** is false of the code for unclamped splines for a second reason, the span search:
degree 1, knots 0 1 2 3, control points 0 and 10.  At 1.5 the spline has the value 5, `eval`
returns 10. -/
theorem C48_false_unclamped : ∃ b : BSpline ℝ (PointN ℝ 1) 4 2 1,
    BSpline.new (uniformKnots 4) ![p1 0, p1 10] = .ok b ∧ b.eval (3 / 2 : ℝ) = .ok (p1 10) ∧
    splineCoord 1 (uniformKnots 4) ![p1 0, p1 10] (3 / 2) 0 = 5 := by
  obtain ⟨b, hb, he⟩ := eval_uniform_deg1 (C := 2) le_rfl ![p1 0, p1 10]
  refine ⟨b, hb, he, ?_⟩
  rw [splineCoord, Fin.sum_univ_two]
  simp only [Fin.val_zero, Fin.val_one]
  have e0 : coxDeBoor (knotAt (uniformKnots 4)) 1 0 (3 / 2) = 1 / 2 := by
    simp only [coxDeBoor]
    norm_num [knotAt_uniform]
  have e1 : coxDeBoor (knotAt (uniformKnots 4)) 1 1 (3 / 2) = 1 / 2 := by
    simp only [coxDeBoor]
    norm_num [knotAt_uniform]
  rw [e0, e1]
  norm_num [coord_p1]

/-! ### End points (C49) -/

/-- **C49**: at the end of the domain a clamped spline returns its last control point. -/
theorem C49_end {knots : Arr ℝ K} {ps : Arr P C} {b : BSpline ℝ P K C D}
    (h : BSpline.new knots ps = .ok b) (hf : FrontClamped D knots) (hb : BackClamped D knots)
    {lo hi : ℝ} (hd : b.knotDomain = some (lo, hi)) :
    ∃ hC : C - 1 < C, b.eval hi = .ok (ps ⟨C - 1, hC⟩) := by
  have hC : C - 1 < C := by have := ((new_ok_iff _ _ _).1 h).1.1; omega
  rw [C45_partial h ⟨fun _ => hb, fun _ => hf⟩] at hd
  simp only [Option.some.injEq, Prod.mk.injEq] at hd
  obtain ⟨rfl, rfl⟩ := hd
  exact ⟨hC, by rw [eval_end h, extend_lt _ hC]⟩

/-- If no factor is positive, the algorithm returns the first point it started from. -/
theorem dbr_zero {a : ℕ → ℕ → ℝ} {n : ℕ} (ha : ∀ r j, 1 ≤ r → r ≤ j → j < n → a r j = 0)
    (x : ℕ → ℝ) (r j : ℕ) (hr : r ≤ j) (hj : j < n) : dbr a x r j = x (j - r) := by
  induction r generalizing j with
  | zero => rfl
  | succ r ih =>
    simp only [dbr]
    rw [if_pos hr, ha (r + 1) j (by omega) hr hj, ih (j - 1) (by omega) (by omega),
      show j - 1 - r = j - (r + 1) by omega]
    ring

/-- **C49**: at the start of the domain a clamped spline of degree at least 1 whose first knot
has multiplicity D+1 (no higher) returns its first control point.  Missing for the full claim:
degree 0 and higher multiplicity, where it fails (`C49_false`, `C49_false_multiplicity`). -/
theorem C49_start_partial [LawfulPoint P] {knots : Arr ℝ K} {ps : Arr P C} {b : BSpline ℝ P K C D}
    (h : BSpline.new knots ps = .ok b) (hf : FrontClamped D knots) (hb : BackClamped D knots)
    (hD : 1 ≤ D) (hlt : knotAt knots D < knotAt knots (D + 1)) {lo hi : ℝ}
    (hd : b.knotDomain = some (lo, hi)) : ∃ hC : 0 < C, b.eval lo = .ok (ps ⟨0, hC⟩) := by
  have v := ((new_ok_iff _ _ _).1 h).1
  have v1 := v.1
  have v2 := v.2.1
  rw [C45_partial h ⟨fun _ => hb, fun _ => hf⟩] at hd
  simp only [Option.some.injEq, Prod.mk.injEq] at hd
  obtain ⟨rfl, rfl⟩ := hd
  refine ⟨by omega, ?_⟩
  rw [eval_in_span h (Or.inl hf) le_rfl v1 le_rfl hlt]
  congr 1
  apply point_ext
  intro c
  rw [coord_deBoorValue, dbr_zero (n := D + 1) _ _ D D le_rfl (Nat.lt_succ_self D)]
  · rw [Nat.sub_self, if_pos (by omega), show 0 + D - D = 0 by omega, extend_lt _ (by omega)]
  · intro r j hr1 hr hj
    unfold alphaVal
    rw [if_pos]
    have h1 := (frontClamped_iff v).1 hf
    have h2 := mono_knotAt v.2.2 (Nat.zero_le (j + D - D)) (show j + D - D < K by omega)
    linarith

theorem valid_012_deg0 : ValidSpline 2 0 (uniformKnots 3) :=
  valid_uniform (by norm_num) (by norm_num)

/-- **C49** is false of the code for degree 0: knots 0 1 2, control points 5 and 7; `eval(0)` is
the origin. -/
theorem C49_false : ∃ b : BSpline ℝ (PointN ℝ 1) 3 2 0,
    BSpline.new (uniformKnots 3) ![p1 5, p1 7] = .ok b ∧ b.knotDomain = some (0, 2) ∧
    b.eval (0 : ℝ) = .ok (p1 0) := by
  obtain ⟨b, hb⟩ := (C43_accepts (D := 0) _ ![p1 5, p1 7]).2 valid_012_deg0
  have hf : FrontClamped 0 (uniformKnots 3) :=
    (frontClamped_iff valid_012_deg0).2 (by rw [sub_self]; exact eps_pos)
  have hg : BackClamped 0 (uniformKnots 3) :=
    (backClamped_iff valid_012_deg0).2 (by rw [sub_self]; exact eps_pos)
  refine ⟨b, hb, ?_, ?_⟩
  · rw [C45_partial hb ⟨fun _ => hg, fun _ => hf⟩, knotAt_uniform (by norm_num),
      knotAt_uniform (by norm_num)]
    norm_num
  · rw [eval_in_span hb (Or.inl hf) (k := 0) le_rfl (by norm_num)
      (by rw [knotAt_uniform (by norm_num)]; norm_num)
      (by rw [knotAt_uniform (by norm_num)]; norm_num)]
    congr 1
    apply point_ext
    intro c
    rw [coord_deBoorValue]
    simp only [dbr, Nat.lt_irrefl, if_false]
    rcases Nat.eq_zero_or_pos c with rfl | hc
    · rfl
    · rw [coord_out _ (show ¬ c < 1 by omega)]

end Stroke
