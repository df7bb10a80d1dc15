import Verif.Lemmas.Loops
import Verif.Lemmas.Sampling

/-!
# Facts about B-splines over any scalar type
-/

set_option linter.unusedSectionVars false

namespace Stroke

variable {S P : Type} [Scalar S] [Point S P] {K C D : ℕ}

/-- `knots[0..=D]` all within epsilon of the first knot. -/
def frontB (D : ℕ) (knots : Arr S K) (first : S) : Bool :=
  (knots.toList.take (D + 1)).all fun knot => Scalar.lt (Scalar.abs (knot - first)) Scalar.epsilon

/-- `knots[K-D-1..]` all within epsilon of the last knot. -/
def backB (D : ℕ) (knots : Arr S K) (last : S) : Bool :=
  (knots.toList.drop (K - D - 1)).all fun knot =>
    Scalar.lt (Scalar.abs (knot - last)) Scalar.epsilon

/-- The kind of a knot vector. -/
def kindB : Bool → Bool → KnotVectorKind
  | false, false => .Unclamped
  | true, false => .ClampedStart
  | false, true => .ClampedEnd
  | true, true => .Clamped

/-- Over any scalar type, the constructor succeeds exactly if the sizes match and no knot is
greater than the next one (for `PartialOrd`), and then stores its arguments. -/
theorem new_generic (knots : Arr S K) (ps : Arr P C) (b : BSpline S P K C D) :
    BSpline.new knots ps = .ok b ↔ ∃ (_ : D < C) (h2 : K = C + D + 1),
      anyDecrease knots.toList = false ∧ b = ⟨knots, kindB
        (frontB D knots (knots ⟨0, by omega⟩)) (backB D knots (knots ⟨K - 1, by omega⟩)), ps⟩ := by
  unfold BSpline.new
  split_ifs with h1 h2 h3 h4
  · simp only [false_iff]; rintro ⟨h, _⟩; omega
  · simp only [false_iff]; rintro ⟨_, h, _⟩; omega
  · simp only [false_iff]; rintro ⟨_, h, _⟩; omega
  · simp only [false_iff]; rintro ⟨_, _, h, _⟩; rw [h] at h4; exact absurd h4 (by simp)
  · rw [Arr.get?_lt _ (show 0 < K by omega), usub_le (by omega)]
    simp only [Outcome.ofOption_some, Outcome.ok_bind, Option.bind_eq_bind, Option.bind_some]
    rw [Arr.get?_lt _ (show K - 1 < K by omega)]
    simp only [Outcome.ofOption_some, Outcome.ok_bind]
    have e : (match frontB D knots (knots ⟨0, by omega⟩),
        backB D knots (knots ⟨K - 1, by omega⟩) with
      | false, false => KnotVectorKind.Unclamped
      | true, false => KnotVectorKind.ClampedStart
      | false, true => KnotVectorKind.ClampedEnd
      | true, true => KnotVectorKind.Clamped) = kindB (frontB D knots (knots ⟨0, by omega⟩))
        (backB D knots (knots ⟨K - 1, by omega⟩)) := by
      cases frontB D knots (knots ⟨0, by omega⟩) <;>
        cases backB D knots (knots ⟨K - 1, by omega⟩) <;> rfl
    simp only [Outcome.ok.injEq]
    constructor
    · intro h
      refine ⟨by omega, by omega, by simpa using h4, ?_⟩
      rw [← e]
      exact h.symm
    · rintro ⟨_, _, _, h⟩
      rw [h, ← e]
      rfl

/-- The knot domain of a constructed spline consists of two of its knots, in order. -/
theorem knotDomain_generic {b : BSpline S P K C D} (h2 : K = C + D + 1) :
    ∃ (i j : ℕ) (hi : i < K) (hj : j < K), i ≤ D ∧ C ≤ j ∧
      b.knotDomain = some (b.knots ⟨i, hi⟩, b.knots ⟨j, hj⟩) := by
  have e1 : usub K 1 = some (K - 1) := usub_le (by omega)
  have e2 : usub (K - 1) D = some C := by rw [usub_le (by omega)]; congr 1; omega
  unfold BSpline.knotDomain
  cases b.knot_kind
  · refine ⟨D, C, by omega, by omega, le_rfl, le_rfl, ?_⟩
    simp only [BSpline.knotDomainUnclamped]
    rw [Arr.get?_lt _ (show D < K by omega), Arr.get?_lt _ (show C < K by omega)]
    rfl
  · refine ⟨D, K - 1, by omega, by omega, le_rfl, by omega, ?_⟩
    simp only [BSpline.knotDomainClampedStart, e1, Option.bind_eq_bind, Option.bind_some]
    rw [Arr.get?_lt _ (show D < K by omega), Arr.get?_lt _ (show K - 1 < K by omega)]
    rfl
  · refine ⟨0, C, by omega, by omega, by omega, le_rfl, ?_⟩
    simp only [BSpline.knotDomainClampedEnd, e1, e2, Option.bind_eq_bind, Option.bind_some]
    rw [Arr.get?_lt _ (show 0 < K by omega), Arr.get?_lt _ (show C < K by omega)]
    rfl
  · refine ⟨D, C, by omega, by omega, le_rfl, le_rfl, ?_⟩
    simp only [BSpline.knotDomainClamped, e1, e2, Option.bind_eq_bind, Option.bind_some]
    rw [Arr.get?_lt _ (show D < K by omega), Arr.get?_lt _ (show C < K by omega)]
    rfl

/-- A parameter that compares with nothing (NaN) is in no span. -/
theorem spanLoop_unordered (knots : Arr S K) {t : S} (hlt : ∀ x : S, Scalar.lt t x = false)
    (hle : ∀ x : S, Scalar.le x t = false) (low high : ℕ) (hh : high < K) :
    BSpline.spanClampedLoop knots t low high = some none := by
  generalize hm : high + 1 - low = m
  induction m using Nat.strong_induction_on generalizing low with
  | _ m ih =>
    unfold BSpline.spanClampedLoop
    by_cases hl : low ≤ high
    · rw [if_pos hl]
      simp only []
      rw [Arr.get?_lt _ (show (low + high) / 2 < K by omega)]
      simp only [Option.bind_eq_bind, Option.bind_some, hle, hlt, Bool.false_eq_true, if_false,
        Option.pure_def]
      exact ih (high + 1 - ((low + high) / 2 + 1)) (by omega) _ rfl
    · rw [if_neg hl]

/-- The same for the search used by unclamped splines. -/
theorem spanUnclamped_unordered (knots : Arr S K) {t : S} (hlt : ∀ x : S, Scalar.lt t x = false)
    (hle : ∀ x : S, Scalar.le x t = false) (heq : ∀ x : S, Scalar.eq t x = false) (count : ℕ)
    (hc : count / 2 + 1 < K) (hK : 2 ≤ K) :
    BSpline.spanUnclampedLoop knots t 0 count = some none := by
  induction count using Nat.strong_induction_on with
  | _ count ih =>
    unfold BSpline.spanUnclampedLoop
    by_cases hl : 0 < count
    · rw [if_pos hl]
      simp only [Nat.zero_add]
      rw [Arr.get?_lt _ hc, usub_le hK, Arr.get?_lt _ (show count / 2 < K by omega)]
      simp only [Option.bind_eq_bind, Option.bind_some, hle, hlt, heq, Bool.false_eq_true, if_false,
        Bool.and_false, Bool.or_false]
      exact ih (count / 2) (by omega) (by omega)
    · rw [if_neg hl]

/-- Evaluating a constructed spline at an unordered parameter is a `KnotDomainViolation`,
except possibly for unclamped splines with fewer than 3 knots. -/
theorem eval_unordered {b : BSpline S P K C D} (h1 : D < C) (h2 : K = C + D + 1)
    (h3 : b.knot_kind = .Unclamped → 3 ≤ K) {t : S} (hlt : ∀ x : S, Scalar.lt t x = false)
    (hgt : ∀ x : S, Scalar.lt x t = false) (hle : ∀ x : S, Scalar.le x t = false)
    (heq : ∀ x : S, Scalar.eq t x = false) : b.eval t = .err .KnotDomainViolation := by
  have hspan : b.knotSpanStart t = some none := by
    have e1 : usub C 1 = some (C - 1) := usub_le (by omega)
    have e2 : usub K 1 = some (K - 1) := usub_le (by omega)
    have e3 : usub (K - 1) 1 = some (K - 1 - 1) := usub_le (by omega)
    unfold BSpline.knotSpanStart
    cases hk : b.knot_kind
    · have := h3 hk
      exact spanUnclamped_unordered b.knots hlt hle heq K (by omega) (by omega)
    · simp only [BSpline.spanClampedStart, e1, e2, e3, Option.bind_eq_bind, Option.bind_some]
      rw [Arr.get?_lt _ (show K - 1 < K by omega), Arr.get?_lt _ (show D < K by omega)]
      simp only [Option.bind_some, heq, hlt, hgt, Bool.false_eq_true, if_false, Bool.or_self]
      rw [spanClampedStartLoop_eq]
      exact spanLoop_unordered b.knots hlt hle _ _ (by omega)
    · simp only [BSpline.spanClampedEnd, e1, Option.bind_eq_bind, Option.bind_some]
      rw [Arr.get?_lt _ (show C - 1 + 1 < K by omega), Arr.get?_lt _ (show 0 < K by omega)]
      simp only [Option.bind_some, heq, hlt, hgt, Bool.false_eq_true, if_false, Bool.or_self]
      rw [spanClampedEndLoop_eq]
      exact spanLoop_unordered b.knots hlt hle _ _ (by omega)
    · simp only [BSpline.spanClamped, e1, Option.bind_eq_bind, Option.bind_some]
      rw [Arr.get?_lt _ (show C - 1 + 1 < K by omega)]
      simp only [Option.bind_some, heq, Bool.false_eq_true, if_false]
      exact spanLoop_unordered b.knots hlt hle _ _ (by omega)
  obtain ⟨i, j, hi, hj, _, _, hd⟩ := knotDomain_generic (b := b) h2
  unfold BSpline.eval
  rw [hd]
  simp only [Outcome.ofOption_some, Outcome.ok_bind, hlt, hgt, Bool.or_self, Bool.false_eq_true,
    if_false]
  unfold BSpline.deBoorIterative
  rw [Arr.get?_lt _ (show C < K by omega)]
  simp only [Outcome.ofOption_some, Outcome.ok_bind, heq, Bool.false_eq_true, if_false, hspan]

/-- A loop whose body never returns the error `e` does not return it. -/
theorem forRange_ne_err {σ : Type} {e : BSplineError} {lo hi : ℕ} {s : σ}
    {body : ℕ → σ → Outcome σ} (h : ∀ i s, lo ≤ i → i < hi → body i s ≠ .err e) :
    forRange lo hi s body ≠ .err e := by
  induction hi with
  | zero => rw [forRange_empty (Nat.zero_le _)]; simp
  | succ hi ih =>
    by_cases hle : lo ≤ hi
    · rw [forRange_succ hle]
      have h1 := ih fun i s h1 h2 => h i s h1 (by omega)
      cases h2 : forRange lo hi s body with
      | ok s' => exact h hi s' hle (by omega)
      | err e' =>
        rw [h2] at h1
        simpa using h1
      | panic => simp
    · rw [forRange_empty (by omega)]; simp

theorem forRangeRev_ne_err {σ : Type} {e : BSplineError} {lo hi : ℕ} {s : σ}
    {body : ℕ → σ → Outcome σ} (h : ∀ i s, lo ≤ i → i < hi → body i s ≠ .err e) :
    forRangeRev lo hi s body ≠ .err e := by
  induction hi generalizing s with
  | zero => rw [forRangeRev_empty (Nat.zero_le _)]; simp
  | succ hi ih =>
    by_cases hle : lo ≤ hi
    · rw [forRangeRev_first hle]
      have h1 := h hi s hle (by omega)
      cases h2 : body hi s with
      | ok s' => exact ih fun i s h1 h2 => h i s h1 (by omega)
      | err e' =>
        rw [h2] at h1
        simpa using h1
      | panic => simp
    · rw [forRangeRev_empty (by omega)]; simp

theorem ofOption_ne_err {α : Type} (x : Option α) (e : BSplineError) :
    Outcome.ofOption x ≠ .err e := by
  cases x <;> simp

theorem bind_ne_err {α β : Type} {x : Outcome α} {f : α → Outcome β} {e : BSplineError}
    (h1 : x ≠ .err e) (h2 : ∀ a, x = .ok a → f a ≠ .err e) : (x >>= f) ≠ .err e := by
  cases x with
  | ok a => exact h2 a rfl
  | err e' => simpa using h1
  | panic => simp

/-- If no interpolation factor is NaN, evaluation does not report one. -/
theorem eval_ne_alphaNaN {b : BSpline S P K C D} {t : S}
    (h : ∀ k r j, BSpline.alpha (D := D) b.knots t k r j ≠ .err .EvaluationAlphaIsNaN) :
    b.deBoorIterative t ≠ .err .EvaluationAlphaIsNaN := by
  unfold BSpline.deBoorIterative
  refine bind_ne_err (ofOption_ne_err _ _) fun kC _ => ?_
  split_ifs
  · exact ofOption_ne_err _ _
  · refine bind_ne_err (ofOption_ne_err _ _) fun k _ => ?_
    cases k with
    | none => simp
    | some k =>
      refine bind_ne_err (ofOption_ne_err _ _) fun d _ => ?_
      refine bind_ne_err (forRange_ne_err fun r d _ _ => ?_) fun d _ => ofOption_ne_err _ _
      refine forRangeRev_ne_err fun j d _ _ => ?_
      refine bind_ne_err (h _ _ _) fun a _ => ?_
      refine bind_ne_err (ofOption_ne_err _ _) fun a _ => ?_
      refine bind_ne_err (ofOption_ne_err _ _) fun a _ => ?_
      exact ofOption_ne_err _ _

end Stroke
