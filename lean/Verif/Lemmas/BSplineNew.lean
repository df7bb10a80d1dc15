import Verif.Spec.BSpline
import Verif.Lemmas.Loops
import Verif.Lemmas.Exact
import Verif.Lemmas.Casteljau

/-!
# Construction of B-splines and their knot domain
-/

namespace Stroke

open Classical in
/-- The kind the constructor computes. -/
noncomputable def kindOf {K : ℕ} (D : ℕ) (knots : Fin K → ℝ) : KnotVectorKind :=
  if FrontClamped D knots then
    if BackClamped D knots then .Clamped else .ClampedStart
  else if BackClamped D knots then .ClampedEnd else .Unclamped

theorem anyDecrease_iff (l : List ℝ) : anyDecrease l = false ↔ l.Pairwise (· ≤ ·) := by
  rw [← List.isChain_iff_pairwise]
  induction l with
  | nil => simp [anyDecrease]
  | cons a l ih =>
    cases l with
    | nil => simp [anyDecrease]
    | cons b l => simp [anyDecrease, ih]

theorem anyDecrease_knots {K : ℕ} (knots : Fin K → ℝ) :
    anyDecrease (Arr.toList knots) = false ↔ ∀ i j : Fin K, i ≤ j → knots i ≤ knots j := by
  rw [anyDecrease_iff, Arr.toList, List.pairwise_ofFn]
  constructor
  · intro h i j hij
    rcases eq_or_lt_of_le hij with rfl | h'
    · exact le_rfl
    · exact h h'
  · intro h i j hij
    exact h i j hij.le

theorem knotAt_lt {K : ℕ} (knots : Fin K → ℝ) {i : ℕ} (h : i < K) :
    knotAt knots i = knots ⟨i, h⟩ := by simp [knotAt, h]

theorem get?_knot {K : ℕ} (knots : Fin K → ℝ) {i : ℕ} (h : i < K) :
    Arr.get? knots i = some (knotAt knots i) := by
  rw [Arr.get?_lt _ h, knotAt_lt _ h]

theorem front_iff {K : ℕ} (D : ℕ) (knots : Fin K → ℝ) (f : ℝ) (hf : f = knotAt knots 0) :
    ((Arr.toList knots).take (D + 1)).all
      (fun knot => Scalar.lt (Scalar.abs (knot - f)) Scalar.epsilon) = true
      ↔ FrontClamped D knots := by
  subst hf
  rw [List.all_eq_true]
  simp only [lt_real, abs_real, epsilon_real, decide_eq_true_eq, Arr.toList]
  constructor
  · intro h i hi
    apply h
    rw [List.mem_take_iff_getElem]
    exact ⟨i.val, by simp; omega, by simp⟩
  · intro h x hx
    rw [List.mem_take_iff_getElem] at hx
    obtain ⟨i, hi, rfl⟩ := hx
    simp at hi
    simp only [List.getElem_ofFn]
    exact h ⟨i, hi.2⟩ (by simp; omega)

theorem back_iff {K : ℕ} (D : ℕ) (knots : Fin K → ℝ) (f : ℝ) (hf : f = knotAt knots (K - 1)) :
    ((Arr.toList knots).drop (K - D - 1)).all
      (fun knot => Scalar.lt (Scalar.abs (knot - f)) Scalar.epsilon) = true
      ↔ BackClamped D knots := by
  subst hf
  rw [List.all_eq_true]
  simp only [lt_real, abs_real, epsilon_real, decide_eq_true_eq, Arr.toList]
  constructor
  · intro h i hi
    apply h
    rw [List.mem_drop_iff_getElem]
    exact ⟨i.val - (K - D - 1), by simp; omega, by simp; congr 1; apply Fin.ext; simp; omega⟩
  · intro h x hx
    rw [List.mem_drop_iff_getElem] at hx
    obtain ⟨i, hi, rfl⟩ := hx
    simp at hi
    simp only [List.getElem_ofFn]
    exact h ⟨_, by omega⟩ (by simp; omega)

variable {P : Type} [Point ℝ P] {K C D : ℕ}

omit [Point ℝ P] in
/-- What the constructor does, case by case. -/
theorem new_eq (knots : Arr ℝ K) (ps : Arr P C) :
    (BSpline.new knots ps : Outcome (BSpline ℝ P K C D)) =
      open Classical in
      if C ≤ D then .err .TooFewControlPoints
      else if K < C + 1 + D then .err .TooFewKnots
      else if K > C + 1 + D then .err .TooManyKnots
      else if ∀ i j : Fin K, i ≤ j → knots i ≤ knots j then .ok ⟨knots, kindOf D knots, ps⟩
      else .err .DecreasingKnots := by
  classical
  unfold BSpline.new
  split_ifs with h1 h2 h3 h4 h5 h6
  · rfl
  · rfl
  · rfl
  · exact absurd ((anyDecrease_knots knots).2 h5) (by simp [h4])
  · rfl
  · have hK : 0 < K := by omega
    rw [get?_knot _ hK, usub_le (by omega)]
    simp only [Outcome.ofOption_some, Outcome.ok_bind, Option.bind_eq_bind, Option.bind_some]
    rw [get?_knot _ (by omega)]
    simp only [Outcome.ofOption_some, Outcome.ok_bind]
    have hf := front_iff D knots _ rfl
    have hb := back_iff D knots _ rfl
    congr 2
    unfold kindOf
    by_cases f : FrontClamped D knots <;> by_cases b : BackClamped D knots
    · rw [if_pos f, if_pos b, hf.2 f, hb.2 b]
    · rw [if_pos f, if_neg b, hf.2 f, Bool.eq_false_iff.2 (mt hb.1 b)]
    · rw [if_neg f, if_pos b, Bool.eq_false_iff.2 (mt hf.1 f), hb.2 b]
    · rw [if_neg f, if_neg b, Bool.eq_false_iff.2 (mt hf.1 f), Bool.eq_false_iff.2 (mt hb.1 b)]
  · exact absurd ((anyDecrease_knots knots).1 (by simpa using h4)) h6

omit [Point ℝ P] in
theorem new_ok_iff (knots : Arr ℝ K) (ps : Arr P C) (b : BSpline ℝ P K C D) :
    BSpline.new knots ps = .ok b ↔ ValidSpline C D knots ∧ b = ⟨knots, kindOf D knots, ps⟩ := by
  classical
  rw [new_eq]
  unfold ValidSpline
  split_ifs with h1 h2 h3 h4
  · simp only [false_iff]; rintro ⟨⟨h, _⟩, _⟩; omega
  · simp only [false_iff]; rintro ⟨⟨_, h, _⟩, _⟩; omega
  · simp only [false_iff]; rintro ⟨⟨_, h, _⟩, _⟩; omega
  · simp only [Outcome.ok.injEq]
    exact ⟨fun h => ⟨⟨by omega, by omega, h4⟩, h.symm⟩, fun h => h.2.symm⟩
  · simp only [false_iff]; rintro ⟨⟨_, _, h⟩, _⟩; exact h4 h

theorem mono_knotAt {knots : Fin K → ℝ} (h : ∀ i j : Fin K, i ≤ j → knots i ≤ knots j)
    {i j : ℕ} (hij : i ≤ j) (hj : j < K) : knotAt knots i ≤ knotAt knots j := by
  rw [knotAt_lt _ hj, knotAt_lt _ (lt_of_le_of_lt hij hj)]
  exact h _ _ hij

theorem frontClamped_iff {knots : Fin K → ℝ} (h : ValidSpline C D knots) :
    FrontClamped D knots ↔ knotAt knots D - knotAt knots 0 < eps := by
  obtain ⟨h1, h2, h3⟩ := h
  constructor
  · intro hc
    have := hc ⟨D, by omega⟩ le_rfl
    rw [← knotAt_lt knots] at this
    exact (le_abs_self _).trans_lt this
  · intro hd i hi
    rw [← knotAt_lt knots i.2, abs_of_nonneg (sub_nonneg.2 (mono_knotAt h3 (Nat.zero_le _) i.2))]
    have := mono_knotAt h3 hi (show D < K by omega)
    linarith

theorem backClamped_iff {knots : Fin K → ℝ} (h : ValidSpline C D knots) :
    BackClamped D knots ↔ knotAt knots (K - 1) - knotAt knots C < eps := by
  obtain ⟨h1, h2, h3⟩ := h
  constructor
  · intro hc
    have := hc ⟨C, by omega⟩ (by simp only; omega)
    rw [← knotAt_lt knots, abs_sub_comm] at this
    exact (le_abs_self _).trans_lt this
  · intro hd i hi
    rw [← knotAt_lt knots i.2, abs_sub_comm,
      abs_of_nonneg (sub_nonneg.2 (mono_knotAt h3 (by have := i.2; omega) (by omega)))]
    have := mono_knotAt h3 (show C ≤ i.val by omega) i.2
    linarith

end Stroke
