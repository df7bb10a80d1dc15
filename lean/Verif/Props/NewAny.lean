import Verif.Lemmas.BSplineGeneric
import Verif.Props.FloatBSpline

/-!
# Constructing B-splines in any arithmetic (C43, C44)

The constructor compares neighbouring knots only, with the comparison of the scalar type. So its
result is known for every scalar type, including floats with NaN and infinite knots.
-/

namespace Stroke

section Any

variable {S P : Type} [Scalar S] [Point S P] {K C D : ℕ}

theorem anyDecrease_any (l : List S) : anyDecrease l = true ↔
    ∃ (i : ℕ) (h : i + 1 < l.length), Scalar.lt (l[i + 1]) (l[i]) = true := by
  induction l with
  | nil => simp [anyDecrease]
  | cons a l ih =>
    cases l with
    | nil => simp [anyDecrease]
    | cons b l =>
      rw [anyDecrease, Bool.or_eq_true, ih]
      constructor
      · rintro (h | ⟨i, hi, h⟩)
        · exact ⟨0, by simp, h⟩
        · exact ⟨i + 1, by simpa using hi, h⟩
      · rintro ⟨i, hi, h⟩
        cases i with
        | zero => exact Or.inl h
        | succ i => exact Or.inr ⟨i, by simpa using hi, h⟩

/-- Some knot is less than the one before it. -/
def Decreases (knots : Arr S K) : Prop :=
  ∃ (i : ℕ) (h : i + 1 < K), Scalar.lt (knots ⟨i + 1, h⟩) (knots ⟨i, by omega⟩) = true

theorem anyDecrease_arr (knots : Arr S K) : anyDecrease knots.toList = true ↔ Decreases knots := by
  rw [anyDecrease_any]
  simp only [Arr.toList, List.length_ofFn, List.getElem_ofFn]
  rfl

/-- **C43** in any arithmetic: the constructor accepts exactly the right sizes without a knot that
compares less than the one before. -/
theorem C43_any (knots : Arr S K) (ps : Arr P C) :
    (∃ b : BSpline S P K C D, BSpline.new knots ps = .ok b) ↔
      D < C ∧ K = C + D + 1 ∧ ¬ Decreases knots := by
  rw [← anyDecrease_arr, Bool.not_eq_true]
  constructor
  · rintro ⟨b, h⟩
    obtain ⟨h1, h2, h3, -⟩ := (new_generic _ _ _).1 h
    exact ⟨h1, h2, h3⟩
  · rintro ⟨h1, h2, h3⟩
    exact ⟨_, (new_generic _ _ _).2 ⟨h1, h2, h3, rfl⟩⟩

/-- **C44** in any arithmetic: the errors and their priority; the constructor never panics. -/
theorem C44_any (knots : Arr S K) (ps : Arr P C) :
    (C ≤ D → (BSpline.new knots ps : Outcome (BSpline S P K C D)) = .err .TooFewControlPoints) ∧
    (D < C → K < C + D + 1 →
      (BSpline.new knots ps : Outcome (BSpline S P K C D)) = .err .TooFewKnots) ∧
    (D < C → C + D + 1 < K →
      (BSpline.new knots ps : Outcome (BSpline S P K C D)) = .err .TooManyKnots) ∧
    (D < C → K = C + D + 1 → Decreases knots →
      (BSpline.new knots ps : Outcome (BSpline S P K C D)) = .err .DecreasingKnots) ∧
    (BSpline.new knots ps : Outcome (BSpline S P K C D)) ≠ .panic := by
  have hc : C ≤ D → (BSpline.new knots ps : Outcome (BSpline S P K C D))
      = .err .TooFewControlPoints := fun h => by
    unfold BSpline.new; rw [if_pos h]
  have hk : D < C → K < C + D + 1 →
      (BSpline.new knots ps : Outcome (BSpline S P K C D)) = .err .TooFewKnots := fun h h' => by
    unfold BSpline.new; rw [if_neg (by omega), if_pos (by omega)]
  have hk' : D < C → C + D + 1 < K →
      (BSpline.new knots ps : Outcome (BSpline S P K C D)) = .err .TooManyKnots := fun h h' => by
    unfold BSpline.new; rw [if_neg (by omega), if_neg (by omega), if_pos (by omega)]
  have hd : D < C → K = C + D + 1 → Decreases knots →
      (BSpline.new knots ps : Outcome (BSpline S P K C D)) = .err .DecreasingKnots :=
    fun h h' hd => by
      unfold BSpline.new
      rw [if_neg (by omega), if_neg (by omega), if_neg (by omega),
        if_pos ((anyDecrease_arr knots).2 hd)]
  refine ⟨hc, hk, hk', hd, ?_⟩
  rcases Nat.lt_or_ge D C with h | h
  · rcases Nat.lt_trichotomy K (C + D + 1) with h' | h' | h'
    · rw [hk h h']; simp
    · by_cases hdd : Decreases knots
      · rw [hd h h' hdd]; simp
      · obtain ⟨b, e⟩ := (C43_any (D := D) knots ps).2 ⟨h, h', hdd⟩
        rw [e]; simp
    · rw [hk' h h']; simp
  · rw [hc h]; simp

/-- **C44** in any arithmetic: an accepted curve stores what it was given. -/
theorem C44_stores_any {knots : Arr S K} {ps : Arr P C} {b : BSpline S P K C D}
    (h : BSpline.new knots ps = .ok b) :
    b.knotsIter = List.ofFn knots ∧ b.controlPoints = List.ofFn ps := by
  obtain ⟨_, _, _, e⟩ := (new_generic _ _ _).1 h
  rw [e]
  exact ⟨rfl, rfl⟩

end Any

/-- **C63**: one NaN knot hides a decrease, because only neighbours are compared: the knots
1, NaN, 0, 0 are accepted, in every float format. -/
theorem C63_nan_hides_decrease {F : FloatFormat} {P : Type} [Point (Fl F) P] (ps : Arr P 2) :
    (∃ b : BSpline (Fl F) P 4 2 1, BSpline.new ![lit 1, Fl.nan, lit 0, lit 0] ps = .ok b) ∧
    Scalar.lt (lit 0 : Fl F) (lit 1) = true := by
  have h0 : (Scalar.lt (lit 0 : Fl F) (lit 0) : Bool) = false := by
    rw [Bool.eq_false_iff, Fl.lit_zero]
    intro h
    rw [Fl.lt_fin] at h
    exact lt_irrefl _ h
  have n1 : ∀ x : Fl F, (Scalar.lt (Fl.nan : Fl F) x : Bool) = false := fun x => by cases x <;> rfl
  have n2 : ∀ x : Fl F, (Scalar.lt x (Fl.nan : Fl F) : Bool) = false := fun x => by
    cases x with
    | inf s => cases s <;> rfl
    | _ => rfl
  refine ⟨(C43_any _ _).2 ⟨by norm_num, rfl, ?_⟩, ?_⟩
  · rintro ⟨i, hi, h⟩
    have : i = 0 ∨ i = 1 ∨ i = 2 := by omega
    rcases this with rfl | rfl | rfl
    · exact absurd (show Scalar.lt (Fl.nan : Fl F) (lit 1) = true from h) (by rw [n1]; simp)
    · exact absurd (show Scalar.lt (lit 0 : Fl F) Fl.nan = true from h) (by rw [n2]; simp)
    · rw [show (![lit 1, Fl.nan, lit 0, lit 0] : Fin 4 → Fl F) ⟨2 + 1, hi⟩ = lit 0 from rfl,
        show (![lit 1, Fl.nan, lit 0, lit 0] : Fin 4 → Fl F) ⟨2, by omega⟩ = lit 0 from rfl, h0] at h
      exact absurd h (by decide)
  · rw [Fl.lit_zero, Fl.lit_one, Fl.lt_fin]
    exact one_pos

/-- Test: the knots 0, 0, 1, 0 decrease, and are rejected with the right error, in every float
format. -/
example {F : FloatFormat} (ps : Arr (PointN (Fl F) 2) 2) :
    (BSpline.new ![lit 0, lit 0, lit 1, lit 0] ps : Outcome (BSpline (Fl F) (PointN (Fl F) 2) 4 2 1))
      = .err .DecreasingKnots := by
  refine (C44_any _ _).2.2.2.1 (by norm_num) rfl ⟨2, by norm_num, ?_⟩
  show Scalar.lt (lit 0 : Fl F) (lit 1) = true
  rw [Fl.lit_zero, Fl.lit_one, Fl.lt_fin]
  exact one_pos

end Stroke
