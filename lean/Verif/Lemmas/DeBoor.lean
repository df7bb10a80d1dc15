import Verif.Lemmas.BSplineNew

/-!
# The de Boor loops, for every degree
-/

namespace Stroke

variable {P : Type} [Point ℝ P] {K C D : ℕ}

/-- The interpolation factor of round `r` for the point with index `i`. -/
noncomputable def alphaVal (u : ℕ → ℝ) (D : ℕ) (t : ℝ) (r i : ℕ) : ℝ :=
  if t - u i < eps then 0
  else if |u (i + D + 1 - r) - u i| < eps then 1
  else (t - u i) / (u (i + D + 1 - r) - u i)

theorem alpha_eq (knots : Arr ℝ K) (t : ℝ) {k r j : ℕ} (hr : r ≤ j) (hj : j ≤ D)
    (hk : D ≤ k) (hK : k + D < K) (hr1 : 1 ≤ r) :
    BSpline.alpha (D := D) knots t k r j = .ok (alphaVal (knotAt knots) D t r (j + k - D)) := by
  unfold BSpline.alpha
  rw [usub_le (show D ≤ j + k by omega), usub_le (show r ≤ j + 1 + k by omega)]
  simp only [Option.bind_eq_bind, Option.bind_some]
  rw [get?_knot _ (show j + k - D < K by omega), get?_knot _ (show j + 1 + k - r < K by omega)]
  simp only [Outcome.ofOption_some, Outcome.ok_bind, isNaN_real, Bool.false_eq_true, if_false,
    Outcome.pure_eq, lt_real, epsilon_real, abs_real, decide_eq_true_eq, lit_real, Rat.cast_zero,
    Rat.cast_one]
  unfold alphaVal
  rw [show j + k - D + D + 1 - r = j + 1 + k - r by omega]

/-- The triangle of de Boor's algorithm, as the code computes it: entry `j` after round `r`. -/
noncomputable def db (a : ℕ → ℕ → ℝ) (x : ℕ → P) : ℕ → ℕ → P
  | 0, j => x j
  | r + 1, j =>
    if r + 1 ≤ j then db a x r (j - 1) * (1 - a (r + 1) j) + db a x r j * a (r + 1) j
    else db a x r j

theorem deBoorRound_eq (knots : Arr ℝ K) (t : ℝ) {k r : ℕ} (hk : D ≤ k) (hK : k + D < K)
    (hr1 : 1 ≤ r) (hr : r ≤ D) (x : ℕ → P) (d : Arr P (D + 1)) (hd : ∀ j : Fin (D + 1), d j = x j) :
    BSpline.deBoorRound knots t k r d = .ok fun j : Fin (D + 1) =>
      if r ≤ j.val then x (j - 1) * (1 - alphaVal (knotAt knots) D t r (j + k - D))
        + x j * alphaVal (knotAt knots) D t r (j + k - D)
      else x j := by
  unfold BSpline.deBoorRound
  obtain ⟨s, hs, inv⟩ := forRangeRev_inv (m := Outcome) (lo := r) (hi := D + 1) (s := d)
    (body := fun j d => do
      let a ← BSpline.alpha (D := D) knots t k r j
      let dl ← Outcome.ofOption (do Arr.get? d (← usub j 1))
      let dj ← Outcome.ofOption (Arr.get? d j)
      Outcome.ofOption (Arr.set? d j (dl * (lit 1 - a) + dj * a)))
    (fun i s => ∀ j : Fin (D + 1), s j =
      if i ≤ j.val then x (j - 1) * (1 - alphaVal (knotAt knots) D t r (j + k - D))
        + x j * alphaVal (knotAt knots) D t r (j + k - D)
      else x j)
    (by omega)
    (by intro j; rw [if_neg (by have := j.2; omega)]; exact hd j)
    (by
      intro i s h1 h2 inv
      rw [alpha_eq knots t h1 (by omega) hk hK hr1, usub_le (by omega)]
      simp only [Outcome.ok_bind, Option.bind_eq_bind, Option.bind_some]
      rw [Arr.get?_lt _ (show i - 1 < D + 1 by omega), Arr.get?_lt _ h2]
      simp only [Outcome.ofOption_some, Outcome.ok_bind]
      rw [Arr.set?_lt _ h2]
      refine ⟨_, rfl, ?_⟩
      intro j
      show (if j.val = i then _ else _) = _
      by_cases hji : j.val = i
      · rw [if_pos hji, if_pos (by omega), inv, inv, if_neg (by simp only; omega),
          if_neg (by simp only; omega)]
        simp only [hji, lit_real, Rat.cast_one]
      · rw [if_neg hji, inv]
        by_cases hlt : i ≤ j.val
        · rw [if_pos hlt, if_pos (by omega)]
        · rw [if_neg hlt, if_neg (by omega)])
  rw [hs]
  simp only [Outcome.pure_eq]
  congr 1
  funext j
  exact inv j

theorem deBoorRounds_eq (knots : Arr ℝ K) (t : ℝ) {k : ℕ} (hk : D ≤ k) (hK : k + D < K ∨ D = 0)
    (x : ℕ → P) (d : Arr P (D + 1)) (hd : ∀ j : Fin (D + 1), d j = x j) :
    ∃ s, forRange 1 (D + 1) d (fun r d => BSpline.deBoorRound knots t k r d) = Outcome.ok s ∧
      ∀ j : Fin (D + 1),
        s j = db (fun r j => alphaVal (knotAt knots) D t r (j + k - D)) x D j := by
  obtain ⟨s, hs, inv⟩ := forRange_inv (m := Outcome) (lo := 1) (hi := D + 1) (s := d)
    (body := fun r d => BSpline.deBoorRound knots t k r d)
    (fun r s => ∀ j : Fin (D + 1),
      s j = db (fun r j => alphaVal (knotAt knots) D t r (j + k - D)) x (r - 1) j)
    (by omega) (by intro j; exact hd j)
    (by
      intro r s h1 h2 inv
      refine ⟨_, deBoorRound_eq knots t hk (by omega) h1 (by omega) _ s inv, ?_⟩
      intro j
      obtain ⟨r, rfl⟩ : ∃ r', r = r' + 1 := ⟨r - 1, by omega⟩
      simp only [Nat.add_sub_cancel, db])
  exact ⟨s, hs, inv⟩

/-- The points a span starts from; the last one is missing. -/
def spanPoints (ps : Arr P C) (D k : ℕ) (j : ℕ) : P :=
  if j < D then extend ps (j + k - D) else Point.default

theorem copyPoints_ok (ps : Arr P C) {k : ℕ} (hk : D ≤ k) (hkC : k ≤ C) (d : Arr P (D + 1)) :
    ∃ s : Arr P (D + 1), BSpline.copyPoints ps k d = some s ∧
      ∀ j : Fin (D + 1), s j = if j.val < D then extend ps (j + k - D) else d j := by
  unfold BSpline.copyPoints
  obtain ⟨s, hs, inv⟩ := forRange_inv (m := Option) (lo := 0) (hi := D) (s := d)
    (body := fun j d => do
      Arr.set? d j (← Arr.get? ps (← usub (j + k) D)))
    (fun i (s : Arr P (D + 1)) => ∀ j : Fin (D + 1), s j = if j.val < i then extend ps (j + k - D) else d j)
    (by omega) (by intro j; simp)
    (by
      intro i s _ hi inv
      rw [usub_le (by omega)]
      simp only [Option.bind_eq_bind, Option.bind_some]
      rw [Arr.get?_lt _ (show i + k - D < C by omega)]
      simp only [Option.bind_some]
      rw [Arr.set?_lt _ (by omega)]
      refine ⟨_, rfl, ?_⟩
      intro j
      show (if j.val = i then _ else _) = _
      by_cases hji : j.val = i
      · rw [if_pos hji, if_pos (by omega), hji, extend_lt]
      · rw [if_neg hji, inv]
        by_cases hlt : j.val < i
        · rw [if_pos hlt, if_pos (by omega)]
        · rw [if_neg hlt, if_neg (by omega)])
  exact ⟨s, hs, inv⟩

omit [Point ℝ P] in
theorem copyPoints_zero (ps : Arr P C) (k : ℕ) (d : Arr P (0 + 1)) :
    BSpline.copyPoints (D := 0) ps k d = some d := by
  unfold BSpline.copyPoints
  rw [forRange_empty (Nat.le_refl 0)]
  rfl

theorem forRange_none {σ : Type} {lo hi : ℕ} (body : ℕ → σ → Option σ) (i : ℕ) (h1 : lo ≤ i)
    (h2 : i < hi) (hb : ∀ s, body i s = none) (s : σ) : forRange lo hi s body = none := by
  induction hi with
  | zero => omega
  | succ hi ih =>
    rw [forRange_succ (by omega)]
    rcases Nat.lt_succ_iff_lt_or_eq.1 h2 with h | h
    · rw [ih h]; rfl
    · subst h
      cases forRange lo i s body with
      | none => rfl
      | some s' => exact hb s'

omit [Point ℝ P] in
/-- Outside `D ≤ k ≤ C` the control points of the span do not exist. -/
theorem copyPoints_panic (ps : Arr P C) {k : ℕ} (hD : 1 ≤ D) (hk : k < D ∨ C < k)
    (d : Arr P (D + 1)) : BSpline.copyPoints ps k d = none := by
  unfold BSpline.copyPoints
  rcases hk with hk | hk
  · apply forRange_none _ 0 le_rfl (by omega)
    intro s
    rw [usub_lt (by omega)]; rfl
  · by_cases hk' : k < D
    · apply forRange_none _ 0 le_rfl (by omega)
      intro s
      rw [usub_lt (by omega)]; rfl
    apply forRange_none _ (D - 1) (Nat.zero_le _) (by omega)
    intro s
    rw [usub_le (by omega)]
    simp only [Option.bind_eq_bind, Option.bind_some]
    rw [Arr.get?_ge _ (by omega)]; rfl

/-- The value `eval` returns when the span search returns `k`. -/
noncomputable def deBoorValue (knots : Arr ℝ K) (ps : Arr P C) (D : ℕ) (t : ℝ) (k : ℕ) : P :=
  db (fun r j => alphaVal (knotAt knots) D t r (j + k - D)) (spanPoints ps D k) D D

theorem deBoorIterative_ok (b : BSpline ℝ P K C D) (hKC : K = C + D + 1) (t : ℝ) (k : ℕ)
    (ht : t ≠ knotAt b.knots C) (hs : b.knotSpanStart t = some (some k))
    (hk : D = 0 ∨ D ≤ k ∧ k ≤ C) :
    b.deBoorIterative t = .ok (deBoorValue b.knots b.control_points D t k) := by
  unfold BSpline.deBoorIterative
  rw [get?_knot _ (by omega), hs]
  simp only [Outcome.ofOption_some, Outcome.ok_bind, eq_real, ht, decide_false, Bool.false_eq_true,
    if_false]
  have hc : ∃ s, BSpline.copyPoints b.control_points k (fun _ => (Point.default : P)) = some s ∧
      ∀ j : Fin (D + 1), s j = spanPoints b.control_points D k j := by
    rcases hk with rfl | hk
    · exact ⟨_, copyPoints_zero _ _ _, fun j => by simp [spanPoints]⟩
    · obtain ⟨s, h1, h2⟩ := copyPoints_ok b.control_points hk.1 hk.2 (fun _ => (Point.default : P))
      exact ⟨s, h1, h2⟩
  obtain ⟨s, h1, h2⟩ := hc
  rw [h1]
  simp only [Outcome.ofOption_some, Outcome.ok_bind]
  obtain ⟨s', h3, h4⟩ := deBoorRounds_eq b.knots t (k := k) (D := D) (by omega) (by omega)
    (spanPoints b.control_points D k) s h2
  rw [h3]
  simp only [Outcome.ok_bind]
  rw [Arr.get?_lt _ (Nat.lt_succ_self D), h4]
  rfl

theorem deBoorIterative_panic (b : BSpline ℝ P K C D) (hKC : K = C + D + 1) (t : ℝ) (k : ℕ)
    (ht : t ≠ knotAt b.knots C) (hs : b.knotSpanStart t = some (some k))
    (hD : 1 ≤ D) (hk : k < D ∨ C < k) :
    b.deBoorIterative t = .panic := by
  unfold BSpline.deBoorIterative
  rw [get?_knot _ (by omega), hs]
  simp only [Outcome.ofOption_some, Outcome.ok_bind, eq_real, ht, decide_false, Bool.false_eq_true,
    if_false]
  rw [copyPoints_panic _ hD hk]
  rfl

theorem deBoorIterative_end (b : BSpline ℝ P K C D) (hKC : K = C + D + 1) (hC : 1 ≤ C) :
    b.deBoorIterative (knotAt b.knots C) = .ok (extend b.control_points (C - 1)) := by
  unfold BSpline.deBoorIterative
  rw [get?_knot _ (by omega)]
  simp only [Outcome.ofOption_some, Outcome.ok_bind, eq_real, decide_true, if_true]
  rw [usub_le hC]
  simp only [Option.bind_eq_bind, Option.bind_some]
  rw [Arr.get?_lt _ (by omega), extend_lt _ (by omega)]
  rfl

end Stroke
