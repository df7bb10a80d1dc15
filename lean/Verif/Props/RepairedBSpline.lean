import Verif.Repaired.Model
import Verif.Props.BSplineCalculus

/-!
# The repaired B-spline: value and derivative (C121)
-/

set_option linter.unusedSectionVars false

namespace Stroke

variable {P : Type} [Point ℝ P] {K C D : ℕ}

/-- The textbook factor. -/
noncomputable def alphaText (u : ℕ → ℝ) (D : ℕ) (t : ℝ) (r i : ℕ) : ℝ :=
  (t - u i) / (u (i + D + 1 - r) - u i)

theorem alphaFixed_eq (knots : Arr ℝ K) (t : ℝ) {k r j : ℕ} (hr : r ≤ j) (hj : j ≤ D)
    (hk : D ≤ k) (hK : k + D < K) (hr1 : 1 ≤ r) :
    BSpline.alphaFixed (D := D) knots t k r j
      = .ok (alphaText (knotAt knots) D t r (j + k - D)) := by
  unfold BSpline.alphaFixed
  rw [usub_le (show D ≤ j + k by omega), usub_le (show r ≤ j + 1 + k by omega)]
  simp only [Option.bind_eq_bind, Option.bind_some]
  rw [get?_knot _ (show j + k - D < K by omega), get?_knot _ (show j + 1 + k - r < K by omega)]
  simp only [Outcome.ofOption_some, Outcome.ok_bind, isNaN_real, Bool.false_eq_true, if_false,
    Outcome.pure_eq]
  unfold alphaText
  rw [show j + k - D + D + 1 - r = j + 1 + k - r by omega]

theorem deBoorRoundFixed_eq (knots : Arr ℝ K) (t : ℝ) {k r : ℕ} (hk : D ≤ k) (hK : k + D < K)
    (hr1 : 1 ≤ r) (hr : r ≤ D) (x : ℕ → P) (d : Arr P (D + 1)) (hd : ∀ j : Fin (D + 1), d j = x j) :
    BSpline.deBoorRoundFixed knots t k r d = .ok fun j : Fin (D + 1) =>
      if r ≤ j.val then x (j - 1) * (1 - alphaText (knotAt knots) D t r (j + k - D))
        + x j * alphaText (knotAt knots) D t r (j + k - D)
      else x j := by
  unfold BSpline.deBoorRoundFixed
  obtain ⟨s, hs, inv⟩ := forRangeRev_inv (m := Outcome) (lo := r) (hi := D + 1) (s := d)
    (body := fun j d => do
      let a ← BSpline.alphaFixed (D := D) knots t k r j
      let dl ← Outcome.ofOption (do Arr.get? d (← usub j 1))
      let dj ← Outcome.ofOption (Arr.get? d j)
      Outcome.ofOption (Arr.set? d j (dl * (lit 1 - a) + dj * a)))
    (fun i s => ∀ j : Fin (D + 1), s j =
      if i ≤ j.val then x (j - 1) * (1 - alphaText (knotAt knots) D t r (j + k - D))
        + x j * alphaText (knotAt knots) D t r (j + k - D)
      else x j)
    (by omega)
    (by intro j; rw [if_neg (by have := j.2; omega)]; exact hd j)
    (by
      intro i s h1 h2 inv
      rw [alphaFixed_eq knots t h1 (by omega) hk hK hr1, usub_le (by omega)]
      simp only [Outcome.ok_bind, Option.bind_eq_bind, Option.bind_some]
      rw [Arr.get?_lt _ (show i - 1 < D + 1 by omega), Arr.get?_lt _ h2]
      simp only [Outcome.ofOption_some, Outcome.ok_bind]
      rw [Arr.set?_lt _ h2]
      refine ⟨_, rfl, ?_⟩
      intro j
      show (if j.val = i then _ else _) = _
      by_cases hji : j.val = i
      · rw [if_pos hji, if_pos (by omega), inv, inv, if_neg (by simp only; omega),
          if_neg (by simp only; omega)]
        simp only [hji, lit_real, Rat.cast_one]
      · rw [if_neg hji, inv]
        by_cases hlt : i ≤ j.val
        · rw [if_pos hlt, if_pos (by omega)]
        · rw [if_neg hlt, if_neg (by omega)])
  rw [hs]
  simp only [Outcome.pure_eq]
  congr 1
  funext j
  exact inv j

theorem deBoorRoundsFixed_eq (knots : Arr ℝ K) (t : ℝ) {k : ℕ} (hk : D ≤ k)
    (hK : k + D < K ∨ D = 0)
    (x : ℕ → P) (d : Arr P (D + 1)) (hd : ∀ j : Fin (D + 1), d j = x j) :
    ∃ s, forRange 1 (D + 1) d (fun r d => BSpline.deBoorRoundFixed knots t k r d) = Outcome.ok s ∧
      ∀ j : Fin (D + 1),
        s j = db (fun r j => alphaText (knotAt knots) D t r (j + k - D)) x D j := by
  obtain ⟨s, hs, inv⟩ := forRange_inv (m := Outcome) (lo := 1) (hi := D + 1) (s := d)
    (body := fun r d => BSpline.deBoorRoundFixed knots t k r d)
    (fun r s => ∀ j : Fin (D + 1),
      s j = db (fun r j => alphaText (knotAt knots) D t r (j + k - D)) x (r - 1) j)
    (by omega) (by intro j; exact hd j)
    (by
      intro r s h1 h2 inv
      refine ⟨_, deBoorRoundFixed_eq knots t hk (by omega) h1 (by omega) _ s inv, ?_⟩
      intro j
      obtain ⟨r, rfl⟩ : ∃ r', r = r' + 1 := ⟨r - 1, by omega⟩
      simp only [Nat.add_sub_cancel, db])
  exact ⟨s, hs, inv⟩

theorem copyPointsFixed_ok (ps : Arr P C) {k : ℕ} (hk : D ≤ k) (hkC : k < C) (d : Arr P (D + 1)) :
    ∃ s : Arr P (D + 1), BSpline.copyPointsFixed ps k d = some s ∧
      ∀ j : Fin (D + 1), s j = extend ps (j + k - D) := by
  unfold BSpline.copyPointsFixed
  obtain ⟨s, hs, inv⟩ := forRange_inv (m := Option) (lo := 0) (hi := D + 1) (s := d)
    (body := fun j d => do
      Arr.set? d j (← Arr.get? ps (← usub (j + k) D)))
    (fun i (s : Arr P (D + 1)) => ∀ j : Fin (D + 1), s j = if j.val < i then extend ps (j + k - D) else d j)
    (by omega) (by intro j; simp)
    (by
      intro i s _ hi inv
      rw [usub_le (by omega)]
      simp only [Option.bind_eq_bind, Option.bind_some]
      rw [Arr.get?_lt _ (show i + k - D < C by omega)]
      simp only [Option.bind_some]
      rw [Arr.set?_lt _ (by omega)]
      refine ⟨_, rfl, ?_⟩
      intro j
      show (if j.val = i then _ else _) = _
      by_cases hji : j.val = i
      · rw [if_pos hji, if_pos (by omega), hji, extend_lt]
      · rw [if_neg hji, inv]
        by_cases hlt : j.val < i
        · rw [if_pos hlt, if_pos (by omega)]
        · rw [if_neg hlt, if_neg (by omega)])
  exact ⟨s, hs, fun j => by rw [inv j, if_pos j.2]⟩

variable {knots : Arr ℝ K} {ps : Arr P C} {b : BSpline ℝ P K C D}

/-- **C121**: outside `[knots[D], knots[C]]` the repaired evaluation reports `KnotDomainViolation`,
for every constructed spline of every kind. -/
theorem C121_bspline_outside (h : BSpline.new knots ps = .ok b) {t : ℝ}
    (ht : t < knotAt knots D ∨ knotAt knots C < t) :
    b.evalFixed t = .err .KnotDomainViolation := by
  obtain ⟨⟨v1, v2, v3⟩, rfl⟩ := (new_ok_iff _ _ _).1 h
  unfold BSpline.evalFixed BSpline.knotDomainUnclamped
  simp only [Option.bind_eq_bind]
  rw [get?_knot _ (show D < K by omega), get?_knot _ (show C < K by omega)]
  simp only [Option.bind_some, Option.pure_def, Outcome.ofOption_some, Outcome.ok_bind, lt_real]
  rw [if_pos (by simpa using ht)]

theorem evalFixed_inside (h : BSpline.new knots ps = .ok b) {t : ℝ}
    (h1 : knotAt knots D ≤ t) (h2 : t ≤ knotAt knots C) : b.evalFixed t = b.deBoorFixed t := by
  obtain ⟨⟨v1, v2, v3⟩, rfl⟩ := (new_ok_iff _ _ _).1 h
  unfold BSpline.evalFixed BSpline.knotDomainUnclamped
  simp only [Option.bind_eq_bind]
  rw [get?_knot _ (show D < K by omega), get?_knot _ (show C < K by omega)]
  simp only [Option.bind_some, Option.pure_def, Outcome.ofOption_some, Outcome.ok_bind, lt_real]
  rw [if_neg (by simpa using ⟨h1, h2⟩)]

/-- **C121**: at `knots[C]` the repaired evaluation returns the last control point, as the code
does. -/
theorem C121_bspline_end (h : BSpline.new knots ps = .ok b) :
    b.evalFixed (knotAt knots C) = .ok (ps ⟨C - 1, by
      have := ((new_ok_iff _ _ _).1 h).1.1; omega⟩) := by
  obtain ⟨v1, v2, v3⟩ := ((new_ok_iff _ _ _).1 h).1
  rw [evalFixed_inside h (mono_knotAt v3 (by omega) (by omega)) le_rfl]
  obtain ⟨-, rfl⟩ := (new_ok_iff _ _ _).1 h
  unfold BSpline.deBoorFixed
  dsimp only
  rw [get?_knot _ (by omega)]
  simp only [Outcome.ofOption_some, Outcome.ok_bind, eq_real, decide_true, if_true]
  rw [usub_le (by omega)]
  simp only [Option.bind_eq_bind, Option.bind_some]
  rw [Arr.get?_lt _ (by omega)]
  rfl

variable [LawfulPoint P]

/-- **C121**: for every constructed spline of every kind and every parameter of
`[knots[D], knots[C])` the repaired evaluation succeeds and returns the point of the B-spline curve,
the combination of the control points with the Cox-de Boor basis functions. -/
theorem C121_bspline (h : BSpline.new knots ps = .ok b) {t : ℝ}
    (h1 : knotAt knots D ≤ t) (h2 : t < knotAt knots C) :
    ∃ q, b.evalFixed t = .ok q ∧ ∀ c, coord q c = splineCoord D knots ps t c := by
  rw [evalFixed_inside h h1 h2.le]
  obtain ⟨⟨v1, v2, v3⟩, rfl⟩ := (new_ok_iff _ _ _).1 h
  have e : C - 1 + 1 = C := by omega
  obtain ⟨k, hk, hDk, hkC, hk1, hk2⟩ := spanLoop_spec v3 t _ D (C - 1) le_rfl (by omega) h1
    (by rwa [e]) (by omega)
  have hs : (⟨knots, kindOf D knots, ps⟩ : BSpline ℝ P K C D).spanClamped t = some (some k) := by
    unfold BSpline.spanClamped
    rw [usub_le (by omega)]
    simp only [Option.bind_eq_bind, Option.bind_some, e]
    rw [get?_knot _ (by omega)]
    simp only [Option.bind_some, eq_real, h2.ne, decide_false, Bool.false_eq_true, if_false]
    exact hk
  unfold BSpline.deBoorFixed
  rw [hs]
  dsimp only
  rw [get?_knot _ (by omega)]
  simp only [Outcome.ofOption_some, Outcome.ok_bind, eq_real, h2.ne, decide_false,
    Bool.false_eq_true, if_false]
  obtain ⟨s, h3, h4⟩ := copyPointsFixed_ok ps hDk (by omega) (fun _ => (Point.default : P))
  rw [h3]
  simp only [Outcome.ofOption_some, Outcome.ok_bind]
  obtain ⟨s', h5, h6⟩ := deBoorRoundsFixed_eq knots t (k := k) (D := D) (by omega) (by omega)
    (fun j => extend ps (j + k - D)) s h4
  rw [h5]
  simp only [Outcome.ok_bind]
  rw [Arr.get?_lt _ (Nat.lt_succ_self D), h6]
  refine ⟨_, rfl, fun c => ?_⟩
  rw [coord_db]
  have := deBoor_correct (fun i j hij hj => mono_knotAt v3 hij hj) hDk (by omega) hk1 hk2
    (fun j => coord (extend ps (j + k - D)) c)
  unfold alphaText
  rw [this]
  rw [splineCoord]
  have e2 : (∑ i : Fin C, coxDeBoor (knotAt knots) D i.val t * coord (ps i) c)
      = ∑ i ∈ Finset.range C, coxDeBoor (knotAt knots) D i t * coord (extend ps i) c := by
    rw [← Fin.sum_univ_eq_sum_range
      (fun i => coxDeBoor (knotAt knots) D i t * coord (extend ps i) c)]
    exact Finset.sum_congr rfl fun i _ => by rw [extend_lt ps i.2]
  rw [e2, coxDeBoor_sum_span (fun i j hij hj => mono_knotAt v3 hij hj) hDk (by omega) v2 hk1 hk2]
  refine Finset.sum_congr rfl fun m hm => ?_
  rw [show m + k - D = k - D + m by omega]

/-- **C121**: the repaired evaluation returns convex combinations of the control points, with weights
that depend on the knots and the parameter only (the statement of C50). -/
theorem C121_bspline_convex (h : BSpline.new knots ps = .ok b) {t : ℝ}
    (h1 : knotAt knots D ≤ t) (h2 : t ≤ knotAt knots C) :
    ∃ w : Fin C → ℝ, ∀ (ps' : Arr P C) (b' : BSpline ℝ P K C D), BSpline.new knots ps' = .ok b' →
      ∃ q, b'.evalFixed t = .ok q ∧ IsConvexCombination w ps' q := by
  obtain ⟨v1, v2, v3⟩ := ((new_ok_iff _ _ _).1 h).1
  rcases eq_or_lt_of_le h2 with h2 | h2
  · refine ⟨fun i => if i.val = C - 1 then 1 else 0, fun ps' b' h' => ⟨_, by
      rw [h2]; exact C121_bspline_end h', fun i => by dsimp only; split_ifs <;> norm_num, ?_, ?_⟩⟩
    · rw [Finset.sum_eq_single ⟨C - 1, by omega⟩]
      · simp
      · intro i _ hi
        rw [if_neg fun e => hi (Fin.ext e)]
      · simp
    · intro c
      rw [Finset.sum_eq_single ⟨C - 1, by omega⟩]
      · simp
      · intro i _ hi
        dsimp only
        rw [if_neg fun e => hi (Fin.ext e), zero_mul]
      · simp
  · have hm := fun i j (hij : i ≤ j) (hj : j < K) => mono_knotAt v3 hij hj
    refine ⟨fun i => coxDeBoor (knotAt knots) D i t, fun ps' b' h' => ?_⟩
    obtain ⟨q, hq, hc⟩ := C121_bspline h' h1 h2
    refine ⟨q, hq, fun i => coxDeBoor_nonneg hm D i (by have := i.2; omega), ?_, fun c => hc c⟩
    obtain ⟨k, hDk, hkC, hk1, hk2⟩ := exists_span ⟨v1, v2, v3⟩ h1 h2
    have := coxDeBoor_sum_span hm hDk hkC v2 hk1 hk2 (fun _ => 1)
    simp only [mul_one, one_mul] at this
    rw [Fin.sum_univ_eq_sum_range (fun i => coxDeBoor (knotAt knots) D i t) C, this]
    exact coxDeBoor_sum hm hDk (by omega) hk1 hk2

/-- **C121**: the repaired `arclen(n)` is the length of the polyline through the `n + 1` equally
spaced points of the domain (the statement of C53). -/
theorem C121_bspline_arclen (h : BSpline.new knots ps = .ok b) :
    ∃ f : ℝ → P, (∀ t, knotAt knots D ≤ t → t ≤ knotAt knots C → b.evalFixed t = .ok (f t)) ∧
      ∀ n : ℕ, b.arclenFixed n = some (polylineLength (fun i : ℕ =>
        f (knotAt knots D + (i : ℝ) / n * (knotAt knots C - knotAt knots D))) 0 n) := by
  obtain ⟨v1, v2, v3⟩ := ((new_ok_iff _ _ _).1 h).1
  have hle : knotAt knots D ≤ knotAt knots C := mono_knotAt v3 (by omega) (by omega)
  have ex : ∀ t, ∃ q : P, knotAt knots D ≤ t → t ≤ knotAt knots C → b.evalFixed t = .ok q := by
    intro t
    by_cases ht : knotAt knots D ≤ t ∧ t ≤ knotAt knots C
    · obtain ⟨w, hw⟩ := C121_bspline_convex h ht.1 ht.2
      obtain ⟨q, hq, -⟩ := hw ps b h
      exact ⟨q, fun _ _ => hq⟩
    · exact ⟨Point.default, fun a b => absurd ⟨a, b⟩ ht⟩
  choose f hf using ex
  refine ⟨f, hf, fun n => ?_⟩
  have hd : b.knotDomainUnclamped = some (knotAt knots D, knotAt knots C) := by
    obtain ⟨-, rfl⟩ := (new_ok_iff _ _ _).1 h
    unfold BSpline.knotDomainUnclamped
    simp only [Option.bind_eq_bind]
    rw [get?_knot _ (show D < K by omega), get?_knot _ (show C < K by omega)]
    rfl
  unfold BSpline.arclenFixed
  rw [hd]
  simp only [Option.bind_eq_bind, Option.bind_some, lit_real, Rat.cast_zero, ofUsize_real,
    sqrt_real, Option.pure_def]
  set lo := knotAt knots D
  set hi := knotAt knots C
  have key : ∀ i : ℕ, i ≤ n → 1 ≤ n →
      b.evalOrDefaultFixed (lo + (i : ℝ) / n * (hi - lo))
        = some (f (lo + (i : ℝ) / n * (hi - lo))) := by
    intro i hi' hn
    have n0 : (0 : ℝ) < n := by exact_mod_cast hn
    have i1 : (i : ℝ) / n ≤ 1 := by
      rw [div_le_one n0]; exact_mod_cast hi'
    have i0 : 0 ≤ (i : ℝ) / n := by positivity
    have hw : 0 ≤ hi - lo := sub_nonneg.2 hle
    unfold BSpline.evalOrDefaultFixed
    rw [hf _ (by nlinarith) (by nlinarith)]
  obtain ⟨s, hs, inv⟩ := forRange_inv (m := Option) (lo := 0) (hi := n) (s := (0 : ℝ))
    (body := fun i arclen =>
      (b.evalOrDefaultFixed (lo + (i : ℝ) / n * (hi - lo))).bind fun p1 =>
      (b.evalOrDefaultFixed (lo + (i : ℝ) / n * (hi - lo) + (hi - lo) / n)).bind fun p2 =>
      some (arclen + Real.sqrt (Point.squaredLength (p1 - p2))))
    (fun i s => s = ∑ j ∈ Finset.Ico 0 i, pdist (f (lo + (j : ℝ) / n * (hi - lo)))
      (f (lo + ((j + 1 : ℕ) : ℝ) / n * (hi - lo))))
    (Nat.zero_le _) (by simp)
    (by
      intro i s h0 hin hs
      have n0 : (n : ℝ) ≠ 0 := by
        have : (0 : ℝ) < n := by exact_mod_cast (by omega : 0 < n)
        exact this.ne'
      have e : lo + (i : ℝ) / n * (hi - lo) + (hi - lo) / n
          = lo + ((i + 1 : ℕ) : ℝ) / n * (hi - lo) := by
        push_cast; field_simp; ring
      rw [e, key i hin.le (by omega), key (i + 1) hin (by omega)]
      refine ⟨_, rfl, ?_⟩
      rw [sqrt_squaredLength_sub, Finset.sum_Ico_succ_top h0, ← hs])
  unfold polylineLength
  rw [← inv]
  exact hs

/-- **C121**: the repaired derivative is accepted by the constructor, and its repaired evaluation is
the derivative of the repaired evaluation of the spline, inside every span.  No denominator of the
formula may be 0. -/
theorem C121_bspline_derivative (h : BSpline.new knots ps = .ok b) (hD : 1 ≤ D)
    (hden : ∀ i, i + 1 < C → knotAt knots (i + 1) < knotAt knots (i + D + 1)) :
    ∃ d, b.derivativeFixed = some d ∧
      (∃ e : BSpline ℝ P (K - 2) (C - 1) (D - 1), BSpline.new d.knots d.control_points = .ok e) ∧
      ∀ (k : ℕ) (t : ℝ), D ≤ k → k < C → knotAt knots k < t → t < knotAt knots (k + 1) →
        ∃ (f : ℝ → P) (v : P), (∀ s, knotAt knots k < s → s < knotAt knots (k + 1) →
            b.evalFixed s = .ok (f s)) ∧
          d.evalFixed t = .ok v ∧ HasPointDerivAt f (coord v) t := by
  obtain ⟨d, hd, vd, -, key⟩ := C52_partial h hD hden
  obtain ⟨v1, v2, v3⟩ := ((new_ok_iff _ _ _).1 h).1
  have hk : b.knots = knots := (new_stores h).1
  have e1 : (fun i : Fin (K - 2) => b.knots ⟨i.val + 1, by have := i.2; omega⟩) = trimKnots knots := by
    funext i
    rw [hk, trimKnots, knotAt_lt _ (by have := i.2; omega)]
  obtain ⟨e, he⟩ := (C43_accepts (D := D - 1) (trimKnots knots) d.control_points).2 vd
  refine ⟨⟨trimKnots knots, d.knot_kind, d.control_points⟩, ?_, ⟨e, he⟩, ?_⟩
  · unfold BSpline.derivativeFixed
    rw [hd, ← e1]
    rfl
  intro k t hDk hkC h1 h2
  have lo : knotAt knots D ≤ knotAt knots k := mono_knotAt v3 hDk (by omega)
  have hi : knotAt knots (k + 1) ≤ knotAt knots C := mono_knotAt v3 (by omega) (by omega)
  have ex : ∀ s, ∃ q : P, (knotAt knots k < s → s < knotAt knots (k + 1) →
      b.evalFixed s = .ok q ∧ ∀ c, coord q c = splineCoord D knots ps s c) := by
    intro s
    by_cases hs : knotAt knots k < s ∧ s < knotAt knots (k + 1)
    · obtain ⟨q, hq⟩ := C121_bspline h (lo.trans hs.1.le) (hs.2.trans_le hi)
      exact ⟨q, fun _ _ => hq⟩
    · exact ⟨Point.default, fun a b => absurd ⟨a, b⟩ hs⟩
  choose f hf using ex
  have kt : ∀ i, i < K - 2 → knotAt (trimKnots knots) i = knotAt knots (i + 1) := by
    intro i hi
    rw [knotAt_lt _ hi]
    rfl
  obtain ⟨v, hv, hvc⟩ := C121_bspline he (t := t)
    (by rw [kt _ (by omega), show D - 1 + 1 = D by omega]; exact lo.trans h1.le)
    (by rw [kt _ (by omega), show C - 1 + 1 = C by omega]; exact h2.trans_le hi)
  have hv' : (⟨trimKnots knots, d.knot_kind, d.control_points⟩ :
      BSpline ℝ P (K - 2) (C - 1) (D - 1)).evalFixed t = .ok v := by
    obtain ⟨-, rfl⟩ := (new_ok_iff _ _ _).1 he
    exact hv
  refine ⟨f, v, fun s a b => (hf s a b).1, hv', fun c hc => ?_⟩
  rw [hvc]
  refine (key k t hDk hkC h1 h2 c).congr_of_eventuallyEq ?_
  filter_upwards [Ioo_mem_nhds h1 h2] with s hs
  exact (hf s hs.1 hs.2).2 c

/-- The hypotheses hold for a spline that is clamped at neither end, with a repeated knot. -/
example (ps : Arr (PointN ℝ 2) 5) : ∃ b : BSpline ℝ (PointN ℝ 2) 8 5 2,
    BSpline.new ![0, 1, 2, 3, 3, 4, 5, 6] ps = .ok b ∧
    knotAt (![0, 1, 2, 3, 3, 4, 5, 6] : Fin 8 → ℝ) 2 ≤ 3 ∧
    3 < knotAt (![0, 1, 2, 3, 3, 4, 5, 6] : Fin 8 → ℝ) 5 ∧
    ∀ i, i + 1 < 5 → knotAt (![0, 1, 2, 3, 3, 4, 5, 6] : Fin 8 → ℝ) (i + 1)
      < knotAt (![0, 1, 2, 3, 3, 4, 5, 6] : Fin 8 → ℝ) (i + 2 + 1) := by
  obtain ⟨b, hb⟩ := (C43_accepts (D := 2) ![0, 1, 2, 3, 3, 4, 5, 6] ps).2
    ⟨by norm_num, by norm_num, by
      intro i j hij
      fin_cases i <;> fin_cases j <;> simp at hij ⊢ <;> norm_num⟩
  refine ⟨b, hb, ?_, ?_, ?_⟩
  · simp [knotAt]; norm_num
  · simp [knotAt]; norm_num
  · intro i hi
    have : i = 0 ∨ i = 1 ∨ i = 2 ∨ i = 3 := by omega
    rcases this with rfl | rfl | rfl | rfl <;> simp [knotAt] <;> norm_num

end Stroke
