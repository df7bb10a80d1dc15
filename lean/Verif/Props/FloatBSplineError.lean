import Verif.Props.FloatBSplineEval
import Verif.Props.FloatStability
import Verif.Props.BSplineJoints

set_option linter.unusedSectionVars false

/-!
# Floating point: rounding errors of B-spline evaluation (C83)
-/

namespace Stroke

open Fl

section Generic
variable {S P : Type} [Scalar S] [Point S P] {K C D : ℕ}

/-- The triangle of de Boor's algorithm over any scalar type. -/
def dbg (a : ℕ → ℕ → S) (x : ℕ → P) : ℕ → ℕ → P
  | 0, j => x j
  | r + 1, j =>
    if r + 1 ≤ j then dbg a x r (j - 1) * (lit 1 - a (r + 1) j) + dbg a x r j * a (r + 1) j
    else dbg a x r j

theorem deBoorRound_gen (knots : Arr S K) (t : S) {k r : ℕ} {a : ℕ → ℕ → S}
    (ha : ∀ j, r ≤ j → j ≤ D → BSpline.alpha (D := D) knots t k r j = .ok (a r j))
    (hr1 : 1 ≤ r) (hr : r ≤ D) (x : ℕ → P) (d : Arr P (D + 1)) (hd : ∀ j : Fin (D + 1), d j = x j) :
    BSpline.deBoorRound knots t k r d = .ok fun j : Fin (D + 1) =>
      if r ≤ j.val then x (j - 1) * (lit 1 - a r j) + x j * a r j else x j := by
  unfold BSpline.deBoorRound
  obtain ⟨s, hs, inv⟩ := forRangeRev_inv (m := Outcome) (lo := r) (hi := D + 1) (s := d)
    (body := fun j d => do
      let a ← BSpline.alpha (D := D) knots t k r j
      let dl ← Outcome.ofOption (do Arr.get? d (← usub j 1))
      let dj ← Outcome.ofOption (Arr.get? d j)
      Outcome.ofOption (Arr.set? d j (dl * (lit 1 - a) + dj * a)))
    (fun i s => ∀ j : Fin (D + 1), s j =
      if i ≤ j.val then x (j - 1) * (lit 1 - a r j) + x j * a r j else x j)
    (by omega)
    (by intro j; rw [if_neg (by have := j.2; omega)]; exact hd j)
    (by
      intro i s h1 h2 inv
      rw [ha i h1 (by omega), usub_le (by omega)]
      simp only [Outcome.ok_bind, Option.bind_eq_bind, Option.bind_some]
      rw [Arr.get?_lt _ (show i - 1 < D + 1 by omega), Arr.get?_lt _ h2]
      simp only [Outcome.ofOption_some, Outcome.ok_bind]
      rw [Arr.set?_lt _ h2]
      refine ⟨_, rfl, ?_⟩
      intro j
      show (if j.val = i then _ else _) = _
      by_cases hji : j.val = i
      · rw [if_pos hji, if_pos (by omega), inv, inv, if_neg (by simp only; omega),
          if_neg (by simp only; omega)]
        simp only [hji]
      · rw [if_neg hji, inv]
        by_cases hlt : i ≤ j.val
        · rw [if_pos hlt, if_pos (by omega)]
        · rw [if_neg hlt, if_neg (by omega)])
  rw [hs]
  simp only [Outcome.pure_eq]
  congr 1
  funext j
  exact inv j

theorem copyPoints_gen (ps : Arr P C) {k : ℕ} (hk : D ≤ k) (hkC : k ≤ C) (d : Arr P (D + 1)) :
    ∃ s : Arr P (D + 1), BSpline.copyPoints ps k d = some s ∧
      ∀ j : Fin (D + 1), s j = if j.val < D then extend ps (j + k - D) else d j := by
  unfold BSpline.copyPoints
  obtain ⟨s, hs, inv⟩ := forRange_inv (m := Option) (lo := 0) (hi := D) (s := d)
    (body := fun j d => do
      Arr.set? d j (← Arr.get? ps (← usub (j + k) D)))
    (fun i (s : Arr P (D + 1)) => ∀ j : Fin (D + 1), s j = if j.val < i then extend ps (j + k - D) else d j)
    (by omega) (by intro j; simp)
    (by
      intro i s _ hi inv
      rw [usub_le (by omega)]
      simp only [Option.bind_eq_bind, Option.bind_some]
      rw [Arr.get?_lt _ (show i + k - D < C by omega)]
      simp only [Option.bind_some]
      rw [Arr.set?_lt _ (by omega)]
      refine ⟨_, rfl, ?_⟩
      intro j
      show (if j.val = i then _ else _) = _
      by_cases hji : j.val = i
      · rw [if_pos hji, if_pos (by omega), hji, extend_lt]
      · rw [if_neg hji, inv]
        by_cases hlt : j.val < i
        · rw [if_pos hlt, if_pos (by omega)]
        · rw [if_neg hlt, if_neg (by omega)])
  exact ⟨s, hs, inv⟩

/-- `de_boor_iterative` over any scalar type, if no interpolation factor is NaN. -/
theorem deBoorIterative_gen (b : BSpline S P K C D) (hKC : K = C + D + 1) (t : S) (k : ℕ)
    (ht : Scalar.eq t (b.knots ⟨C, by omega⟩) = false) (hs : b.knotSpanStart t = some (some k))
    (hDk : D ≤ k) (hkC : k ≤ C) {a : ℕ → ℕ → S}
    (ha : ∀ r j, 1 ≤ r → r ≤ j → j ≤ D →
      BSpline.alpha (D := D) b.knots t k r j = .ok (a r j)) :
    b.deBoorIterative t = .ok (dbg a
      (fun j => if j < D then extend b.control_points (j + k - D) else Point.default) D D) := by
  unfold BSpline.deBoorIterative
  rw [Arr.get?_lt _ (show C < K by omega), hs]
  simp only [Outcome.ofOption_some, Outcome.ok_bind, ht, Bool.false_eq_true, if_false]
  obtain ⟨s, h1, h2⟩ := copyPoints_gen b.control_points hDk hkC (fun _ => (Point.default : P))
  rw [h1]
  simp only [Outcome.ofOption_some, Outcome.ok_bind]
  obtain ⟨s', h3, inv⟩ := forRange_inv (m := Outcome) (lo := 1) (hi := D + 1) (s := s)
    (body := fun r d => BSpline.deBoorRound b.knots t k r d)
    (fun r s => ∀ j : Fin (D + 1), s j = dbg a
      (fun j => if j < D then extend b.control_points (j + k - D) else Point.default) (r - 1) j)
    (by omega) (by intro j; exact h2 j)
    (by
      intro r s h1 h2 inv
      refine ⟨_, deBoorRound_gen b.knots t (fun j hr hj => ha r j h1 hr hj) h1 (by omega) _ s inv, ?_⟩
      intro j
      obtain ⟨r, rfl⟩ : ∃ r', r = r' + 1 := ⟨r - 1, by omega⟩
      simp only [Nat.add_sub_cancel, dbg])
  rw [h3]
  simp only [Outcome.pure_eq, Outcome.ok_bind]
  rw [Arr.get?_lt _ (Nat.lt_succ_self D), inv]
  rfl

end Generic

variable {F : FloatFormat} {K C D n : ℕ}

theorem abs_fin' {a : ℝ} {ha : a ∈ F.grid ∧ |a| ≤ F.max} :
    ∃ h, Scalar.abs (fin a ha : Fl F) = fin |a| h := ⟨_, rfl⟩

/-- The relative error of a quotient of two rounded differences. -/
theorem ratio_error (hu : F.u ≤ 1 / 1024) (he : F.eta ≤ F.epsilon * F.u) {x y : ℝ} (x0 : 0 ≤ x)
    (xy : x ≤ y) (y0 : 0 < y) (c1 : F.epsilon ≤ F.rnd x) :
    |F.rnd (F.rnd x / F.rnd y) - x / y| ≤ 7 * F.u := by
  have hu0 := F.u_nonneg
  have he0 := F.eta_nonneg
  have hep := F.epsilon_pos
  have hep1 := F.epsilon_le
  have nd : F.rnd x ≤ F.rnd y := F.rnd_mono xy
  have rn0 : 0 < F.rnd x := by linarith
  have rd0 : 0 < F.rnd y := by linarith
  have q0 : 0 ≤ F.rnd x / F.rnd y := div_nonneg rn0.le rd0.le
  have q1 : F.rnd x / F.rnd y ≤ 1 := (div_le_one rd0).2 nd
  have ex := F.rnd_err x
  have ey := F.rnd_err y
  rw [abs_of_nonneg x0] at ex
  rw [abs_of_nonneg y0.le] at ey
  have er := F.rnd_err (F.rnd x / F.rnd y)
  rw [abs_of_nonneg q0] at er
  generalize F.rnd (F.rnd x / F.rnd y) = Q at er ⊢
  generalize F.rnd x = X at *
  generalize F.rnd y = Y at *
  generalize F.u = u at *
  generalize F.eta = η at *
  generalize F.epsilon = ε at *
  have hη : η ≤ X * u := he.trans (mul_le_mul_of_nonneg_right c1 hu0)
  have hη' : η ≤ u := by
    have := mul_le_mul_of_nonneg_right hep1 hu0
    linarith
  have key : |X / Y - x / y| ≤ 2 * u * (x / Y) + 2 * η / Y := by
    have e1 : X / Y - x / y = ((X - x) * y - x * (Y - y)) / (Y * y) := by
      field_simp
      ring
    rw [e1, abs_div, abs_of_pos (mul_pos rd0 y0), div_le_iff₀ (mul_pos rd0 y0)]
    have e2 : |(X - x) * y - x * (Y - y)| ≤ (u * x + η) * y + x * (u * y + η) := by
      refine (abs_sub _ _).trans (add_le_add ?_ ?_)
      · rw [abs_mul, abs_of_pos y0]
        exact mul_le_mul_of_nonneg_right ex y0.le
      · rw [abs_mul, abs_of_nonneg x0]
        exact mul_le_mul_of_nonneg_left ey x0
    have e3 : (2 * u * (x / Y) + 2 * η / Y) * (Y * y) = 2 * u * x * y + 2 * η * y := by
      field_simp
    rw [e3]
    have := mul_le_mul_of_nonneg_left xy he0
    linarith
  have hxX : x ≤ X * (1 + 1 / 256) := by
    have h1 := (abs_le.1 ex).1
    have h2 := mul_le_mul_of_nonneg_right hu x0
    have h3 := mul_le_mul_of_nonneg_left hu rn0.le
    linarith
  have h3 : x / Y ≤ 1 + 1 / 256 := by
    rw [div_le_iff₀ rd0]
    linarith
  have h4 : 2 * η / Y ≤ 2 * u := by
    rw [div_le_iff₀ rd0]
    have := mul_le_mul_of_nonneg_left nd hu0
    linarith
  have h5 := abs_add_le (Q - X / Y) (X / Y - x / y)
  rw [sub_add_sub_cancel] at h5
  have h7 := mul_le_mul_of_nonneg_left h3 hu0
  have h8 := mul_le_mul_of_nonneg_left q1 hu0
  linarith

/-- The interpolation factor in floating point. -/
theorem alpha_float {knots : Arr (Fl F) K} (hk : FiniteKnots knots)
    (hm : ∀ i j, i ≤ j → j < K → knotAt (fun i => (knots i).toReal) i
      ≤ knotAt (fun i => (knots i).toReal) j)
    (hspan : ∀ i j : Fin K, (knots j).toReal - (knots i).toReal ≤ F.max)
    (hu : F.u ≤ 1 / 1024) (he : F.eta ≤ F.epsilon * F.u)
    {t : ℝ} (ht : t ∈ F.grid ∧ |t| ≤ F.max) {k r j : ℕ} (hDk : D ≤ k) (hK : k + D < K)
    (hr1 : 1 ≤ r) (hr : r ≤ j) (hj : j ≤ D)
    (h1 : knotAt (fun i => (knots i).toReal) k ≤ t)
    (h2 : t < knotAt (fun i => (knots i).toReal) (k + 1)) :
    ∃ α hα, BSpline.alpha (D := D) knots (fin t ht) k r j = .ok (fin α hα) ∧ 0 ≤ α ∧ α ≤ 1 ∧
      |α - (t - knotAt (fun i => (knots i).toReal) (j + k - D))
        / (knotAt (fun i => (knots i).toReal) (j + k - D + D + 1 - r)
          - knotAt (fun i => (knots i).toReal) (j + k - D))|
      ≤ 2 * F.epsilon / (knotAt (fun i => (knots i).toReal) (k + 1)
          - knotAt (fun i => (knots i).toReal) k) + 7 * F.u := by
  set U := knotAt (fun i => (knots i).toReal) with hU
  have hu0 := F.u_nonneg
  have he0 := F.eta_nonneg
  have hep := F.epsilon_pos
  have hep1 := F.epsilon_le
  have hi1 : j + k - D < K := by omega
  have hi2 : j + 1 + k - r < K := by omega
  rw [show j + k - D + D + 1 - r = j + 1 + k - r by omega]
  obtain ⟨a, ha, ea⟩ := isFinite_iff.1 (hk ⟨j + k - D, hi1⟩)
  obtain ⟨c, hc, ec⟩ := isFinite_iff.1 (hk ⟨j + 1 + k - r, hi2⟩)
  have Ua : U (j + k - D) = a := by rw [hU, knotAt_lt _ hi1, ea, toReal_fin]
  have Uc : U (j + 1 + k - r) = c := by rw [hU, knotAt_lt _ hi2, ec, toReal_fin]
  have l1 : a ≤ U k := by rw [← Ua]; exact hm _ _ (by omega) (by omega)
  have l2 : U (k + 1) ≤ c := by rw [← Uc]; exact hm _ _ (by omega) (by omega)
  have lc : c - a ≤ F.max := by
    have := hspan ⟨j + k - D, hi1⟩ ⟨j + 1 + k - r, hi2⟩
    rwa [ea, ec] at this
  rw [Ua, Uc]
  set g := U (k + 1) - U k with hg
  have g0 : 0 < g := by linarith
  set x := t - a with hx
  set y := c - a with hy
  have x0 : 0 ≤ x := by linarith
  have xy : x ≤ y := by linarith
  have gy : g ≤ y := by linarith
  have y0 : 0 < y := by linarith
  have n0 : 0 ≤ F.rnd x := F.rnd_nonneg x0
  have nd : F.rnd x ≤ F.rnd y := F.rnd_mono xy
  have ex := F.rnd_err x
  have ey := F.rnd_err y
  rw [abs_of_nonneg x0] at ex
  rw [abs_of_nonneg y0.le] at ey
  have heu : F.epsilon * F.u ≤ 1 * F.u := mul_le_mul_of_nonneg_right hep1 hu0
  have halpha : BSpline.alpha (D := D) knots (fin t ht) k r j =
      (let α : Fl F := if Scalar.lt (F.round x) (fin F.epsilon F.epsilon_ok) then lit 0
        else if Scalar.lt (Scalar.abs (F.round y)) (fin F.epsilon F.epsilon_ok) then lit 1
        else F.round x / F.round y
       if Scalar.isNaN α then .err .EvaluationAlphaIsNaN else .ok α) := by
    unfold BSpline.alpha
    rw [usub_le (show D ≤ j + k by omega), usub_le (show r ≤ j + 1 + k by omega)]
    simp only [Option.bind_eq_bind, Option.bind_some]
    rw [Arr.get?_lt _ hi1, Arr.get?_lt _ hi2, ea, ec]
    simp only [Outcome.ofOption_some, Outcome.ok_bind, fin_sub, Outcome.pure_eq, epsilon_eq, hx, hy]
  rw [F.round_of_le (show |x| ≤ F.max by rw [abs_of_nonneg x0]; linarith),
    F.round_of_le (show |y| ≤ F.max by rw [abs_of_nonneg y0.le]; linarith)] at halpha
  by_cases c1 : F.rnd x < F.epsilon
  · refine ⟨0, F.zero_ok, ?_, le_rfl, zero_le_one, ?_⟩
    · rw [halpha]
      simp only [lt_fin.2 c1, if_true, lit_zero]
      rfl
    · rw [zero_sub, abs_neg, abs_of_nonneg (div_nonneg x0 y0.le)]
      have hx2 : x ≤ 2 * F.epsilon := by
        have := (abs_le.1 ex).1
        nlinarith
      have : x / y ≤ 2 * F.epsilon / g := div_le_div₀ (by linarith) hx2 g0 gy
      linarith
  · have c1' := not_lt.1 c1
    have rn0 : 0 < F.rnd x := by linarith
    have rd0 : 0 < F.rnd y := by linarith
    have q0 : 0 ≤ F.rnd x / F.rnd y := div_nonneg n0 rd0.le
    have q1 : F.rnd x / F.rnd y ≤ 1 := (div_le_one rd0).2 nd
    have r0 : 0 ≤ F.rnd (F.rnd x / F.rnd y) := F.rnd_nonneg q0
    have r1 : F.rnd (F.rnd x / F.rnd y) ≤ 1 := by
      have := F.rnd_mono q1
      rwa [F.rnd_of_mem 1 F.one_mem] at this
    have rok : |F.rnd (F.rnd x / F.rnd y)| ≤ F.max := by
      rw [abs_of_nonneg r0]; linarith [F.max_ge]
    refine ⟨_, ⟨F.rnd_mem _, rok⟩, ?_, r0, r1, ?_⟩
    · rw [halpha]
      obtain ⟨h, e⟩ := abs_fin' (F := F) (a := F.rnd y)
        (ha := ⟨F.rnd_mem y, F.abs_rnd_le F.max_mem (by rw [abs_of_nonneg y0.le]; linarith)⟩)
      have n1 : Scalar.lt (fin (F.rnd x) ⟨F.rnd_mem x, F.abs_rnd_le F.max_mem
          (show |x| ≤ F.max by rw [abs_of_nonneg x0]; linarith)⟩ : Fl F)
          (fin F.epsilon F.epsilon_ok) = false := by
        rw [← Bool.not_eq_true, lt_fin]; exact c1
      have n2 : Scalar.lt (fin |F.rnd y| h : Fl F) (fin F.epsilon F.epsilon_ok) = false := by
        rw [← Bool.not_eq_true, lt_fin, abs_of_nonneg rd0.le]; linarith
      rw [e, n1, n2]
      simp only [Bool.false_eq_true, if_false]
      rw [fin_div rd0.ne', F.round_of_rnd_le rok]
      rfl
    · have := ratio_error hu he x0 xy y0 c1'
      have h6 : 0 ≤ 2 * F.epsilon / g := by positivity
      linarith

/-- Rounding errors in the de Boor triangle, relative to the exact triangle with the same
factors. -/
theorem dbg_error {x : ℕ → PointN (Fl F) n} {a : ℕ → ℕ → Fl F} {m : ℕ} {M : ℝ} (i : Fin n)
    (ha : ∀ r j, 1 ≤ r → r ≤ j → j < m → (a r j).IsFinite ∧ 0 ≤ (a r j).toReal ∧ (a r j).toReal ≤ 1)
    (hx : ∀ j, j < m → ((x j).coords i).IsFinite ∧ |((x j).coords i).toReal| ≤ M)
    (r : ℕ) (hmax : casBound F M r ≤ F.max) :
    ∀ j < m, ∃ v hv, (dbg a x r j).coords i = (fin v hv : Fl F) ∧
      |v - dbr (fun r j => (a r j).toReal) (fun j => ((x j).coords i).toReal) r j|
        ≤ casBound F M r - M := by
  induction r with
  | zero =>
    intro j hj
    obtain ⟨v, hv, e⟩ := isFinite_iff.1 (hx j hj).1
    refine ⟨v, hv, e, ?_⟩
    simp [dbr, e, casBound]
  | succ r ih =>
    intro j hj
    have hM0 : 0 ≤ M := (abs_nonneg _).trans (hx j hj).2
    have ih := ih ((casBound_mono hM0 (Nat.le_succ r)).trans hmax)
    have hmid : ∀ j < m, |dbr (fun r j => (a r j).toReal) (fun j => ((x j).coords i).toReal) r j|
        ≤ M := fun j hj => abs_le.2 (dbr_between (fun r j h1 h2 h3 => (ha r j h1 h2 h3).2)
          (fun j hj => abs_le.1 (hx j hj).2) r j hj)
    have bnd : ∀ c y : ℝ, |y| ≤ M → |c - y| ≤ casBound F M r - M → |c| ≤ casBound F M r := by
      intro c y h1 h2
      have := abs_add_le y (c - y)
      rw [add_sub_cancel] at this
      linarith
    by_cases hrj : r + 1 ≤ j
    · obtain ⟨v, hv, ev, dv⟩ := ih (j - 1) (by omega)
      obtain ⟨w, hw, ew, dw⟩ := ih j hj
      obtain ⟨haf, a0, a1⟩ := ha (r + 1) j (by omega) hrj hj
      obtain ⟨s, hs, es⟩ := isFinite_iff.1 haf
      rw [es, toReal_fin] at a0 a1
      obtain ⟨z, hz, ez, dz⟩ := lerp_error hv hw hs a0 a1 (bnd v _ (hmid _ (by omega)) dv)
        (bnd w _ (hmid _ hj) dw) ((casBound_succ r).trans hmax)
      have esub : (lit 1 : Fl F) - fin s hs = -(fin s hs) + lit 1 := by
        rw [lit_one, fin_sub, fin_neg, fin_add, show 1 - s = -s + 1 by ring]
      refine ⟨z, hz, ?_, ?_⟩
      · rw [dbg, if_pos hrj]
        simp only [coords_add, coords_mul]
        rw [ev, ew, es, esub, ez]
      · rw [dbr, if_pos hrj]
        simp only [es, toReal_fin]
        set X := dbr (fun r j => (a r j).toReal) (fun j => ((x j).coords i).toReal) r (j - 1)
        set Y := dbr (fun r j => (a r j).toReal) (fun j => ((x j).coords i).toReal) r j
        have h1 := abs_add_le (z - ((1 - s) * v + s * w)) ((1 - s) * (v - X) + s * (w - Y))
        rw [show z - ((1 - s) * v + s * w) + ((1 - s) * (v - X) + s * (w - Y))
          = z - (X * (1 - s) + Y * s) by ring] at h1
        have h2 := abs_add_le ((1 - s) * (v - X)) (s * (w - Y))
        rw [abs_mul, abs_mul, abs_of_nonneg a0, abs_of_nonneg (show 0 ≤ 1 - s by linarith)] at h2
        have h3 := mul_le_mul_of_nonneg_left dv (show 0 ≤ 1 - s by linarith)
        have h4 := mul_le_mul_of_nonneg_left dw a0
        have h5 := casBound_succ (F := F) (M := M) r
        nlinarith
    · obtain ⟨v, hv, ev, dv⟩ := ih j hj
      refine ⟨v, hv, ?_, ?_⟩
      · rw [dbg, if_neg hrj, ev]
      · rw [dbr, if_neg hrj]
        exact dv.trans (by linarith [casBound_mono (F := F) hM0 (Nat.le_succ r)])

/-- `eval` of a clamped spline over floats inside a knot span. -/
theorem eval_float_span {P : Type} [Point (Fl F) P] {knots : Arr (Fl F) K} {ps : Arr P C}
    {b : BSpline (Fl F) P K C D}
    (h : BSpline.new knots ps = .ok b) (hk : FiniteKnots knots) (hf : ClampedFront D knots)
    (hb : ClampedBack D knots) {t : ℝ} (ht : t ∈ F.grid ∧ |t| ≤ F.max) {k : ℕ} (hDk : D ≤ k)
    (hkC : k < C) (ht1 : knotAt (fun i => (knots i).toReal) k ≤ t)
    (ht2 : t < knotAt (fun i => (knots i).toReal) (k + 1)) :
    b.eval (fin t ht) = b.deBoorIterative (fin t ht) ∧
      b.knotSpanStart (fin t ht) = some (some k) ∧
      ∃ hCK : C < K, Scalar.eq (fin t ht) (b.knots ⟨C, hCK⟩) = false := by
  obtain ⟨h1, h2, h3, hbeq⟩ := (new_generic _ _ _).1 h
  rw [frontB_true hk hf, backB_true hk hb] at hbeq
  have hm := (anyDecrease_finiteKnots hk).1 h3
  have hmk : ∀ i j, i ≤ j → j < K → knotAt (fun i => (knots i).toReal) i
      ≤ knotAt (fun i => (knots i).toReal) j := fun i j hij hj => mono_knotAt hm hij hj
  have hkn : b.knots = knots := by rw [hbeq]
  have hkind : b.knot_kind = .Clamped := by rw [hbeq]; rfl
  have hd : b.knotDomain = some (knots ⟨D, by omega⟩, knots ⟨C, by omega⟩) := by
    rw [BSpline.knotDomain, hkind]
    simp only [BSpline.knotDomainClamped]
    rw [usub_le (by omega)]
    simp only [Option.bind_eq_bind, Option.bind_some]
    rw [usub_le (by omega), hkn, Arr.get?_lt _ (show D < K by omega)]
    simp only [Option.bind_some]
    rw [Arr.get?_lt _ (show K - 1 - D < K by omega)]
    simp only [Option.bind_some, show K - 1 - D = C by omega]
    rfl
  obtain ⟨x, hx, ex⟩ := isFinite_iff.1 (hk ⟨D, by omega⟩)
  obtain ⟨y, hy, ey⟩ := isFinite_iff.1 (hk ⟨C, by omega⟩)
  have kD : knotAt (fun i => (knots i).toReal) D = x := by
    rw [knotAt_lt _ (show D < K by omega), ex, toReal_fin]
  have kC : knotAt (fun i => (knots i).toReal) C = y := by
    rw [knotAt_lt _ (show C < K by omega), ey, toReal_fin]
  have lx : x ≤ t := by rw [← kD]; exact (hmk _ _ hDk (by omega)).trans ht1
  have ly : t < y := by rw [← kC]; exact ht2.trans_le (hmk _ _ (by omega) (by omega))
  have hne : (Scalar.eq (fin t ht) (knots ⟨C, by omega⟩) : Bool) = false := by
    rw [ey, ← Bool.not_eq_true, eq_fin]
    exact ly.ne
  refine ⟨?_, ?_, by omega, by rw [hkn]; exact hne⟩
  · unfold BSpline.eval
    rw [hd, ex, ey]
    have hin : (Scalar.lt (fin t ht) (fin x hx) || Scalar.lt (fin y hy) (fin t ht)) = false := by
      rw [Bool.or_eq_false_iff, ← Bool.not_eq_true, ← Bool.not_eq_true, lt_fin, lt_fin]
      exact ⟨not_lt.2 lx, not_lt.2 ly.le⟩
    simp only [Outcome.ofOption_some, Outcome.ok_bind, hin, Bool.false_eq_true, if_false]
  · have e : C - 1 + 1 = C := by omega
    obtain ⟨k', hk', h3', h4', h5, h6⟩ := spanLoop_spec (knots := fun i => (knots i).toReal) hm t _ D
      (C - 1) le_rfl (by omega) (by rw [kD]; exact lx) (by rw [e, kC]; exact ly) (by omega)
    have hkk : k' = k := by
      rcases Nat.lt_trichotomy k' k with hlt | heq | hgt
      · have := hmk (k' + 1) k (by omega) (by omega)
        linarith
      · exact heq
      · have := hmk (k + 1) k' (by omega) (by omega)
        linarith
    rw [BSpline.knotSpanStart, hkind]
    simp only [BSpline.spanClamped]
    rw [usub_le (by omega)]
    simp only [Option.bind_eq_bind, Option.bind_some]
    rw [hkn, Arr.get?_lt _ (show C - 1 + 1 < K by omega)]
    simp only [Option.bind_some, e]
    rw [hne]
    simp only [Bool.false_eq_true, if_false]
    rw [spanLoop_finite hk ht _ _ _ le_rfl, ← hkk]
    exact hk'

/-- The real numbers a float point stands for. -/
noncomputable def realPoint (p : PointN (Fl F) n) : PointN ℝ n :=
  PointN.new fun i => (p.coords i).toReal

theorem knots_mono {knots : Arr (Fl F) K} {P : Type} [Point (Fl F) P] {ps : Arr P C}
    {b : BSpline (Fl F) P K C D} (h : BSpline.new knots ps = .ok b) (hk : FiniteKnots knots) :
    ∀ i j, i ≤ j → j < K → knotAt (fun i => (knots i).toReal) i
      ≤ knotAt (fun i => (knots i).toReal) j := by
  obtain ⟨h1, h2, h3, -⟩ := (new_generic _ _ _).1 h
  exact fun i j hij hj => mono_knotAt ((anyDecrease_finiteKnots hk).1 h3) hij hj

/-- The rounding error of `eval` where the span has been found (see `C83_bspline_error`). -/
theorem bspline_error_of_span {knots : Arr (Fl F) K} {ps : Arr (PointN (Fl F) n) C}
    {b : BSpline (Fl F) (PointN (Fl F) n) K C D}
    (h : BSpline.new knots ps = .ok b) (hk : FiniteKnots knots)
    (hspan : ∀ i j : Fin K, (knots j).toReal - (knots i).toReal ≤ F.max)
    (hu : F.u ≤ 1 / 1024) (he : F.eta ≤ F.epsilon * F.u)
    {t M : ℝ} (ht : t ∈ F.grid ∧ |t| ≤ F.max) {k : ℕ} (hDk : D ≤ k) (hkC : k < C)
    (ht1 : knotAt (fun i => (knots i).toReal) k ≤ t)
    (ht2 : t < knotAt (fun i => (knots i).toReal) (k + 1))
    (e1 : b.eval (fin t ht) = b.deBoorIterative (fin t ht))
    (e2 : b.knotSpanStart (fin t ht) = some (some k)) {hCK : C < K}
    (e3 : Scalar.eq (fin t ht) (b.knots ⟨C, hCK⟩) = false)
    (hfin : ∀ i, FinitePoint (ps i)) (hM : ∀ i c, |((ps i).coords c).toReal| ≤ M)
    (hmax : ((1 + F.u) ^ 2 * (1 + F.u + F.eta)) ^ D * (M + D * (3 * (1 + F.u) * F.eta)) ≤ F.max) :
    ∃ q, b.eval (fin t ht) = .ok q ∧ ∀ c : Fin n, (q.coords c).IsFinite ∧
      |(q.coords c).toReal
          - (splineCoord D (fun i => (knots i).toReal) (fun i => realPoint (ps i)) t c
            - coxDeBoor (knotAt fun i => (knots i).toReal) D k t
              * ((ps ⟨k, hkC⟩).coords c).toReal)|
        ≤ ((1 + F.u) ^ 2 * (1 + F.u + F.eta)) ^ D * (M + D * (3 * (1 + F.u) * F.eta)) - M
          + D * ((2 * F.epsilon / (knotAt (fun i => (knots i).toReal) (k + 1)
              - knotAt (fun i => (knots i).toReal) k) + 7 * F.u) * (2 * M)) := by
  have hm := knots_mono h hk
  obtain ⟨v1, v2, v3, hbeq⟩ := (new_generic _ _ _).1 h
  have hkn : b.knots = knots := by rw [hbeq]
  have hps : b.control_points = ps := by rw [hbeq]
  have hal : ∀ r j, ∃ α : Fl F, 1 ≤ r → r ≤ j → j ≤ D →
      BSpline.alpha (D := D) b.knots (fin t ht) k r j = .ok α ∧ α.IsFinite ∧ 0 ≤ α.toReal ∧
      α.toReal ≤ 1 ∧ |α.toReal - (t - knotAt (fun i => (knots i).toReal) (j + k - D))
        / (knotAt (fun i => (knots i).toReal) (j + k - D + D + 1 - r)
          - knotAt (fun i => (knots i).toReal) (j + k - D))|
      ≤ 2 * F.epsilon / (knotAt (fun i => (knots i).toReal) (k + 1)
          - knotAt (fun i => (knots i).toReal) k) + 7 * F.u := by
    intro r j
    by_cases hrj : 1 ≤ r ∧ r ≤ j ∧ j ≤ D
    · obtain ⟨α, hα, a1, a2, a3, a4⟩ := alpha_float hk hm hspan hu he ht hDk (by omega) hrj.1 hrj.2.1
        hrj.2.2 ht1 ht2
      exact ⟨fin α hα, fun _ _ _ => ⟨by rw [hkn]; exact a1, trivial, a2, a3, a4⟩⟩
    · exact ⟨nan, fun h1 h2 h3 => absurd ⟨h1, h2, h3⟩ hrj⟩
  choose a ha using hal
  refine ⟨_, e1.trans (deBoorIterative_gen b v2 (fin t ht) k e3 e2 hDk hkC.le
    (a := a) fun r j h1 h2 h3 => (ha r j h1 h2 h3).1), fun c => ?_⟩
  have hM0 : 0 ≤ M := (abs_nonneg _).trans (hM ⟨0, by omega⟩ c)
  set x : ℕ → PointN (Fl F) n :=
    fun j => if j < D then extend b.control_points (j + k - D) else Point.default with hx
  have hxj : ∀ j, j < D + 1 → ((x j).coords c).IsFinite ∧ |((x j).coords c).toReal| ≤ M := by
    intro j hj
    rw [hx]
    beta_reduce
    split_ifs with hjD
    · rw [hps, extend_lt ps (show j + k - D < C by omega)]
      exact ⟨hfin _ c, hM _ c⟩
    · show (lit 0 : Fl F).IsFinite ∧ |(lit 0 : Fl F).toReal| ≤ M
      rw [lit_zero, toReal_fin, abs_zero]
      exact ⟨trivial, hM0⟩
  obtain ⟨v, hv, ev, dv⟩ := dbg_error (x := x) (a := a) (m := D + 1) c
    (fun r j h1 h2 h3 => ⟨(ha r j h1 h2 (by omega)).2.1, (ha r j h1 h2 (by omega)).2.2.1,
      (ha r j h1 h2 (by omega)).2.2.2.1⟩) hxj D hmax D (Nat.lt_succ_self D)
  rw [ev]
  refine ⟨trivial, ?_⟩
  have hg : 0 < knotAt (fun i => (knots i).toReal) (k + 1)
      - knotAt (fun i => (knots i).toReal) k := by linarith
  have hpert := dbr_perturb (n := D + 1) (lo := -M) (hi := M)
    (x := fun j => ((x j).coords c).toReal) (a := fun r j => (a r j).toReal)
    (a' := fun r j => (t - knotAt (fun i => (knots i).toReal) (j + k - D))
      / (knotAt (fun i => (knots i).toReal) (j + k - D + D + 1 - r)
        - knotAt (fun i => (knots i).toReal) (j + k - D)))
    (δ := 2 * F.epsilon / (knotAt (fun i => (knots i).toReal) (k + 1)
          - knotAt (fun i => (knots i).toReal) k) + 7 * F.u)
    (by have := F.epsilon_pos; have := F.u_nonneg; positivity)
    (fun r j h1 h2 h3 => ⟨(ha r j h1 h2 (by omega)).2.2.1, (ha r j h1 h2 (by omega)).2.2.2.1⟩)
    (fun r j h1 h2 h3 => by
      have l1 := hm (j + k - D) k (by omega) (by omega)
      have l2 := hm (k + 1) (j + k - D + D + 1 - r) (by omega) (by omega)
      exact ⟨div_nonneg (by linarith) (by linarith), (div_le_one (by linarith)).2 (by linarith)⟩)
    (fun r j h1 h2 h3 => (ha r j h1 h2 (by omega)).2.2.2.2)
    (fun j hj => abs_le.1 (hxj j hj).2) D D (Nat.lt_succ_self D)
  rw [deBoor_correct hm hDk (by omega) ht1 ht2, Finset.sum_range_succ] at hpert
  have hlast : ((x D).coords c).toReal = 0 := by
    rw [hx]
    beta_reduce
    rw [if_neg (lt_irrefl _)]
    show (lit 0 : Fl F).toReal = 0
    rw [lit_zero, toReal_fin]
  have hval : splineCoord D (fun i => (knots i).toReal) (fun i => realPoint (ps i)) t c
        - coxDeBoor (knotAt fun i => (knots i).toReal) D k t * ((ps ⟨k, hkC⟩).coords c).toReal
      = ∑ m ∈ Finset.range D, ((x m).coords c).toReal
          * coxDeBoor (knotAt fun i => (knots i).toReal) D (k - D + m) t := by
    have hc : ∀ p : PointN (Fl F) n, coord (realPoint p) c = (p.coords c).toReal := by
      intro p
      rw [realPoint, coord_pn]
    rw [splineCoord]
    have e1 : ∑ i : Fin C, coxDeBoor (knotAt fun i => (knots i).toReal) D i.val t
          * coord (realPoint (ps i)) c
        = ∑ i ∈ Finset.range C, coxDeBoor (knotAt fun i => (knots i).toReal) D i t
          * ((extend ps i).coords c).toReal := by
      rw [← Fin.sum_univ_eq_sum_range (fun i => coxDeBoor (knotAt fun i => (knots i).toReal) D i t
        * ((extend ps i).coords c).toReal)]
      exact Finset.sum_congr rfl fun i _ => by rw [extend_lt ps i.2, hc]
    rw [e1, coxDeBoor_sum_span hm hDk hkC v2 ht1 ht2 (fun i => ((extend ps i).coords c).toReal),
      Finset.sum_range_succ, show k - D + D = k by omega, extend_lt ps hkC,
      mul_comm (((ps ⟨k, hkC⟩).coords c).toReal), add_sub_cancel_right]
    apply Finset.sum_congr rfl
    intro m hm'
    rw [hx]
    beta_reduce
    rw [if_pos (Finset.mem_range.1 hm'), hps, show m + k - D = k - D + m by
      have := Finset.mem_range.1 hm'; omega]
  rw [hlast, zero_mul, add_zero, ← hval, show M - -M = 2 * M by ring] at hpert
  rw [toReal_fin]
  have h5 := abs_sub_le v (dbr (fun r j => (a r j).toReal) (fun j => ((x j).coords c).toReal) D D)
    (splineCoord D (fun i => (knots i).toReal) (fun i => realPoint (ps i)) t c
        - coxDeBoor (knotAt fun i => (knots i).toReal) D k t * ((ps ⟨k, hkC⟩).coords c).toReal)
  exact h5.trans (add_le_add dv hpert)

/-- **C83**: for every floating-point format with unit roundoff `u ≤ 2⁻¹⁰`, machine epsilon `ε`
and underflow error `η ≤ ε u`, every degree `D`, every clamped spline with finite knots and control
points of magnitude at most `M`, and every float `t` in a non-empty span `k` of its knot vector,
`eval` returns a finite point.  In each coordinate it differs from the exact value that `C48`
gives for real arithmetic (the B-spline without the contribution of control point `k`) by at
most `G^D (M + D c) - M + 2 D M (2 ε / (length of the span) + 7 u)`, where `G = (1+u)²(1+u+η)` and
`c = 3(1+u)η`, provided that `G^D (M + D c)` does not exceed the largest finite value. -/
theorem C83_bspline_error {knots : Arr (Fl F) K} {ps : Arr (PointN (Fl F) n) C}
    {b : BSpline (Fl F) (PointN (Fl F) n) K C D}
    (h : BSpline.new knots ps = .ok b) (hk : FiniteKnots knots) (hf : ClampedFront D knots)
    (hb : ClampedBack D knots)
    (hspan : ∀ i j : Fin K, (knots j).toReal - (knots i).toReal ≤ F.max)
    (hu : F.u ≤ 1 / 1024) (he : F.eta ≤ F.epsilon * F.u)
    {t M : ℝ} (ht : t ∈ F.grid ∧ |t| ≤ F.max) {k : ℕ} (hDk : D ≤ k) (hkC : k < C)
    (ht1 : knotAt (fun i => (knots i).toReal) k ≤ t)
    (ht2 : t < knotAt (fun i => (knots i).toReal) (k + 1))
    (hfin : ∀ i, FinitePoint (ps i)) (hM : ∀ i c, |((ps i).coords c).toReal| ≤ M)
    (hmax : ((1 + F.u) ^ 2 * (1 + F.u + F.eta)) ^ D * (M + D * (3 * (1 + F.u) * F.eta)) ≤ F.max) :
    ∃ q, b.eval (fin t ht) = .ok q ∧ ∀ c : Fin n, (q.coords c).IsFinite ∧
      |(q.coords c).toReal
          - (splineCoord D (fun i => (knots i).toReal) (fun i => realPoint (ps i)) t c
            - coxDeBoor (knotAt fun i => (knots i).toReal) D k t
              * ((ps ⟨k, hkC⟩).coords c).toReal)|
        ≤ ((1 + F.u) ^ 2 * (1 + F.u + F.eta)) ^ D * (M + D * (3 * (1 + F.u) * F.eta)) - M
          + D * ((2 * F.epsilon / (knotAt (fun i => (knots i).toReal) (k + 1)
              - knotAt (fun i => (knots i).toReal) k) + 7 * F.u) * (2 * M)) := by
  obtain ⟨e1, e2, hCK, e3⟩ := eval_float_span h hk hf hb ht hDk hkC ht1 ht2
  exact bspline_error_of_span h hk hspan hu he ht hDk hkC ht1 ht2 e1 e2 e3 hfin hM hmax

/-- The conditions of `C83_bspline_error` on the format hold in binary64, with room for a cubic
spline with coordinates in [-1000, 1000]; the example after `C47_float_clamped` gives a spline
that meets the others. -/
example (cosI acosI : ℝ → ℝ) (powI : ℝ → ℝ → ℝ) : let F := binary64 cosI acosI powI
    F.u ≤ 1 / 1024 ∧ F.eta ≤ F.epsilon * F.u ∧
    ((1 + F.u) ^ 2 * (1 + F.u + F.eta)) ^ 3 * (1000 + (3 : ℕ) * (3 * (1 + F.u) * F.eta))
      ≤ F.max := by
  intro F
  have hu : F.u ≤ 1 / 1024 := by
    show (2 : ℝ) ^ (-(53 : ℕ) : ℤ) ≤ _
    norm_num
  have hu0 := F.u_nonneg
  have he0 := F.eta_nonneg
  have he : F.eta ≤ 2 ^ (-105 : ℤ) := by
    have e1 : F.eta = (2 : ℝ) ^ ((-1074 : ℤ) - 1) := rfl
    rw [e1]
    exact zpow_le_zpow_right₀ (by norm_num) (by norm_num)
  have he' : F.eta ≤ 1 / 1000 := he.trans (by norm_num)
  refine ⟨hu, ?_, ?_⟩
  · refine he.trans (le_of_eq ?_)
    have e1 : F.epsilon = (2 : ℝ) ^ (1 - ((53 : ℕ) : ℤ)) := rfl
    have e2 : F.u = (2 : ℝ) ^ (-(53 : ℕ) : ℤ) := rfl
    rw [e1, e2]
    norm_num
  · refine le_trans ?_ F.max_ge
    have g1 : (1 + F.u) ^ 2 * (1 + F.u + F.eta) ≤ (1 + 1 / 1000) ^ 2 * (1 + 2 / 1000) :=
      mul_le_mul (pow_le_pow_left₀ (by linarith) (by linarith) 2) (by linarith) (by linarith)
        (by norm_num)
    calc ((1 + F.u) ^ 2 * (1 + F.u + F.eta)) ^ 3 * (1000 + (3 : ℕ) * (3 * (1 + F.u) * F.eta))
        ≤ ((1 + 1 / 1000) ^ 2 * (1 + 2 / 1000)) ^ 3
          * (1000 + (3 : ℕ) * (3 * (1 + 1 / 1000) * (1 / 1000))) := by
          have hu' : F.u ≤ 1 / 1000 := hu.trans (by norm_num)
          clear_value F
          gcongr
      _ ≤ 1024 := by norm_num

end Stroke
