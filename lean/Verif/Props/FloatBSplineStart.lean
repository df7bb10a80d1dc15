import Verif.Props.FloatBSplineNear
import Verif.Props.FloatEndpoints

/-!
# The start of a clamped B-spline in floating point (C49)
-/

namespace Stroke

open Fl

variable {F : FloatFormat} {K C D n : ℕ}

/-- With all interpolation factors 0 de Boor's algorithm shifts the first point through. -/
theorem dbg_litZero {x : ℕ → PointN (Fl F) n} (hx : ∀ j, FinitePoint (x j)) (r j : ℕ) (hrj : r ≤ j) :
    dbg (fun _ _ => (lit 0 : Fl F)) x r j = x (j - r) := by
  induction r generalizing j with
  | zero => rfl
  | succ r ih =>
    rw [dbg, if_pos hrj, ih (j - 1) (by omega), ih j (by omega), show j - 1 - r = j - (r + 1) by omega]
    apply pointN_ext
    intro i
    have h10 : (lit 1 : Fl F) - lit 0 = lit 1 := by
      rw [lit_zero, lit_one, fin_sub, sub_zero, F.round_of_mem F.one_ok]
    simp only [coords_add, coords_mul, h10, mul_litOne (hx _ i), mul_litZero (hx _ i),
      add_litZero (hx _ i)]

/-- **C49** (floats), the start in every case: for every spline with finite knots and finite control
points that is clamped at the front (up to the machine epsilon, as the constructor computes it), let
`k` be the last index at which the knot vector still has the value of `knots[D]`, the start of the
domain. Evaluating there returns, without any rounding error, control point `k - D` (the first one
exactly if `k = D`), or the origin for degree 0. -/
theorem C49_float_start {knots : Arr (Fl F) K} {ps : Arr (PointN (Fl F) n) C}
    {b : BSpline (Fl F) (PointN (Fl F) n) K C D} (h : BSpline.new knots ps = .ok b)
    (hk : FiniteKnots knots) (hf : NearFront D knots) (hps : ∀ i, FinitePoint (ps i))
    (hD : D < K) {k : ℕ} (hDk : D ≤ k) (hkC : k < C)
    (h1 : knotAt (fun i => (knots i).toReal) k = knotAt (fun i => (knots i).toReal) D)
    (h2 : knotAt (fun i => (knots i).toReal) D < knotAt (fun i => (knots i).toReal) (k + 1)) :
    (∃ hi, b.knotDomain = some (knots ⟨D, hD⟩, hi)) ∧
    (1 ≤ D → b.eval (knots ⟨D, hD⟩) = .ok (ps ⟨k - D, by omega⟩)) ∧
    (D = 0 → b.eval (knots ⟨D, hD⟩) = .ok Point.default) := by
  obtain ⟨v1, v2, v3, hbeq⟩ := (new_generic _ _ _).1 h
  have hkn : b.knots = knots := by rw [hbeq]
  have hpb : b.control_points = ps := by rw [hbeq]
  have hmk := knots_mono h hk
  have hdom : ∃ hi, b.knotDomain = some (knots ⟨D, hD⟩, hi) := by
    by_cases hb : NearBack D knots
    · exact ⟨_, domain_both h hf hb hD (by omega)⟩
    · exact ⟨_, domain_front h hf hb hD (by omega)⟩
  obtain ⟨oD, eD⟩ := fin_knot hk hD
  obtain ⟨e1, e2, e3⟩ := span_near h hk (Or.inl hf) oD hDk hkC h1.le h2 (by omega)
  have halpha : ∀ r j, 1 ≤ r → r ≤ j → j ≤ D →
      BSpline.alpha (D := D) b.knots (fin (knotAt (fun i => (knots i).toReal) D) oD) k r j
        = .ok (lit 0) := by
    intro r j hr1 hr hj
    unfold BSpline.alpha
    rw [hkn, usub_le (show D ≤ j + k by omega), usub_le (show r ≤ j + 1 + k by omega)]
    simp only [Option.bind_eq_bind, Option.bind_some]
    rw [Arr.get?_lt _ (show j + k - D < K by omega), Arr.get?_lt _ (show j + 1 + k - r < K by omega)]
    simp only [Outcome.ofOption_some, Outcome.ok_bind]
    have hlt : Scalar.lt (fin (knotAt (fun i => (knots i).toReal) D) oD
        - knots ⟨j + k - D, by omega⟩) (Scalar.epsilon : Fl F) = true := by
      obtain ⟨oi, ei⟩ := fin_knot hk (show j + k - D < K by omega)
      obtain ⟨o0, e0⟩ := fin_knot hk (show 0 < K by omega)
      have hn := hf ⟨D, hD⟩ ⟨0, by omega⟩ le_rfl rfl
      rw [eD, e0, fin_sub] at hn
      rw [ei, fin_sub]
      have a1 : knotAt (fun i => (knots i).toReal) D - knotAt (fun i => (knots i).toReal) (j + k - D)
          ≤ knotAt (fun i => (knots i).toReal) D - knotAt (fun i => (knots i).toReal) 0 := by
        have := hmk 0 (j + k - D) (by omega) (by omega)
        linarith
      have a2 : 0 ≤ knotAt (fun i => (knots i).toReal) D
          - knotAt (fun i => (knots i).toReal) (j + k - D) := by
        have := hmk (j + k - D) k (by omega) (by omega)
        linarith
      have m1 := F.rnd_mono a1
      have m2 : 0 ≤ F.rnd (knotAt (fun i => (knots i).toReal) D
          - knotAt (fun i => (knots i).toReal) (j + k - D)) := by
        have := F.rnd_mono a2
        rwa [F.rnd_of_mem 0 F.zero_ok.1] at this
      unfold FloatFormat.round at hn ⊢
      by_cases hmax : |F.rnd (knotAt (fun i => (knots i).toReal) D
          - knotAt (fun i => (knots i).toReal) 0)| ≤ F.max
      · rw [dif_pos hmax] at hn
        obtain ⟨oa, ea⟩ := abs_fin' (F := F) (ha := ⟨F.rnd_mem (knotAt (fun i => (knots i).toReal) D
          - knotAt (fun i => (knots i).toReal) 0), hmax⟩)
        rw [ea, epsilon_eq, lt_fin] at hn
        rw [abs_of_nonneg (m2.trans m1)] at hn hmax
        rw [dif_pos (by rw [abs_of_nonneg m2]; exact m1.trans hmax), epsilon_eq, lt_fin]
        exact m1.trans_lt hn
      · exfalso
        rw [dif_neg hmax, epsilon_eq] at hn
        simp [Scalar.lt, Scalar.abs, Fl.lt, Fl.abs, val?] at hn
    rw [hlt]
    simp only [if_true]
    have hnan : (Scalar.isNaN (lit 0 : Fl F)) = false := by rw [lit_zero]; rfl
    rw [hnan]
    rfl
  have hev : b.eval (knots ⟨D, hD⟩) = .ok (dbg (fun _ _ => (lit 0 : Fl F))
      (fun j => if j < D then extend b.control_points (j + k - D) else Point.default) D D) := by
    rw [eD, e1]
    exact deBoorIterative_gen b v2 _ k e3 e2 hDk hkC.le halpha
  have hfin : ∀ j, FinitePoint (if j < D then extend b.control_points (j + k - D)
      else (Point.default : PointN (Fl F) n)) := by
    intro j i
    split_ifs
    · rw [hpb]
      unfold extend
      split_ifs
      · exact hps _ i
      · exact isFinite_zero
    · exact isFinite_zero
  rw [dbg_litZero hfin D D le_rfl, Nat.sub_self] at hev
  refine ⟨hdom, fun h0 => ?_, fun h0 => ?_⟩
  · rw [hev, if_pos (by omega), hpb, show 0 + k - D = k - D by omega, extend_lt _ (by omega)]
  · rw [hev, if_neg (by omega)]

/-- `C49_float_start` for the knots 0 0 0 1 2 3 4 of degree 2, clamped at the front only, and four
control points with the coordinates 3: `eval` at the start of the domain is the first of them. -/
example : ∃ (knots : Arr (Fl F) 7) (b : BSpline (Fl F) (PointN (Fl F) 2) 7 4 2),
    BSpline.new knots (fun _ => PointN.new fun _ => lit 3) = .ok b ∧
    b.eval (knots 2) = .ok (PointN.new fun _ => lit 3) := by
  obtain ⟨k₁, k₂, k₃, k₄, ⟨-, f2, -, -⟩, -, ⟨nf2, -⟩, -, -, ⟨-, v2, -, -⟩, hnew⟩ :=
    float_kinds_values (F := F)
  obtain ⟨⟨b, h⟩, -⟩ := hnew k₂ (by simp)
  have h3 : (lit 3 : Fl F).IsFinite := by
    have := isFinite_lit (F := F) 3 (by norm_num)
    exact_mod_cast this
  have e2 : knotAt (fun i => (k₂ i).toReal) 2 = 0 := by
    rw [knotAt_lt _ (by norm_num), v2]; simp
  have e3 : knotAt (fun i => (k₂ i).toReal) (2 + 1) = 1 := by
    rw [knotAt_lt _ (by norm_num), v2]; simp
  exact ⟨k₂, b, h, (C49_float_start h f2 nf2 (fun _ _ => h3) (by norm_num) (k := 2) le_rfl (by norm_num)
    rfl (by rw [e2, e3]; norm_num)).2.1 (by norm_num)⟩

end Stroke
