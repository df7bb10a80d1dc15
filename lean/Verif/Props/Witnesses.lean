import Verif.Props.BSplineCalculus
import Verif.Props.BSplineJoints
import Verif.Props.BSplineSuccess
import Verif.Props.Distance
import Verif.Props.FloatArcLength
import Verif.Props.FloatLine
import Verif.Props.FloatBoxContains
import Verif.Props.FloatSplit

/-!
Concrete cases: each `example` applies theorems of the other files to one particular curve, so that
it can be seen that their hypotheses are met together by something that is not trivial.
-/
namespace Stroke
open Scalar Fl

/-! ### A clamped spline of degree 1 with an interior knot -/

theorem valid_00122 : ValidSpline 3 1 (![0, 0, 1, 2, 2] : Fin 5 → ℝ) := by
  refine ⟨by norm_num, by norm_num, ?_⟩
  intro i j
  fin_cases i <;> fin_cases j <;> simp

theorem front_00122 : FrontClamped 1 (![0, 0, 1, 2, 2] : Fin 5 → ℝ) :=
  (frontClamped_iff valid_00122).2 (by simp [knotAt, eps_pos])

theorem back_00122 : BackClamped 1 (![0, 0, 1, 2, 2] : Fin 5 → ℝ) :=
  (backClamped_iff valid_00122).2 (by simp [knotAt, eps_pos])

/-- `C44_stores`, `C45_partial`, `C46_outside`, `C47_partial`, `C47_clamped`, `C47_no_error`,
`C49_end`, `C49_start_partial` and `C53_actual`, for the control points 3, 5, 4. -/
example : ∃ b : BSpline ℝ (PointN ℝ 1) 5 3 1,
    BSpline.new ![0, 0, 1, 2, 2] ![p1 3, p1 5, p1 4] = .ok b ∧
    b.knotsIter = List.ofFn ![0, 0, 1, 2, 2] ∧ b.controlPoints = List.ofFn ![p1 3, p1 5, p1 4] ∧
    b.knotDomain = some (0, 2) ∧
    (∀ t : ℝ, t < 0 ∨ 2 < t → b.eval t = .err .KnotDomainViolation) ∧
    (∃ q, b.eval (3 / 2 : ℝ) = .ok q) ∧
    b.eval (0 : ℝ) = .ok (p1 3) ∧ b.eval (2 : ℝ) = .ok (p1 4) ∧
    ∃ L, b.arclen 10 = some L := by
  obtain ⟨b, hb⟩ := (C43_accepts (D := 1) _ ![p1 3, p1 5, p1 4]).2 valid_00122
  have hd : b.knotDomain = some ((0 : ℝ), 2) := by
    rw [C45_partial hb ⟨fun _ => back_00122, fun _ => front_00122⟩]
    simp [knotAt]
  obtain ⟨hk, hp⟩ := C44_stores hb
  obtain ⟨lo, hi, hd', _, hout⟩ := C46_outside hb
  rw [hd] at hd'
  obtain ⟨rfl, rfl⟩ := Prod.mk.inj (Option.some.inj hd')
  obtain ⟨_, h0⟩ := C49_start_partial hb front_00122 back_00122 le_rfl (by simp [knotAt]) hd
  obtain ⟨_, h1⟩ := C49_end hb front_00122 back_00122 hd
  obtain ⟨_, _, _, hL⟩ := C53_actual hb front_00122 back_00122 hd 10
  exact ⟨b, hb, hk, hp, hd, hout,
    C47_clamped hb front_00122 back_00122 hd (by norm_num) (by norm_num), h0, h1, _, hL⟩

/-- `C48_partial` and `C48_near_knots` in the first span of that spline: the point for t = 1/2 is
half of the first control point. -/
example : ∃ b : BSpline ℝ (PointN ℝ 1) 5 3 1,
    BSpline.new ![0, 0, 1, 2, 2] ![p1 3, p1 5, p1 4] = .ok b ∧
    ∃ q, b.eval (1 / 2 : ℝ) = .ok q ∧
      coord q 0 = splineCoord 1 ![0, 0, 1, 2, 2] ![p1 3, p1 5, p1 4] (1 / 2) 0
        - coxDeBoor (knotAt ![0, 0, 1, 2, 2]) 1 1 (1 / 2) * 5 := by
  obtain ⟨b, hb⟩ := (C43_accepts (D := 1) _ ![p1 3, p1 5, p1 4]).2 valid_00122
  refine ⟨b, hb, ?_⟩
  obtain ⟨q, hq, h⟩ := C48_partial hb (Or.inl front_00122) (t := 1 / 2) (k := 1) le_rfl
    (by norm_num) (by simp [knotAt]) (by norm_num [knotAt]) (by
      have : (eps : ℝ) ≤ 1 / 2 := by
        unfold eps; norm_num
      intro i hi
      fin_cases i <;> first | (exfalso; norm_num at hi; done) | (norm_num; norm_num at this; linarith))
  obtain ⟨q', hq', _⟩ := C48_near_knots hb (Or.inl front_00122) (t := 1 / 2) (k := 1) le_rfl
    (by norm_num) (by simp [knotAt]) (by norm_num [knotAt])
  refine ⟨q, hq, ?_⟩
  rw [h 0]
  simp

/-! ### An unclamped spline of degree 1 -/

/-- `C47_unclamped_partial`, `C47_no_error` and `C47_unclamped_left`, for the knots 0, ..., 4. -/
example (ps : Arr (PointN ℝ 1) 3) : ∃ b : BSpline ℝ (PointN ℝ 1) 5 3 1,
    BSpline.new (uniformKnots 5) ps = .ok b ∧ b.knotDomain = some (1, 3) ∧
    (∀ t : ℝ, 1 ≤ t → t ≤ 3 → ∃ q, b.eval t = .ok q) := by
  have v : ValidSpline 3 1 (uniformKnots 5) := valid_uniform (by norm_num) (by norm_num)
  have nf : ¬ FrontClamped 1 (uniformKnots 5) :=
    not_front_uniform (C := 3) (by norm_num) (by norm_num) le_rfl
  have nb : ¬ BackClamped 1 (uniformKnots 5) :=
    not_back_uniform (C := 3) (by norm_num) (by norm_num) le_rfl
  obtain ⟨b, hb⟩ := (C43_accepts (D := 1) _ ps).2 v
  have hd : b.knotDomain = some ((1 : ℝ), 3) := by
    rw [C45_partial hb ⟨fun h => absurd h nf, fun h => absurd h nb⟩,
      knotAt_uniform (by norm_num), knotAt_uniform (by norm_num)]
    norm_num
  refine ⟨b, hb, hd, fun t h1 h2 => ?_⟩
  have _ := C47_no_error hb hd h1 h2
  have _ := C47_unclamped_left hb nf nb (t := 5 / 4)
    (by rw [knotAt_uniform (by norm_num)]; norm_num)
    (by rw [knotAt_uniform (by norm_num)]; norm_num)
    (by rw [knotAt_uniform (by norm_num)]; norm_num)
  exact C47_unclamped_partial hb nf nb hd h1 h2

/-! ### Distances of exact curves -/

/-- `C16_partial` for a parabola and a point above it: the consecutive control points are at most 2
apart, so the result is at most 1/16 too large. -/
example : ∃ r, (⟨pt2 (-1) 0, pt2 0 1, pt2 1 0⟩ : QuadraticBezier (PointN ℝ 2)).distanceToPoint
      (pt2 0 1) = some r ∧
    ∀ t : ℝ, 0 ≤ t → t ≤ 1 →
      r ≤ pdist ((⟨pt2 (-1) 0, pt2 0 1, pt2 1 0⟩ : QuadraticBezier (PointN ℝ 2)).eval t) (pt2 0 1)
        + 1 / 16 := by
  obtain ⟨r, hr, _, h⟩ := C16_partial ⟨pt2 (-1) 0, pt2 0 1, pt2 1 0⟩ (pt2 0 1) 2
    (by rw [pdist_pt2, Real.sqrt_le_left (by norm_num)]; norm_num)
    (by rw [pdist_pt2, Real.sqrt_le_left (by norm_num)]; norm_num)
  exact ⟨r, hr, fun t h0 h1 => (h t h0 h1).trans (by norm_num)⟩

/-- `C27_partial` for a cubic arc. -/
example : ∃ r, (⟨pt2 0 0, pt2 0 1, pt2 1 1, pt2 1 0⟩ : CubicBezier (PointN ℝ 2)).distanceToPoint
      (pt2 0 2) = some r ∧
    ∀ t : ℝ, 0 ≤ t → t ≤ 1 →
      r ≤ pdist ((⟨pt2 0 0, pt2 0 1, pt2 1 1, pt2 1 0⟩ : CubicBezier (PointN ℝ 2)).eval t) (pt2 0 2)
        + 3 / 64 := by
  obtain ⟨r, hr, _, h⟩ := C27_partial ⟨pt2 0 0, pt2 0 1, pt2 1 1, pt2 1 0⟩ (pt2 0 2) 1
    (by rw [pdist_pt2, Real.sqrt_le_left (by norm_num)]; norm_num)
    (by rw [pdist_pt2, Real.sqrt_le_left (by norm_num)]; norm_num)
    (by rw [pdist_pt2, Real.sqrt_le_left (by norm_num)]; norm_num)
  exact ⟨r, hr, fun t h0 h1 => (h t h0 h1).trans (by norm_num)⟩

/-- `C40_partial` for a curve of degree 2. -/
example : ∃ r, (⟨![pt2 (-1) 0, pt2 0 1, pt2 1 0]⟩ : Bezier (PointN ℝ 2) 3).distanceToPoint
      (pt2 0 1) = some r ∧
    ∀ t x, 0 ≤ t → t ≤ 1 →
      (⟨![pt2 (-1) 0, pt2 0 1, pt2 1 0]⟩ : Bezier (PointN ℝ 2) 3).eval (t : ℝ) = some x →
      r ≤ pdist x (pt2 0 1) + 1 / 16 := by
  obtain ⟨f, hf, r, hr, _, h⟩ := C40_partial
    (⟨![pt2 (-1) 0, pt2 0 1, pt2 1 0]⟩ : Bezier (PointN ℝ 2) 3) (by norm_num) (pt2 0 1) 2 (by
      intro k hk
      have : k = 0 ∨ k = 1 := by omega
      rcases this with rfl | rfl
      · show pdist (pt2 (-1) 0) (pt2 0 1) ≤ 2
        rw [pdist_pt2, Real.sqrt_le_left (by norm_num)]; norm_num
      · show pdist (pt2 0 1) (pt2 1 0) ≤ 2
        rw [pdist_pt2, Real.sqrt_le_left (by norm_num)]; norm_num)
  refine ⟨r, hr, fun t x h0 h1 hx => ?_⟩
  rw [hf t] at hx
  rw [← Option.some.inj hx]
  exact (h t h0 h1).trans (by norm_num)

/-! ### Curves with small integer coordinates in double precision -/

section Binary64
variable (cosI acosI : ℝ → ℝ) (powI : ℝ → ℝ → ℝ)

local notation "F" => binary64 cosI acosI powI
local notation "pt" => smallPoint cosI acosI powI

/-- The parabola with the control points (0,0), (2,1), (4,0). -/
noncomputable def smallQuad : QuadraticBezier (PointN (Fl F) 2) := ⟨pt 0 0, pt 2 1, pt 4 0⟩

/-- The cubic with the control points (0,0), (0,4), (4,4), (4,0). -/
noncomputable def smallCubic : CubicBezier (PointN (Fl F) 2) := ⟨pt 0 0, pt 0 4, pt 4 4, pt 4 0⟩

/-- The same cubic as a curve of any degree. -/
noncomputable def smallBezier : Bezier (PointN (Fl F) 2) 4 :=
  ⟨![pt 0 0, pt 0 4, pt 4 4, pt 4 0]⟩

theorem smallBezier_bounded (k : Fin 4) :
    BoundedBy 10 ((smallBezier cosI acosI powI).control_points k) := by
  fin_cases k <;> exact smallPoint_bounded _ _ _ _ _

theorem small_dist (a b c d : Fin 11) : pdist (pt a b).real (pt c d).real ≤ 30 :=
  (pdist_le_bounded (by norm_num) (smallPoint_bounded _ _ _ _ _)
    (smallPoint_bounded _ _ _ _ _)).trans (by norm_num)

theorem smallBezier_dist (k : ℕ) (hk : k + 1 < 4) :
    pdist ((smallBezier cosI acosI powI).control_points ⟨k, by omega⟩).real
      ((smallBezier cosI acosI powI).control_points ⟨k + 1, hk⟩).real ≤ 30 := by
  have : k = 0 ∨ k = 1 ∨ k = 2 := by omega
  rcases this with rfl | rfl | rfl <;> exact small_dist _ _ _ _ _ _ _

theorem b64_u : (F).u = 2 ^ (-(53 : ℕ) : ℤ) := rfl

theorem b64_small : (F).u ≤ 1 / 10 ^ 15 ∧ (F).eta ≤ 1 / 10 ^ 15 ∧ (10 : ℝ) ^ 60 ≤ (F).max :=
  ⟨by rw [b64_u]; norm_num, (binary64_eta cosI acosI powI).trans (by norm_num),
    binary64_max cosI acosI powI⟩

/-- The error of a coordinate of `smallBezier` is below 10⁻¹². -/
theorem smallBezier_error : ((1 + (F).u) ^ 2 * (1 + (F).u + (F).eta)) ^ (4 - 1)
    * (10 + (4 - 1 : ℕ) * (3 * (1 + (F).u) * (F).eta)) ≤ 10 + 1 / 10 ^ 12 := by
  obtain ⟨hu, he, _⟩ := b64_small cosI acosI powI
  have u0 := (F).u_nonneg
  have e0 := (F).eta_nonneg
  calc _ ≤ ((1 + 1 / 10 ^ 15 : ℝ) ^ 2 * (1 + 1 / 10 ^ 15 + 1 / 10 ^ 15)) ^ (4 - 1)
        * (10 + (4 - 1 : ℕ) * (3 * (1 + 1 / 10 ^ 15) * (1 / 10 ^ 15))) := by gcongr
    _ ≤ _ := by norm_num

theorem square_fits {B : ℝ} (h0 : 0 ≤ B) (hB : B ≤ 1000) :
    (1 + (F).u) ^ (2 + 1) * ((2 : ℕ) * B ^ 2) + 2 * (2 : ℕ) * (1 + (F).u) ^ 2 * (F).eta
      ≤ (F).max := by
  obtain ⟨hu, he, hm⟩ := b64_small cosI acosI powI
  have u0 := (F).u_nonneg
  have e0 := (F).eta_nonneg
  refine le_trans ?_ hm
  calc _ ≤ (1 + 1 / 10 ^ 15 : ℝ) ^ (2 + 1) * ((2 : ℕ) * 1000 ^ 2)
        + 2 * (2 : ℕ) * (1 + 1 / 10 ^ 15) ^ 2 * (1 / 10 ^ 15) := by gcongr
    _ ≤ _ := by norm_num

theorem arcStep_fits {E V : ℝ} (hE0 : 0 ≤ E) (hE : E ≤ 1) (hV0 : 0 ≤ V) (hV : V ≤ 1000) :
    arcStep F 2 10 E V ≤ 10 ^ 6 := by
  obtain ⟨hu, he, _⟩ := b64_small cosI acosI powI
  have u0 := (F).u_nonneg
  have e0 := (F).eta_nonneg
  have ht := distTiny_two (b64_u cosI acosI powI) (binary64_eta cosI acosI powI)
  have hs : Real.sqrt (2 : ℕ) ≤ 2 := by
    rw [Real.sqrt_le_left (by norm_num)]; norm_num
  unfold arcStep
  calc _ ≤ (1 + 1 / 10 ^ 15 : ℝ) ^ (2 + 3)
          * (2 * (2 * 1 + 1000 * (4 * (1 / 10 ^ 15) + 4 * (1 / 10 ^ 15))))
        + ((1 + 1 / 10 ^ 15) ^ (2 + 3)) * (1000 / (10 : ℕ)) + 1 / 10 ^ 26
        + 1 / 10 ^ 15 * 1000 + 1 / 10 ^ 15 := by
        have h1 : ((1 + (F).u) ^ (2 + 3) - 1) * (V / (10 : ℕ))
            ≤ ((1 + 1 / 10 ^ 15) ^ (2 + 3)) * (1000 / (10 : ℕ)) := by
          have : (1 + (F).u) ^ (2 + 3) ≤ (1 + 1 / 10 ^ 15 : ℝ) ^ (2 + 3) := by gcongr
          exact mul_le_mul (by linarith) (by gcongr) (by positivity) (by positivity)
        gcongr
    _ ≤ _ := by norm_num

theorem sum_fits {E V : ℝ} (hE0 : 0 ≤ E) (hE : E ≤ 1) (hV0 : 0 ≤ V) (hV : V ≤ 1000) :
    V + (1 + (F).u) ^ 10 * ((10 : ℕ) * arcStep F 2 10 E V) ≤ (F).max := by
  obtain ⟨hu, _, hm⟩ := b64_small cosI acosI powI
  have u0 := (F).u_nonneg
  have h := arcStep_fits cosI acosI powI hE0 hE hV0 hV
  have h0 : 0 ≤ arcStep F 2 10 E V := by
    have g5 := one_le_g («F» := binary64 cosI acosI powI) (2 + 3)
    have := distTiny_nonneg F 2
    have e0 := (F).eta_nonneg
    have : 0 ≤ ((1 + (F).u) ^ (2 + 3) - 1) * (V / (10 : ℕ)) :=
      mul_nonneg (by linarith) (by positivity)
    unfold arcStep
    positivity
  refine le_trans ?_ hm
  calc _ ≤ (1000 : ℝ) + (1 + 1 / 10 ^ 15) ^ 10 * ((10 : ℕ) * 10 ^ 6) := by gcongr
    _ ≤ _ := by norm_num

/-- `C88_quadratic` and `C98_quadratic`: distances and arc lengths of the parabola. -/
example : (∃ r, (smallQuad cosI acosI powI).distanceToPoint (pt 2 3) = some r ∧ r.IsFinite) ∧
    (∃ r L, (smallQuad cosI acosI powI).arclen 10 = some r ∧
      (smallQuad cosI acosI powI).real.arclen 10 = some L ∧ r.IsFinite) := by
  obtain ⟨hu, he, hm⟩ := b64_small cosI acosI powI
  have bd := smallPoint_bounded cosI acosI powI
  have hsq : (0 : ℝ) ≤ 5 * 10 + 4 := by norm_num
  constructor
  · obtain ⟨r, hr, rf, _⟩ := C88_quadratic (M := 10) (D := 30)
      (binary64_samples cosI acosI powI)
      (hu.trans (by norm_num)) (he.trans (by norm_num)) (smallQuad cosI acosI powI) (pt 2 3)
      (by norm_num) (bd _ _) (bd _ _) (bd _ _) (bd _ _) (small_dist _ _ _ _ _ _ _)
      (small_dist _ _ _ _ _ _ _) (le_trans (by norm_num) hm)
      (square_fits cosI acosI powI hsq (by norm_num))
    exact ⟨r, hr, rf⟩
  · have uE : 13 * (F).u * 10 + 9 * (F).eta ≤ 1 := by linarith
    obtain ⟨r, L, hr, hL, rf, _⟩ := C98_quadratic (M := 10) (D := 30) (k := 10) (by norm_num)
      (binary64_steps cosI acosI powI (by norm_num))
      (hu.trans (by norm_num)) (he.trans (by norm_num)) (smallQuad cosI acosI powI)
      (by norm_num) (bd _ _) (bd _ _) (bd _ _) (small_dist _ _ _ _ _ _ _)
      (small_dist _ _ _ _ _ _ _) (le_trans (by norm_num) hm)
      (square_fits cosI acosI powI hsq (by norm_num))
      (sum_fits cosI acosI powI (by have := (F).u_nonneg; have := (F).eta_nonneg; positivity) uE
        (by norm_num) (by norm_num))
    exact ⟨r, L, hr, hL, rf⟩

/-- `C86_bezier`, `C88_bezier` and `C98_bezier`: splits, distances and arc lengths of the curve of
any degree. -/
example : (∃ h l r, (smallBezier cosI acosI powI).split (fin 1 h) = some (l, r) ∧
      ∀ i s, 0 ≤ s → s ≤ 1 →
        |l.exact i s - (smallBezier cosI acosI powI).exact i (1 * s)| ≤ 1 / 10 ^ 12) ∧
    (∃ r, (smallBezier cosI acosI powI).distanceToPoint (pt 2 3) = some r ∧ r.IsFinite) ∧
    (∃ r L, (smallBezier cosI acosI powI).arclen 10 = some r ∧
      (smallBezier cosI acosI powI).real.arclen 10 = some L ∧ r.IsFinite) := by
  obtain ⟨hu, he, hm⟩ := b64_small cosI acosI powI
  have u0 := (F).u_nonneg
  have e0 := (F).eta_nonneg
  have bd := smallPoint_bounded cosI acosI powI
  have bb := smallBezier_bounded cosI acosI powI
  have hE := smallBezier_error cosI acosI powI
  have hE0 : (10 : ℝ) ≤ ((1 + (F).u) ^ 2 * (1 + (F).u + (F).eta)) ^ (4 - 1)
      * (10 + (4 - 1 : ℕ) * (3 * (1 + (F).u) * (F).eta)) := by
    calc (10 : ℝ) = ((1 + 0) ^ 2 * (1 + 0 + 0)) ^ (4 - 1) * (10 + (4 - 1 : ℕ) * (3 * (1 + 0) * 0)) :=
          by norm_num
      _ ≤ _ := by gcongr
  have hn : (1 : ℝ) / 10 ^ 12 ≤ 1 := by norm_num
  generalize hX : ((1 + (F).u) ^ 2 * (1 + (F).u + (F).eta)) ^ (4 - 1)
      * (10 + (4 - 1 : ℕ) * (3 * (1 + (F).u) * (F).eta)) = X at hE hE0
  refine ⟨?_, ?_, ?_⟩
  · have h1 : (1 : ℝ) ∈ (F).grid ∧ |(1 : ℝ)| ≤ (F).max := by
      have := (F).int_ok 1 (by norm_num)
      simpa using this
    obtain ⟨l, r, hs, _, h⟩ := C86_bezier (by norm_num) (smallBezier cosI acosI powI) (M := 10) h1
      (by norm_num) le_rfl bb (by norm_num) (by rw [hX]; linarith)
    rw [hX] at h
    exact ⟨h1, l, r, hs, fun i s s0 s1 => ((h i s s0 s1).1).trans (by linarith)⟩
  · obtain ⟨r, hr, rf, _⟩ := C88_bezier (M := 10) (D := 30) (E := X - 10) (by norm_num)
      (binary64_samples cosI acosI powI)
      (hu.trans (by norm_num)) (he.trans (by norm_num)) (smallBezier cosI acosI powI) (pt 2 3)
      (by norm_num) bb (bd _ _) (smallBezier_dist cosI acosI powI) (by rw [hX])
      (by linarith) (square_fits cosI acosI powI (by linarith) (by linarith))
    exact ⟨r, hr, rf⟩
  · obtain ⟨r, L, hr, hL, rf, _⟩ := C98_bezier (M := 10) (D := 30) (E := X - 10) (k := 10)
      (by norm_num) (by norm_num) (binary64_steps cosI acosI powI (by norm_num))
      (hu.trans (by norm_num)) (he.trans (by norm_num)) (smallBezier cosI acosI powI)
      (by norm_num) (by norm_num) bb (smallBezier_dist cosI acosI powI) (by rw [hX])
      (by linarith) (square_fits cosI acosI powI (by linarith) (by linarith))
      (sum_fits cosI acosI powI (by linarith) (by linarith) (by norm_num) (by norm_num))
    exact ⟨r, L, hr, hL, rf⟩

/-- `C84_cubic_partial`: the box of the cubic has finite ends. -/
example : ∃ box : Arr (Fl F × Fl F) 2, (smallCubic cosI acosI powI).boundingBox = some box ∧
    ∀ i, (box i).1.IsFinite ∧ (box i).2.IsFinite := by
  obtain ⟨hu, he, hm⟩ := b64_small cosI acosI powI
  have bd := smallPoint_bounded cosI acosI powI
  obtain ⟨box, hb, h⟩ := C84_cubic_partial (smallCubic cosI acosI powI) (M := 10)
    (hu.trans (by norm_num)) (he.trans (by norm_num)) (bd _ _) (bd _ _) (bd _ _) (bd _ _)
    (le_trans (by norm_num) hm) (by norm_num)
  exact ⟨box, hb, fun i => (h i).1⟩

end Binary64

end Stroke
