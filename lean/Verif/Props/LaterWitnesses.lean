import Verif.Props.Witnesses
import Verif.Props.BSplineLengthPanic
import Verif.Props.BSplineEnds
import Verif.Props.ConstantSpeed
import Verif.Props.DistanceBounds
import Verif.Props.DistanceMoved
import Verif.Props.ControlPolygon
import Verif.Props.Workarounds
import Verif.Props.MovedPoints
import Verif.Props.AnyMaps

/-!
More concrete cases for theorems that share their example with others in their own file: each
`example` applies theorems to one particular curve or spline.
-/
namespace Stroke
open Scalar

/-! ### Splines -/

/-- `C132_partial` and `C49_start_exact`: the clamped spline of degree 1 over 0, 0, 1, 2, 2. -/
example : ∃ b : BSpline ℝ (PointN ℝ 1) 5 3 1,
    BSpline.new ![0, 0, 1, 2, 2] ![p1 3, p1 5, p1 4] = .ok b ∧
    (∀ n, ∃ r, b.arclen n = some r) ∧ b.eval (0 : ℝ) = .ok (p1 3) := by
  obtain ⟨b, hb⟩ := (C43_accepts (D := 1) _ ![p1 3, p1 5, p1 4]).2 valid_00122
  have hd : b.knotDomain = some ((0 : ℝ), 2) := by
    rw [C45_partial hb ⟨fun _ => back_00122, fun _ => front_00122⟩]
    simp [knotAt]
  refine ⟨b, hb, C132_partial hb front_00122 back_00122, ?_⟩
  exact ((C49_start_exact hb front_00122 back_00122 hd).1 1 (by norm_num) le_rfl (by simp [knotAt])
    (by simp [knotAt])).1 le_rfl

theorem valid_front2 : ValidSpline 4 2 (![0, 0, 0, 1, 2, 3, 4] : Fin 7 → ℝ) := by
  refine ⟨by norm_num, by norm_num, ?_⟩
  intro i j h
  fin_cases i <;> fin_cases j <;> first | exact absurd h (by decide) | norm_num

/-- `C132_front` and `C132_front_fine`: the spline of degree 2 over 0, 0, 0, 1, 2, 3, 4, clamped at the
front only: with five steps or more its length cannot be computed, and one of the samples that
panic is in `[3, 4)`. -/
example (ps : Arr (PointN ℝ 2) 4) : ∃ b : BSpline ℝ (PointN ℝ 2) 7 4 2,
    BSpline.new ![0, 0, 0, 1, 2, 3, 4] ps = .ok b ∧ (∀ n, 5 ≤ n → b.arclen n = none) ∧
    ∃ s, LengthSample 0 4 5 s ∧ 3 ≤ s ∧ s < 4 := by
  obtain ⟨b, hb⟩ := (C43_accepts (D := 2) _ ps).2 valid_front2
  have hf : FrontClamped 2 (![0, 0, 0, 1, 2, 3, 4] : Fin 7 → ℝ) := by
    rw [frontClamped_iff valid_front2]
    norm_num [knotAt, eps]
  have hnb : ¬ BackClamped 2 (![0, 0, 0, 1, 2, 3, 4] : Fin 7 → ℝ) := by
    rw [backClamped_iff valid_front2]
    norm_num [knotAt, eps]
  have fine : ∀ n, 5 ≤ n → b.arclen n = none := fun n hn =>
    C132_front_fine hb hf hnb (by norm_num [knotAt]) (by omega) (by
      have : (5 : ℝ) ≤ n := by exact_mod_cast hn
      norm_num [knotAt]
      linarith)
  obtain ⟨s, hs, h1, h2, _⟩ := (C132_front hb hf hnb 5).1 (fine 5 le_rfl)
  refine ⟨b, hb, fine, s, ?_, ?_, ?_⟩
  · simpa [knotAt] using hs
  · simpa [knotAt] using h1
  · simpa [knotAt] using h2

/-- `C132_back`: degree 1 over 0, 1, 2, 2. -/
example (ps : Arr (PointN ℝ 2) 2) : ∃ b : BSpline ℝ (PointN ℝ 2) 4 2 1,
    BSpline.new ![0, 1, 2, 2] ps = .ok b ∧ b.arclen 10 = none := by
  have v : ValidSpline 2 1 (![0, 1, 2, 2] : Fin 4 → ℝ) := by
    refine ⟨by norm_num, by norm_num, ?_⟩
    intro i j h
    fin_cases i <;> fin_cases j <;> first | exact absurd h (by decide) | norm_num
  obtain ⟨b, hb⟩ := (C43_accepts (D := 1) _ ps).2 v
  refine ⟨b, hb, C132_back hb ?_ ?_ (by norm_num)⟩
  · rw [frontClamped_iff v]
    norm_num [knotAt, eps]
  · rw [backClamped_iff v]
    norm_num [knotAt, eps]

/-! ### Lengths along a curve -/

/-- `C128_order`, `C128_between` and `C128_chord`: a quarter and three quarters of the length of a
parabola. -/
example : ∃ (b : Bezier (PointN ℝ 2) 3) (L t t' : ℝ) (p q : PointN ℝ 2), HasLength b L ∧ 0 < L ∧
    t < t' ∧ b.eval t = some p ∧ b.eval t' = some q ∧ pdist p q ≤ L / 2 ∧
    ∃ l r x y, b.split t' = some (l, r) ∧ l.split (t / t') = some (x, y) ∧ HasLength y (L / 2) := by
  set b : Bezier (PointN ℝ 2) 3 := ⟨![pt2 0 0, pt2 1 1, pt2 2 0]⟩ with hbdef
  have hb : ∃ k, b.control_points k ≠ b.control_points ⟨0, by norm_num⟩ := ⟨1, fun h => by
    have := congrArg (fun p => coord p 0) h
    simp [hbdef] at this⟩
  obtain ⟨L, hL, hex⟩ := C128_exists b (by norm_num)
  have hL0 : 0 < L := by
    have := lengthTo_strictMono b (by norm_num) hb (show (0 : ℝ) < 1 by norm_num)
    rw [lengthTo_zero] at this
    rw [(hasLength_iff b (by norm_num) L).1 hL]
    exact this
  obtain ⟨t, t0, t1, ht⟩ := hex (L / 4) (by linarith) (by linarith)
  obtain ⟨t', t0', t1', ht'⟩ := hex (3 * L / 4) (by linarith) (by linarith)
  have hlt := (C128_order b (by norm_num) hb t0 t0' ht ht').1.2 (by linarith)
  obtain ⟨l, r, x, y, h1, h2, _, h4⟩ := C128_between b (by norm_num) t0 (t0.trans_lt hlt) ht ht' hlt.le
  obtain ⟨p, hp⟩ : ∃ p, b.eval t = some p := ⟨_, bezier_eval_cas b (by norm_num) t⟩
  obtain ⟨q, hq⟩ : ∃ q, b.eval t' = some q := ⟨_, bezier_eval_cas b (by norm_num) t'⟩
  have := C128_chord b (by norm_num) t0 hlt.le ht ht' hp hq
  refine ⟨b, L, t, t', p, q, hL, hL0, hlt, hp, hq, by linarith, l, r, x, y, h1, h2, ?_⟩
  rwa [show L / 2 = 3 * L / 4 - L / 4 by ring]

/-! ### Distances -/

/-- `C123_cubic`: an arch seen from (3, 7), after eight
halvings. -/
example : ∃ m d : ℝ, IsCurveDistance
      (fun t => (CubicBezier.new (pt2 0 0) (pt2 1 2) (pt2 3 2) (pt2 4 0)).eval t) (pt2 3 7) d ∧
    m - 3 / 2 * (CubicBezier.new (pt2 0 0) (pt2 1 2) (pt2 3 2) (pt2 4 0)).leg / 2 ^ 8 ≤ d ∧ d ≤ m := by
  obtain ⟨d, _, hd⟩ := C123_distance_exists
    (fun t => (CubicBezier.new (pt2 0 0) (pt2 1 2) (pt2 3 2) (pt2 4 0)).eval t) (pt2 3 7)
  have hne : (pieces CubicBezier.halve 8
      (CubicBezier.new (pt2 0 0) (pt2 1 2) (pt2 3 2) (pt2 4 0))).flatMap
        (fun p => [p.start, p.end_]) ≠ [] := by
    intro hcon
    have h1 := congrArg List.length hcon
    rw [List.length_flatMap] at h1
    simp only [List.length_cons, List.length_nil, List.map_const', List.sum_replicate,
      pieces_length] at h1
    norm_num at h1
  obtain ⟨m, hm⟩ := C123_nearest_exists (pt2 3 7) _ hne
  exact ⟨m, d, hd, C123_cubic _ 8 _ m d hm hd⟩

/-- `C134_partial` and `C134_false`: the segment [1, 3], moved to [3/2, 7/2]; the query points 2 and
5/2 project before the end of either, and the result jumps at the end of the segment. -/
example : (∃ d d', seg13.distanceToPoint (p1 2) = some d ∧
      (LineSegment.new (p1 (3 / 2)) (p1 (7 / 2))).distanceToPoint (p1 (5 / 2)) = some d' ∧
      |d - d'| ≤ 1 / 2 + 1 / 2) ∧
    seg13.distanceToPoint seg13.end_ = some (2 : ℝ) ∧
    seg13.distanceToPoint (seg13.eval (1 - 1 / 1000 : ℝ)) = some (0 : ℝ) := by
  have := eps_lt_one
  have e : pdist seg13.end_ seg13.start = 2 := by
    simp only [seg13, LineSegment.new, pdist_pn1]; norm_num
  have hl : eps ≤ pdist seg13.end_ seg13.start ^ 2 := by rw [e]; linarith
  refine ⟨?_, ?_, ?_⟩
  · obtain ⟨d, d', h1, h2, h3⟩ := C134_partial seg13 (LineSegment.new (p1 (3 / 2)) (p1 (7 / 2)))
      (p1 2) (p1 (5 / 2)) (1 / 2)
      (by simp only [seg13, LineSegment.new, p1, pdist_pn1]; norm_num [abs_le])
      (by simp only [seg13, LineSegment.new, p1, pdist_pn1]; norm_num [abs_le]) hl
      (by simp only [LineSegment.new, p1, pdist_pn1]; norm_num; linarith)
      (by
        unfold ProjectsBeforeEnd
        show ∑ i ∈ Finset.range 1, _ < _
        rw [Finset.sum_range_one]
        simp only [seg13, LineSegment.new, p1, pdist_pn1, coord_pn1]
        norm_num)
      (by
        unfold ProjectsBeforeEnd
        show ∑ i ∈ Finset.range 1, _ < _
        rw [Finset.sum_range_one]
        simp only [LineSegment.new, p1, pdist_pn1, coord_pn1]
        norm_num)
    refine ⟨d, d', h1, h2, h3.trans ?_⟩
    simp only [p1, pdist_pn1]
    norm_num [abs_le]
  · rw [(C134_false seg13 hl 1 (by norm_num) le_rfl).1, e]
  · exact (C134_false seg13 hl (1 / 1000) (by norm_num) (by norm_num)).2.1

/-- `C135_polygon`: at the parameter 1/4 the arch is at most 1/8 from the middle of its first leg. -/
example : ∃ r, (Bezier.new ![pt2 0 0, pt2 1 1, pt2 2 0]).eval (1 / 4 : ℝ) = some r ∧
    pdist r (pt2 (1 / 2) (1 / 2)) ≤ 1 / 8 := by
  have e : pdist (pt2 0 0 + pt2 2 0) (pt2 1 1 + pt2 1 1) = 2 := by
    simp only [pdist, show Point.dim (PointN ℝ 2) = 2 from rfl, Finset.sum_range_succ,
      Finset.sum_range_zero, coord_add, coord_pt2_0, coord_pt2_1]
    rw [show (0 : ℝ) + (0 + 2 - (1 + 1)) ^ 2 + (0 + 0 - (1 + 1)) ^ 2 = 2 ^ 2 by norm_num,
      Real.sqrt_sq (by norm_num)]
  have hA : SecondDifferences (Bezier.new ![pt2 0 0, pt2 1 1, pt2 2 0]) 2 := by
    intro k hk
    have : k = 0 := by
      have : k + 2 < 3 := hk
      omega
    subst this
    exact e.le
  obtain ⟨r, hr, h⟩ := C135_polygon _ hA (j := 0) (by norm_num) (l := 1 / 2) (t := 1 / 4)
    (by norm_num) (by norm_num) (by norm_num)
  refine ⟨r, hr, ?_⟩
  have e2 : (Bezier.new ![pt2 0 0, pt2 1 1, pt2 2 0]).control_points ⟨0, by norm_num⟩ * (1 - 1 / 2 : ℝ)
      + (Bezier.new ![pt2 0 0, pt2 1 1, pt2 2 0]).control_points ⟨0 + 1, by norm_num⟩ * (1 / 2 : ℝ)
      = pt2 (1 / 2) (1 / 2) := by
    refine point_ext fun i => ?_
    rw [coord_add, coord_mul, coord_mul]
    by_cases hi : i < 2
    · interval_cases i <;> simp [Bezier.new]
    · rw [coord_out _ hi, coord_out _ hi, coord_out _ hi]; ring
  rw [e2] at h
  refine h.trans ?_
  norm_num

/-! ### Detours -/

/-- `C136_is_linear`: on the number line the control point 5 is within 1 of the segment from 0 to 4,
beyond its end. -/
example : ∃ r r', (QuadraticBezier.new (p1 0) (p1 5) (p1 4)).isLinear (1 : ℝ) = some r ∧
    (QuadraticBezier.new (p1 4) (p1 5) (p1 0)).isLinear (1 : ℝ) = some r' ∧ (r || r') = true := by
  have := eps_lt_one
  obtain ⟨r, r', h1, h2, h3⟩ := C136_is_linear (p1 0) (p1 5) (p1 4) 1 (by
    simp only [p1, pdist_pn1]; norm_num; linarith)
  refine ⟨r, r', h1, h2, h3.2 ⟨1, ?_, le_rfl⟩⟩
  refine ⟨1, by norm_num, le_rfl, ?_⟩
  show (1 : ℝ) = Real.sqrt (∑ i ∈ Finset.range 1, _)
  rw [Finset.sum_range_one, coord_p1, coord_p1, coord_p1]
  norm_num

/-- `C96_independent`: two curves with the same x coordinates and different y coordinates, in floating
point. -/
example {S : Type} [Scalar S] (t : S) :
    ((⟨![PointN.new ![lit 0, lit 5], PointN.new ![lit 1, lit 6]]⟩ : Bezier (PointN S 2) 2).eval t).map
        (fun p => p.coords 0)
      = ((⟨![PointN.new ![lit 0, lit 7], PointN.new ![lit 1, lit 9]]⟩ : Bezier (PointN S 2) 2).eval t).map
        (fun p => p.coords 0) :=
  C96_independent _ _ 0 t fun k => by fin_cases k <;> rfl

end Stroke
